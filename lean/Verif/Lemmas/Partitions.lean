import Verif.Model.Tools
import Verif.Spec.Tools
import Mathlib.Tactic.Linarith
import Mathlib.Data.List.Nodup
import Mathlib.Data.List.Sublists

/-! # Helper lemmas: set partitions (C29, C30) -/

namespace Verif.Tools
open Verif.Spec

variable {α β : Type*}

/-- The extensions of one partition by a new element. -/
def ext (x : α) (p : List (List α)) : List (List (List α)) :=
  (p ++ [[x]]) :: (List.range p.length).map (fun j => p.modify j (· ++ [x]))

theorem partStep_eq (x : α) (ps : List (List (List α))) : partStep x ps = ps.flatMap (ext x) := rfl

theorem mem_ext {x : α} {p P : List (List α)} :
    P ∈ ext x p ↔ P = p ++ [[x]] ∨ ∃ p1 b p2, p = p1 ++ b :: p2 ∧ P = p1 ++ (b ++ [x]) :: p2 := by
  unfold ext
  rw [List.mem_cons, List.mem_map]
  refine or_congr Iff.rfl ?_
  constructor
  · rintro ⟨j, hj, rfl⟩
    rw [List.mem_range] at hj
    refine ⟨p.take j, p[j], p.drop (j + 1), ?_, ?_⟩
    · simp
    · rw [List.modify_eq_take_cons_drop hj]
  · rintro ⟨p1, b, p2, rfl, rfl⟩
    refine ⟨p1.length, by simp, ?_⟩
    rw [List.modify_eq_take_cons_drop (by simp)]
    simp

theorem heads_append_singleton (p : List (List α)) (x : α) :
    (p ++ [[x]]).filterMap List.head? = p.filterMap List.head? ++ [x] := by
  simp [List.filterMap_append]

theorem isPartition_ext {v : List α} {p P : List (List α)} {x : α} (hp : IsPartition v p)
    (hP : P ∈ ext x p) : IsPartition (v ++ [x]) P := by
  rcases mem_ext.mp hP with rfl | ⟨p1, b, p2, rfl, rfl⟩
  · refine ⟨?_, ?_, ?_, ?_⟩
    · intro b hb
      rcases List.mem_append.mp hb with h | h
      · exact hp.nonempty b h
      · simp at h; simp [h]
    · simp only [List.flatten_append, List.flatten_cons, List.flatten_nil, List.append_nil]
      exact hp.perm.append_right _
    · intro b hb
      rcases List.mem_append.mp hb with h | h
      · exact (hp.inOrder b h).trans (List.sublist_append_left _ _)
      · simp at h; subst h; exact List.sublist_append_right _ _
    · rw [heads_append_singleton]
      exact hp.heads.append (List.Sublist.refl _)
  · have hbne : b ≠ [] := hp.nonempty b (by simp)
    refine ⟨?_, ?_, ?_, ?_⟩
    · intro c hc
      rw [List.mem_append, List.mem_cons] at hc
      rcases hc with h | h | h
      · exact hp.nonempty c (by simp [h])
      · subst h; simp
      · exact hp.nonempty c (by simp [h])
    · have := hp.perm.append_right [x]
      refine List.Perm.trans ?_ this
      simp only [List.flatten_append, List.flatten_cons, List.append_assoc]
      refine List.Perm.append_left _ (List.Perm.append_left _ ?_)
      exact List.perm_append_comm
    · intro c hc
      rw [List.mem_append, List.mem_cons] at hc
      rcases hc with h | h | h
      · exact (hp.inOrder c (by simp [h])).trans (List.sublist_append_left _ _)
      · subst h; exact (hp.inOrder b (by simp)).append (List.Sublist.refl _)
      · exact (hp.inOrder c (by simp [h])).trans (List.sublist_append_left _ _)
    · have : (p1 ++ (b ++ [x]) :: p2).filterMap List.head? = (p1 ++ b :: p2).filterMap List.head? := by
        obtain ⟨y, ys, rfl⟩ := List.exists_cons_of_ne_nil hbne
        simp
      rw [this]
      exact hp.heads.trans (List.sublist_append_left _ _)

theorem sublist_of_not_mem {l v : List α} {x : α} (h : l.Sublist (v ++ [x])) (hx : x ∉ l) :
    l.Sublist v := by
  obtain ⟨l1, l2, rfl, h1, h2⟩ := List.sublist_append_iff.mp h
  rcases List.sublist_cons_iff.mp h2 with h3 | ⟨r, rfl, h3⟩
  · rw [List.sublist_nil.mp h3]; simpa using h1
  · exact absurd (by simp) hx

theorem sublist_of_mem {l v : List α} {x : α} (h : l.Sublist (v ++ [x])) (hx : x ∈ l) (hv : x ∉ v) :
    ∃ l', l = l' ++ [x] ∧ l'.Sublist v := by
  obtain ⟨l1, l2, rfl, h1, h2⟩ := List.sublist_append_iff.mp h
  rcases List.sublist_cons_iff.mp h2 with h3 | ⟨r, rfl, h3⟩
  · rw [List.sublist_nil.mp h3] at hx
    exact absurd (h1.subset (by simpa using hx)) hv
  · rw [List.sublist_nil.mp h3]; exact ⟨l1, rfl, h1⟩

theorem heads_ne_nil {p : List (List α)} (h : ∀ b ∈ p, b ≠ []) (hp : p.filterMap List.head? = []) :
    p = [] := by
  cases p with
  | nil => rfl
  | cons b p =>
    obtain ⟨y, ys, rfl⟩ := List.exists_cons_of_ne_nil (h b (by simp))
    simp at hp

theorem isPartition_of_snoc {v : List α} {P : List (List α)} {x : α} (hnd : (v ++ [x]).Nodup)
    (hP : IsPartition (v ++ [x]) P) : ∃ p, IsPartition v p ∧ P ∈ ext x p := by
  have hxv : x ∉ v := by
    intro h
    rw [List.nodup_append] at hnd
    exact hnd.2.2 x h x (by simp) rfl
  have hflnd : P.flatten.Nodup := hP.perm.nodup_iff.mpr hnd
  have hxP : x ∈ P.flatten := hP.perm.mem_iff.mpr (by simp)
  obtain ⟨b, hb, hxb⟩ := List.mem_flatten.mp hxP
  obtain ⟨b', rfl, hb'⟩ := sublist_of_mem (hP.inOrder b hb) hxb hxv
  obtain ⟨P1, P2, rfl⟩ := List.append_of_mem hb
  -- other blocks do not contain x
  have hfl : (P1 ++ (b' ++ [x]) :: P2).flatten = P1.flatten ++ (b' ++ (x :: P2.flatten)) := by simp
  rw [hfl] at hflnd
  have hmid : (x :: (P1.flatten ++ b' ++ P2.flatten)).Nodup := by
    refine (List.Perm.nodup_iff ?_).mp hflnd
    rw [← List.append_assoc]
    exact List.perm_middle
  have hxnot : x ∉ P1.flatten ++ b' ++ P2.flatten := (List.nodup_cons.mp hmid).1
  have hperm : (P1.flatten ++ b' ++ P2.flatten).Perm v := by
    have h1 : (x :: (P1.flatten ++ b' ++ P2.flatten)).Perm (x :: v) := by
      refine List.Perm.trans ?_ (hP.perm.trans List.perm_append_comm)
      rw [hfl, ← List.append_assoc (P1.flatten)]
      exact List.perm_middle.symm
    exact h1.cons_inv
  have hx1 : ∀ c ∈ P1, x ∉ c := fun c hc h => hxnot (by
    simp only [List.mem_append]; left; left; exact List.mem_flatten.mpr ⟨c, hc, h⟩)
  have hx2 : ∀ c ∈ P2, x ∉ c := fun c hc h => hxnot (by
    simp only [List.mem_append]; right; exact List.mem_flatten.mpr ⟨c, hc, h⟩)
  by_cases hbn : b' = []
  · subst hbn
    have hh := hP.heads
    simp only [List.nil_append, List.filterMap_append, List.filterMap_cons, List.head?_cons] at hh
    have hP2 : P2 = [] := by
      apply heads_ne_nil (fun c hc => hP.nonempty c (by simp [hc]))
      have hx' : x ∈ P1.filterMap List.head? ++ x :: P2.filterMap List.head? := by simp
      obtain ⟨l', hl', hl'v⟩ := sublist_of_mem hh hx' hxv
      by_contra hne
      obtain ⟨y, ys, hys⟩ := List.exists_cons_of_ne_nil hne
      have hlast : (P2.filterMap List.head?).getLast hne = x := by
        have h1 := congrArg List.getLast? hl'
        rw [List.getLast?_append, hys] at h1
        simp only [hys]
        simp at h1
        rw [List.getLast?_cons] at h1
        simp at h1
        rw [List.getLast_eq_getLastD]
        simpa using h1
      have hm : x ∈ P2.filterMap List.head? := hlast ▸ List.getLast_mem hne
      obtain ⟨c, hc, hcx⟩ := List.mem_filterMap.mp hm
      exact hx2 c hc (List.mem_of_mem_head? hcx)
    subst hP2
    refine ⟨P1, ⟨?_, ?_, ?_, ?_⟩, mem_ext.mpr (Or.inl (by simp))⟩
    · exact fun c hc => hP.nonempty c (by simp [hc])
    · simpa using hperm
    · exact fun c hc => sublist_of_not_mem (hP.inOrder c (by simp [hc])) (hx1 c hc)
    · simp only [List.filterMap_nil] at hh
      refine sublist_of_not_mem ((List.sublist_append_left _ _).trans hh) ?_
      intro h
      obtain ⟨c, hc, hcx⟩ := List.mem_filterMap.mp h
      exact hx1 c hc (List.mem_of_mem_head? hcx)
  · refine ⟨P1 ++ b' :: P2, ⟨?_, ?_, ?_, ?_⟩, mem_ext.mpr (Or.inr ⟨P1, b', P2, rfl, rfl⟩)⟩
    · intro c hc
      rw [List.mem_append, List.mem_cons] at hc
      rcases hc with h | h | h
      · exact hP.nonempty c (by simp [h])
      · subst h; exact hbn
      · exact hP.nonempty c (by simp [h])
    · simpa using hperm
    · intro c hc
      rw [List.mem_append, List.mem_cons] at hc
      rcases hc with h | h | h
      · exact sublist_of_not_mem (hP.inOrder c (by simp [h])) (hx1 c h)
      · subst h; exact hb'
      · exact sublist_of_not_mem (hP.inOrder c (by simp [h])) (hx2 c h)
    · have : (P1 ++ (b' ++ [x]) :: P2).filterMap List.head? = (P1 ++ b' :: P2).filterMap List.head? := by
        obtain ⟨y, ys, rfl⟩ := List.exists_cons_of_ne_nil hbn
        simp
      have hh := hP.heads
      rw [this] at hh
      refine sublist_of_not_mem hh ?_
      intro h
      obtain ⟨c, hc, hcx⟩ := List.mem_filterMap.mp h
      have hxc := List.mem_of_mem_head? hcx
      rw [List.mem_append, List.mem_cons] at hc
      rcases hc with h | h | h
      · exact hx1 c h hxc
      · subst h; exact hxnot (by simp [hxc])
      · exact hx2 c h hxc

/-- Removing `x` again. -/
def unext [DecidableEq α] (x : α) (P : List (List α)) : List (List α) :=
  (P.map (fun b => b.filter (fun y => y ≠ x))).filter (fun b => b ≠ [])

theorem unext_self [DecidableEq α] {x : α} {p : List (List α)} (hne : ∀ b ∈ p, b ≠ []) (hx : ∀ b ∈ p, x ∉ b) :
    unext x p = p := by
  unfold unext
  have h1 : p.map (fun b => b.filter (fun y => y ≠ x)) = p := by
    conv_rhs => rw [← List.map_id p]
    apply List.map_congr_left
    intro b hb
    rw [id, List.filter_eq_self]
    intro y hy
    have : y ≠ x := fun h => hx b hb (h ▸ hy)
    simp [this]
  rw [h1, List.filter_eq_self]
  intro b hb
  simp [hne b hb]

theorem unext_append [DecidableEq α] (x : α) (P Q : List (List α)) : unext x (P ++ Q) = unext x P ++ unext x Q := by
  unfold unext
  rw [List.map_append, List.filter_append]

theorem unext_of_mem_ext [DecidableEq α] {x : α} {p P : List (List α)} (hne : ∀ b ∈ p, b ≠ []) (hx : ∀ b ∈ p, x ∉ b)
    (hP : P ∈ ext x p) : unext x P = p := by
  rcases mem_ext.mp hP with rfl | ⟨p1, b, p2, rfl, rfl⟩
  · rw [unext_append, unext_self hne hx]
    have : unext x [[x]] = [] := by unfold unext; simp
    rw [this, List.append_nil]
  · have h0 : unext x [b ++ [x]] = [b] := by
      have hxb := hx b (by simp)
      have hbne := hne b (by simp)
      unfold unext
      have : (b ++ [x]).filter (fun y => decide (y ≠ x)) = b := by
        rw [List.filter_append]
        have h2 : b.filter (fun y => decide (y ≠ x)) = b := by
          rw [List.filter_eq_self]
          intro y hy
          have : y ≠ x := fun h => hxb (h ▸ hy)
          simp [this]
        rw [h2]; simp
      simp only [List.map_cons, List.map_nil, this]
      simp [hbne]
    have e1 : p1 ++ (b ++ [x]) :: p2 = p1 ++ ([b ++ [x]] ++ p2) := by simp
    rw [e1, unext_append, unext_append, h0,
      unext_self (fun c hc => hne c (by simp [hc])) (fun c hc => hx c (by simp [hc])),
      unext_self (fun c hc => hne c (by simp [hc])) (fun c hc => hx c (by simp [hc]))]
    simp

theorem nodup_ext (x : α) (p : List (List α)) : (ext x p).Nodup := by
  unfold ext
  rw [List.nodup_cons]
  constructor
  · intro h
    obtain ⟨j, _, hj⟩ := List.mem_map.mp h
    have := congrArg List.length hj
    simp at this
  · rw [List.nodup_map_iff_inj_on List.nodup_range]
    intro i hi j hj hij
    rw [List.mem_range] at hi hj
    by_contra hne
    have h1 := congrArg (fun q : List (List α) => q[i]?) hij
    simp only [List.getElem?_modify, hi, List.getElem?_eq_getElem] at h1
    have : ¬ j = i := fun h => hne h.symm
    simp [this] at h1

theorem nodup_partStep {x : α} {ps : List (List (List α))} (hnd : ps.Nodup)
    (hne : ∀ p ∈ ps, ∀ b ∈ p, b ≠ []) (hx : ∀ p ∈ ps, ∀ b ∈ p, x ∉ b) : (partStep x ps).Nodup := by
  classical
  rw [partStep_eq, List.nodup_flatMap]
  refine ⟨fun p _ => nodup_ext x p, ?_⟩
  refine hnd.pairwise_of_forall_ne ?_ 
  intro p hp q hq hpq P hP hQ
  exact hpq ((unext_of_mem_ext (hne p hp) (hx p hp) hP).symm.trans
    (unext_of_mem_ext (hne q hq) (hx q hq) hQ))

theorem partitionsUnsorted_snoc {v : List α} (hv : v ≠ []) (x : α) :
    partitionsUnsorted (v ++ [x]) = partStep x (partitionsUnsorted v) := by
  cases v with
  | nil => exact absurd rfl hv
  | cons a v => simp [partitionsUnsorted, List.foldl_append]

theorem isPartition_singleton (a : α) (P : List (List α)) : IsPartition [a] P ↔ P = [[a]] := by
  constructor
  · intro h
    have hl := h.perm.length_eq
    cases P with
    | nil => simp at hl
    | cons b P =>
      have hb := h.nonempty b (by simp)
      have hsub := h.inOrder b (by simp)
      rcases List.sublist_cons_iff.mp hsub with h3 | ⟨r, rfl, h3⟩
      · exact absurd (List.sublist_nil.mp h3) hb
      · rw [List.sublist_nil.mp h3] at hl ⊢
        cases P with
        | nil => rfl
        | cons c P =>
          have hc := h.nonempty c (by simp)
          have : 0 < c.length := List.length_pos_iff.mpr hc
          simp at hl
          exact absurd hl.1 hc
  · rintro rfl
    exact ⟨by simp, by simp, by simp, by simp⟩

theorem partitionsUnsorted_spec {v : List α} (hv : v ≠ []) (hnd : v.Nodup) :
    (partitionsUnsorted v).Nodup ∧ ∀ P, P ∈ partitionsUnsorted v ↔ IsPartition v P := by
  induction v using List.reverseRecOn with
  | nil => exact absurd rfl hv
  | append_singleton v x ih =>
    by_cases hv' : v = []
    · subst hv'
      refine ⟨by simp [partitionsUnsorted], fun P => ?_⟩
      rw [List.nil_append, isPartition_singleton]
      simp [partitionsUnsorted]
    · have hnd' : v.Nodup := (List.nodup_append.mp hnd).1
      have hxv : x ∉ v := fun h => (List.nodup_append.mp hnd).2.2 x h x (by simp) rfl
      obtain ⟨ih1, ih2⟩ := ih hv' hnd'
      rw [partitionsUnsorted_snoc hv']
      constructor
      · apply nodup_partStep ih1
        · exact fun p hp => ((ih2 p).mp hp).nonempty
        · intro p hp b hb hxb
          exact hxv ((((ih2 p).mp hp).inOrder b hb).subset hxb)
      · intro P
        rw [partStep_eq, List.mem_flatMap]
        constructor
        · rintro ⟨p, hp, hP⟩
          exact isPartition_ext ((ih2 p).mp hp) hP
        · intro hP
          obtain ⟨p, hp, hPp⟩ := isPartition_of_snoc hnd hP
          exact ⟨p, (ih2 p).mpr hp, hPp⟩

/-! ## two-block partitions -/

theorem length_of_mem_ext {x : α} {p P : List (List α)} (h : P ∈ ext x p) :
    P.length = p.length + 1 ∨ P.length = p.length := by
  rcases mem_ext.mp h with rfl | ⟨p1, b, p2, rfl, rfl⟩
  · left; simp
  · right; simp

theorem filter_ext (x : α) {p : List (List α)} (hp : p ≠ []) :
    (ext x p).filter (fun q => q.length ≤ 2) =
      if p.length ≤ 2 then
        (if p.length = 1 then [p ++ [[x]]] else []) ++
          (List.range p.length).map (fun j => p.modify j (· ++ [x]))
      else [] := by
  have hpos : 0 < p.length := List.length_pos_iff.mpr hp
  have hmap : ((List.range p.length).map (fun j => p.modify j (· ++ [x]))).filter
      (fun q => q.length ≤ 2) =
      if p.length ≤ 2 then (List.range p.length).map (fun j => p.modify j (· ++ [x])) else [] := by
    split
    · rw [List.filter_eq_self]
      intro q hq
      obtain ⟨j, _, rfl⟩ := List.mem_map.mp hq
      simpa using ‹p.length ≤ 2›
    · rw [List.filter_eq_nil_iff]
      intro q hq
      obtain ⟨j, _, rfl⟩ := List.mem_map.mp hq
      simpa using ‹¬ p.length ≤ 2›
  unfold ext
  rw [List.filter_cons, hmap]
  by_cases h1 : p.length = 1
  · simp [h1]
  · by_cases h2 : p.length ≤ 2
    · have : ¬ (p.length + 1 ≤ 2) := by omega
      simp [h1, h2, this]
    · have : ¬ (p.length + 1 ≤ 2) := by omega
      simp [h2, this]

theorem twoPartStep_filter (x : α) {ps : List (List (List α))} (hne : ∀ p ∈ ps, p ≠ []) :
    twoPartStep x (ps.filter (fun q => q.length ≤ 2)) = (partStep x ps).filter (fun q => q.length ≤ 2) := by
  induction ps with
  | nil => rfl
  | cons p ps ih =>
    have ih' := ih (fun q hq => hne q (by simp [hq]))
    rw [partStep_eq, List.flatMap_cons, List.filter_append, filter_ext x (hne p (by simp)),
      ← partStep_eq, ← ih', List.filter_cons]
    by_cases h2 : p.length ≤ 2
    · simp [h2, twoPartStep]
    · simp [h2]

theorem ne_nil_of_mem_partStep {x : α} {ps : List (List (List α))} (hne : ∀ p ∈ ps, p ≠ [])
    {P : List (List α)} (hP : P ∈ partStep x ps) : P ≠ [] := by
  rw [partStep_eq, List.mem_flatMap] at hP
  obtain ⟨p, hp, hP⟩ := hP
  have := List.length_pos_iff.mpr (hne p hp)
  apply List.length_pos_iff.mp
  rcases length_of_mem_ext hP with h | h <;> omega

theorem foldl_twoPart (vs : List α) (ps : List (List (List α))) (hne : ∀ p ∈ ps, p ≠ []) :
    vs.foldl (fun ps x => twoPartStep x ps) (ps.filter (fun q => q.length ≤ 2)) =
      (vs.foldl (fun ps x => partStep x ps) ps).filter (fun q => q.length ≤ 2) := by
  induction vs generalizing ps with
  | nil => rfl
  | cons x vs ih =>
    rw [List.foldl_cons, List.foldl_cons, twoPartStep_filter x hne]
    exact ih _ (fun P hP => ne_nil_of_mem_partStep hne hP)

theorem partitionsUnsorted_ne_nil {v : List α} : ∀ p ∈ partitionsUnsorted v, p ≠ [] := by
  induction v using List.reverseRecOn with
  | nil => simp [partitionsUnsorted]
  | append_singleton v x ih =>
    by_cases hv : v = []
    · subst hv; simp [partitionsUnsorted]
    · rw [partitionsUnsorted_snoc hv]
      exact fun P hP => ne_nil_of_mem_partStep ih hP

theorem twoPartUnsorted_eq (v : List α) :
    twoPartUnsorted v = (partitionsUnsorted v).filter (fun p => p.length = 2) := by
  cases v with
  | nil => rfl
  | cons a vs =>
    have h := foldl_twoPart vs [[[a]]] (by simp)
    have h1 : ([[[a]]] : List (List (List α))).filter (fun q => q.length ≤ 2) = [[[a]]] := by simp
    rw [h1] at h
    show (vs.foldl (fun ps x => twoPartStep x ps) [[[a]]]).filter (fun p => p.length ≠ 1) = _
    rw [h, List.filter_filter]
    have hne := partitionsUnsorted_ne_nil (v := a :: vs)
    apply List.filter_congr
    intro p hp
    have := List.length_pos_iff.mpr (hne p hp)
    by_cases h2 : p.length = 2
    · simp [h2]
    · by_cases h1 : p.length = 1
      · simp [h1]
      · have : ¬ p.length ≤ 2 := by omega
        simp [h2, this]

theorem partStep_map (f : α → β) (x : α) (ps : List (List (List α))) :
    partStep (f x) (ps.map (List.map (List.map f))) = (partStep x ps).map (List.map (List.map f)) := by
  rw [partStep_eq, partStep_eq, List.map_flatMap, List.flatMap_map]
  congr 1
  funext p
  unfold ext
  simp only [List.map_cons, List.map_append, List.map_nil, List.map_map, List.length_map]
  congr 1
  apply List.map_congr_left
  intro j _
  simp only [Function.comp]
  apply List.ext_getElem?
  intro i
  simp only [List.getElem?_modify, List.getElem?_map]
  cases p[i]? with
  | none => rfl
  | some b => by_cases h : j = i <;> simp [h]

theorem foldl_partStep_map (f : α → β) (vs : List α) (ps : List (List (List α))) :
    (vs.map f).foldl (fun ps x => partStep x ps) (ps.map (List.map (List.map f))) =
      (vs.foldl (fun ps x => partStep x ps) ps).map (List.map (List.map f)) := by
  induction vs generalizing ps with
  | nil => rfl
  | cons x vs ih =>
    rw [List.map_cons, List.foldl_cons, List.foldl_cons, partStep_map, ih]

theorem partitionsUnsorted_map (f : α → β) (v : List α) :
    partitionsUnsorted (v.map f) = (partitionsUnsorted v).map (List.map (List.map f)) := by
  cases v with
  | nil => rfl
  | cons a vs => exact foldl_partStep_map f vs [[[a]]]

theorem twoPartUnsorted_map (f : α → β) (v : List α) :
    twoPartUnsorted (v.map f) = (twoPartUnsorted v).map (List.map (List.map f)) := by
  rw [twoPartUnsorted_eq, twoPartUnsorted_eq, partitionsUnsorted_map, List.filter_map]
  congr 1
  apply List.filter_congr
  intro p _
  simp

theorem count_partStep (x : α) (ps : List (List (List α))) (hne : ∀ p ∈ ps, p ≠ []) :
    (partStep x ps).countP (fun q => q.length = 1) = ps.countP (fun q => q.length = 1) ∧
    (partStep x ps).countP (fun q => q.length = 2) =
      2 * ps.countP (fun q => q.length = 2) + ps.countP (fun q => q.length = 1) := by
  induction ps with
  | nil => simp [partStep]
  | cons p ps ih =>
    obtain ⟨ih1, ih2⟩ := ih (fun q hq => hne q (by simp [hq]))
    have hpos := List.length_pos_iff.mpr (hne p (by simp))
    have hc : ∀ k, ((List.range p.length).map (fun j => p.modify j (· ++ [x]))).countP
        (fun q => q.length = k) = if p.length = k then k else 0 := by
      intro k
      rw [List.countP_map]
      split
      · rename_i h
        rw [List.countP_eq_length.mpr]
        · simpa using h
        · intro j _; simp [h]
      · rename_i h
        rw [List.countP_eq_zero]
        intro j _; simp [h]
    rw [partStep_eq, List.flatMap_cons, ← partStep_eq, List.countP_append, List.countP_append, ih1, ih2]
    unfold ext
    simp only [List.countP_cons, hc, List.length_append, List.length_cons, List.length_nil]
    constructor
    · have hpn : p ≠ [] := hne p (by simp)
      by_cases h1 : p.length = 1
      · simp [h1]; omega
      · simp [h1, hpn]
    · by_cases h1 : p.length = 1
      · simp [h1]; omega
      · by_cases h2 : p.length = 2
        · simp [h2]; omega
        · simp [h1, h2]

theorem count_partitions {v : List α} (hv : v ≠ []) :
    (partitionsUnsorted v).countP (fun q => q.length = 1) = 1 ∧
    (partitionsUnsorted v).countP (fun q => q.length = 2) = 2 ^ (v.length - 1) - 1 := by
  induction v using List.reverseRecOn with
  | nil => exact absurd rfl hv
  | append_singleton v x ih =>
    by_cases hv' : v = []
    · subst hv'; simp [partitionsUnsorted]
    · obtain ⟨h1, h2⟩ := ih hv'
      rw [partitionsUnsorted_snoc hv']
      obtain ⟨c1, c2⟩ := count_partStep x (partitionsUnsorted v) partitionsUnsorted_ne_nil
      rw [c1, c2, h1, h2]
      refine ⟨rfl, ?_⟩
      have hpos := List.length_pos_iff.mpr hv'
      obtain ⟨m, hm⟩ : ∃ m, v.length = m + 1 := ⟨v.length - 1, by omega⟩
      have h3 : 1 ≤ 2 ^ m := Nat.one_le_two_pow
      simp only [List.length_append, List.length_cons, List.length_nil, hm, Nat.add_sub_cancel]
      rw [pow_succ]; omega

theorem length_twoPartUnsorted {v : List α} (hv : v ≠ []) :
    (twoPartUnsorted v).length = 2 ^ (v.length - 1) - 1 := by
  rw [twoPartUnsorted_eq, ← List.countP_eq_length_filter]
  exact (count_partitions hv).2

end Verif.Tools
