import Verif.Spec.Decomp
import Verif.Lemmas.Lammps.Comm

/-! # Forward and reverse communication among all processes -/

namespace Verif.Lammps
open Verif.MACE Verif.Spec

variable {np C : ℕ} {A : ℕ → Atoms} {κ : ℕ → ℕ → ℕ} {ms : List Msg}

/-- Number of local and ghost atoms. -/
abbrev natoms (A : Atoms) : ℕ := A.nlocal + A.nghost

theorem PlanOk.init {m : Msg} (h : PlanOk np A κ (ms ++ [m])) : PlanOk np A κ ms :=
  ⟨fun m' hm => h.proc m' (List.mem_append_left _ hm), fun m' hm => h.range m' (List.mem_append_left _ hm),
    fun m' hm => h.image m' (List.mem_append_left _ hm),
    fun pre m' post he => h.sent pre m' (post ++ [m]) (by rw [he]; simp),
    fun pre m' post he => h.new pre m' (post ++ [m]) (by rw [he]; simp)⟩

theorem PlanOk.known_lt (h : PlanOk np A κ ms) {p j : ℕ} (hk : Known A ms p j) : j < natoms (A p) := by
  rcases hk with h1 | ⟨m, hm, rfl, _, h2⟩
  · exact Nat.lt_add_right _ h1
  · exact lt_of_lt_of_le h2 (h.range m hm)

theorem PlanOk.list_lt {m : Msg} (h : PlanOk np A κ (ms ++ [m])) {k : ℕ} (hk : k < m.list.length) :
    Known A ms m.src (nthN m.list k) ∧ nthN m.list k < natoms (A m.src) := by
  have h1 := h.sent ms m [] rfl (nthN m.list k) (by
    have : nthN m.list k = m.list[k] := by unfold nthN; simp [hk]
    rw [this]; exact List.getElem_mem hk)
  exact ⟨h1, h.init.known_lt h1⟩

theorem zeros_tab2 (n C : ℕ) : List.replicate (n * C) (0 : ℝ) = tab2 n C (fun _ _ => 0) := by
  rw [eq_tab2_iff]
  refine ⟨by simp, fun q hq j hj => ?_⟩
  rw [List.getElem?_replicate, if_pos (flat_lt hq hj)]

/-- One forward message. -/
theorem sendForward_eq {m : Msg} {H : ℕ → List ℝ} {g : ℕ → ℕ → ℕ → ℝ} (hr : m.first + m.list.length ≤ natoms (A m.dst))
    (hl : ∀ k < m.list.length, nthN m.list k < natoms (A m.src)) (hs : H m.src = tab2 (natoms (A m.src)) C (g m.src))
    (hd : H m.dst = tab2 (natoms (A m.dst)) C (g m.dst)) :
    sendForward C m H = some (Function.update H m.dst (tab2 (natoms (A m.dst)) C (fun a k =>
      if m.first ≤ a ∧ a < m.first + m.list.length then g m.src (nthN m.list (a - m.first)) k else g m.dst a k))) := by
  unfold sendForward
  simp only [Option.bind_eq_bind]
  rw [hs, hd, zeros_tab2, packForward_eq le_rfl hl le_rfl, Option.bind_some]
  dsimp only
  rw [unpackForward_eq le_rfl hr, Option.bind_some, Option.pure_def]
  congr 2
  refine tab2_congr (fun a _ k _ => ?_)
  by_cases h : m.first ≤ a ∧ a < m.first + m.list.length
  · rw [if_pos h, if_pos h, if_pos (by omega)]
  · rw [if_neg h, if_neg h]

/-- One reverse message. -/
theorem sendReverse_eq {m : Msg} {H : ℕ → List ℝ} {g : ℕ → ℕ → ℕ → ℝ} (hr : m.first + m.list.length ≤ natoms (A m.dst))
    (hl : ∀ k < m.list.length, nthN m.list k < natoms (A m.src)) (hs : H m.src = tab2 (natoms (A m.src)) C (g m.src))
    (hd : H m.dst = tab2 (natoms (A m.dst)) C (g m.dst)) :
    sendReverse C m H = some (Function.update H m.src (tab2 (natoms (A m.src)) C (fun a k =>
      g m.src a k + ∑ ii ∈ Finset.range m.list.length, if nthN m.list ii = a then g m.dst (m.first + ii) k else 0))) := by
  unfold sendReverse
  simp only [Option.bind_eq_bind]
  rw [hs, hd, zeros_tab2, packReverse_eq le_rfl hr, Option.bind_some]
  dsimp only
  rw [unpackReverse_eq le_rfl hl le_rfl, Option.bind_some, Option.pure_def]
  congr 2
  refine tab2_congr (fun a _ k _ => ?_)
  congr 1
  refine Finset.sum_congr rfl (fun ii hii => ?_)
  rw [if_pos (Finset.mem_range.mp hii)]

theorem forwardComm_snoc (m : Msg) (H : ℕ → List ℝ) :
    forwardComm C (ms ++ [m]) H = (forwardComm C ms H).bind (sendForward C m) := by
  unfold forwardComm
  rw [List.foldlM_append]
  simp [Option.bind_eq_bind, Option.pure_def]

theorem reverseComm_snoc (m : Msg) (H : ℕ → List ℝ) :
    reverseComm C (ms ++ [m]) H = (sendReverse C m H).bind (reverseComm C ms) := by
  unfold reverseComm
  rw [List.reverse_append]
  rfl

/-- After the forward communication all known rows are those of the atoms they are images of. -/
theorem forward_eq {x : ℕ → ℕ → ℝ} {H : ℕ → List ℝ} {g : ℕ → ℕ → ℕ → ℝ} (h : PlanOk np A κ ms)
    (hH : ∀ p < np, H p = tab2 (natoms (A p)) C (g p)) (hg : ∀ p < np, ∀ j < (A p).nlocal, ∀ k < C, g p j k = x (κ p j) k) :
    ∃ (H' : ℕ → List ℝ) (g' : ℕ → ℕ → ℕ → ℝ), forwardComm C ms H = some H' ∧ (∀ p < np, H' p = tab2 (natoms (A p)) C (g' p)) ∧
      ∀ p < np, ∀ j, Known A ms p j → ∀ k < C, g' p j k = x (κ p j) k := by
  induction ms using List.reverseRecOn with
  | nil =>
    refine ⟨H, g, rfl, hH, fun p hp j hj => ?_⟩
    rcases hj with h1 | ⟨m, hm, _⟩
    · exact hg p hp j h1
    · cases hm
  | append_singleton ms m ih =>
    obtain ⟨H1, g1, e1, e2, e3⟩ := ih h.init
    have hm : m ∈ ms ++ [m] := by simp
    obtain ⟨ps, pd⟩ := h.proc m hm
    have hl := fun k hk => (h.list_lt (k := k) hk)
    rw [forwardComm_snoc, e1, Option.bind_some, sendForward_eq (g := g1) (h.range m hm) (fun k hk => (hl k hk).2) (e2 _ ps) (e2 _ pd)]
    refine ⟨_, fun p => if p = m.dst then fun a k =>
      if m.first ≤ a ∧ a < m.first + m.list.length then g1 m.src (nthN m.list (a - m.first)) k else g1 m.dst a k else g1 p, rfl,
      fun p hp => ?_, fun p hp j hj k hk => ?_⟩
    · by_cases hpd : p = m.dst
      · dsimp only
        rw [hpd, Function.update_self, if_pos rfl]
      · dsimp only
        rw [Function.update_of_ne hpd, if_neg hpd, e2 p hp]
    · dsimp only
      by_cases hpd : p = m.dst
      · rw [if_pos hpd]
        by_cases hr : m.first ≤ j ∧ j < m.first + m.list.length
        · rw [if_pos hr, e3 _ ps _ (hl _ (by omega)).1 k hk, ← h.image m hm _ (by omega), hpd]
          congr 2
          omega
        · rw [if_neg hr, hpd]
          have hj' : Known A ms m.dst j := by
            rw [hpd] at hj
            rcases hj with h1 | ⟨m', h1, h2, h3⟩
            · exact Or.inl h1
            · rcases List.mem_append.mp h1 with h4 | h4
              · exact Or.inr ⟨m', h4, h2, h3⟩
              · rw [List.mem_singleton.mp h4] at h3
                exact absurd h3 hr
          exact e3 _ pd j hj' k hk
      · rw [if_neg hpd]
        refine e3 p hp j ?_ k hk
        rcases hj with h1 | ⟨m', h1, h2, h3⟩
        · exact Or.inl h1
        · rcases List.mem_append.mp h1 with h4 | h4
          · exact Or.inr ⟨m', h4, h2, h3⟩
          · rw [List.mem_singleton.mp h4] at h2
            exact absurd h2.symm hpd

/-- Rows after the answer to one message. -/
def revRow (m : Msg) (a : ℕ → ℕ → ℕ → ℝ) (p j k : ℕ) : ℝ :=
  a p j k + if p = m.src then ∑ ii ∈ Finset.range m.list.length, if nthN m.list ii = j then a m.dst (m.first + ii) k else 0 else 0

/-- Rows after the reverse communication. -/
def revRows (ms : List Msg) (a : ℕ → ℕ → ℕ → ℝ) : ℕ → ℕ → ℕ → ℝ := ms.reverse.foldl (fun a m => revRow m a) a

theorem revRows_snoc (m : Msg) (a : ℕ → ℕ → ℕ → ℝ) : revRows (ms ++ [m]) a = revRows ms (revRow m a) := by
  unfold revRows
  rw [List.reverse_append]
  rfl

open Classical in
/-- Reverse communication is the transpose of forward communication: pairing with data `x` of the atoms. -/
theorem reverse_eq {H : ℕ → List ℝ} {a : ℕ → ℕ → ℕ → ℝ} (h : PlanOk np A κ ms)
    (hH : ∀ p < np, H p = tab2 (natoms (A p)) C (a p)) :
    ∃ H' : ℕ → List ℝ, reverseComm C ms H = some H' ∧ (∀ p < np, H' p = tab2 (natoms (A p)) C (revRows ms a p)) ∧
      ∀ x : ℕ → ℕ → ℝ, ∑ p ∈ Finset.range np, ∑ j ∈ Finset.range (A p).nlocal, ∑ k ∈ Finset.range C, revRows ms a p j k * x (κ p j) k
        = ∑ p ∈ Finset.range np, ∑ j ∈ (Finset.range (natoms (A p))).filter (Known A ms p), ∑ k ∈ Finset.range C, a p j k * x (κ p j) k := by
  induction ms using List.reverseRecOn generalizing H a with
  | nil =>
    refine ⟨H, rfl, hH, fun x => Finset.sum_congr rfl (fun p _ => Finset.sum_congr ?_ (fun _ _ => rfl))⟩
    ext j
    simp only [Finset.mem_range, Finset.mem_filter, Known, List.not_mem_nil, false_and, exists_false, or_false]
    constructor
    · intro h; exact ⟨Nat.lt_add_right _ h, h⟩
    · exact fun h => h.2
  | append_singleton ms m ih =>
    have hm : m ∈ ms ++ [m] := by simp
    obtain ⟨ps, pd⟩ := h.proc m hm
    have hl := fun k hk => (h.list_lt (k := k) hk)
    have e0 := sendReverse_eq (H := H) (g := a) (h.range m hm) (fun k hk => (hl k hk).2) (hH _ ps) (hH _ pd)
    rw [revRows_snoc]
    set a1 : ℕ → ℕ → ℕ → ℝ := revRow m a with ha1
    have hH1 : ∀ p < np, Function.update H m.src (tab2 (natoms (A m.src)) C (fun j k =>
        a m.src j k + ∑ ii ∈ Finset.range m.list.length, if nthN m.list ii = j then a m.dst (m.first + ii) k else 0)) p
        = tab2 (natoms (A p)) C (a1 p) := by
      intro p hp
      by_cases hps : p = m.src
      · subst hps
        rw [Function.update_self]
        refine tab2_congr (fun j _ k _ => ?_)
        rw [ha1]; unfold revRow; rw [if_pos rfl]
      · rw [Function.update_of_ne hps, hH p hp]
        refine tab2_congr (fun j _ k _ => ?_)
        rw [ha1]; unfold revRow; rw [if_neg hps, add_zero]
    obtain ⟨H', e1, e2, e3⟩ := ih h.init hH1
    refine ⟨H', by rw [reverseComm_snoc, e0, Option.bind_some, e1], e2, fun x => ?_⟩
    rw [e3 x]
    set y : ℕ → ℕ → ℝ := fun p j => ∑ k ∈ Finset.range C, a p j k * x (κ p j) k with hy
    have hz : ∀ p j, ∑ k ∈ Finset.range C, a1 p j k * x (κ p j) k = y p j + if p = m.src then
        ∑ ii ∈ Finset.range m.list.length, if nthN m.list ii = j then y m.dst (m.first + ii) else 0 else 0 := by
      intro p j
      rw [ha1, hy]
      unfold revRow
      dsimp only
      by_cases hps : p = m.src
      · simp only [if_pos hps, add_mul, Finset.sum_add_distrib, Finset.sum_mul]
        congr 1
        rw [Finset.sum_comm]
        refine Finset.sum_congr rfl (fun ii hii => ?_)
        by_cases hj : nthN m.list ii = j
        · simp only [if_pos hj]
          refine Finset.sum_congr rfl (fun k _ => ?_)
          rw [h.image m hm ii (Finset.mem_range.mp hii), hj, hps]
        · simp [if_neg hj]
      · simp [if_neg hps]
    have hL : ∑ p ∈ Finset.range np, ∑ j ∈ (Finset.range (natoms (A p))).filter (Known A ms p), ∑ k ∈ Finset.range C, a1 p j k * x (κ p j) k
        = (∑ p ∈ Finset.range np, ∑ j ∈ (Finset.range (natoms (A p))).filter (Known A ms p), y p j)
          + ∑ ii ∈ Finset.range m.list.length, y m.dst (m.first + ii) := by
      simp only [hz, Finset.sum_add_distrib]
      congr 1
      rw [Finset.sum_eq_single m.src (fun p _ hne => Finset.sum_eq_zero (fun j _ => if_neg hne))
        (fun hn => absurd (Finset.mem_range.mpr ps) hn)]
      simp only [if_true]
      rw [Finset.sum_comm]
      refine Finset.sum_congr rfl (fun ii hii => ?_)
      have := hl ii (Finset.mem_range.mp hii)
      rw [Finset.sum_ite_eq, if_pos (Finset.mem_filter.mpr ⟨Finset.mem_range.mpr this.2, this.1⟩)]
    have hR : ∀ p, ∑ j ∈ (Finset.range (natoms (A p))).filter (Known A (ms ++ [m]) p), y p j
        = (∑ j ∈ (Finset.range (natoms (A p))).filter (Known A ms p), y p j)
          + if p = m.dst then ∑ ii ∈ Finset.range m.list.length, y m.dst (m.first + ii) else 0 := by
      intro p
      by_cases hpd : p = m.dst
      · rw [if_pos hpd]
        subst hpd
        have hset : (Finset.range (natoms (A m.dst))).filter (Known A (ms ++ [m]) m.dst)
            = (Finset.range (natoms (A m.dst))).filter (Known A ms m.dst)
              ∪ (Finset.range m.list.length).image (fun ii => m.first + ii) := by
          ext j
          simp only [Finset.mem_filter, Finset.mem_union, Finset.mem_image, Finset.mem_range]
          have hr := h.range m hm
          constructor
          · rintro ⟨h1, h2 | ⟨m', h3, h4, h5, h6⟩⟩
            · exact Or.inl ⟨h1, Or.inl h2⟩
            · rcases List.mem_append.mp h3 with h7 | h7
              · exact Or.inl ⟨h1, Or.inr ⟨m', h7, h4, h5, h6⟩⟩
              · rw [List.mem_singleton.mp h7] at h5 h6
                exact Or.inr ⟨j - m.first, by omega, by omega⟩
          · rintro (⟨h1, h2 | ⟨m', h3, h4, h5, h6⟩⟩ | ⟨ii, h1, rfl⟩)
            · exact ⟨h1, Or.inl h2⟩
            · exact ⟨h1, Or.inr ⟨m', List.mem_append_left _ h3, h4, h5, h6⟩⟩
            · exact ⟨by unfold natoms; omega, Or.inr ⟨m, hm, rfl, by omega, by omega⟩⟩
        rw [hset, Finset.sum_union, Finset.sum_image]
        · intro i1 _ i2 _ h; dsimp only at h; omega
        · rw [Finset.disjoint_left]
          rintro j h1 h2
          obtain ⟨ii, h3, rfl⟩ := Finset.mem_image.mp h2
          exact h.new ms m [] rfl ii (Finset.mem_range.mp h3) (Finset.mem_filter.mp h1).2
      · rw [if_neg hpd, add_zero]
        refine Finset.sum_congr ?_ (fun _ _ => rfl)
        ext j
        simp only [Finset.mem_filter, Finset.mem_range, and_congr_right_iff]
        intro _
        constructor
        · rintro (h1 | ⟨m', h1, h2, h3⟩)
          · exact Or.inl h1
          · rcases List.mem_append.mp h1 with h4 | h4
            · exact Or.inr ⟨m', h4, h2, h3⟩
            · rw [List.mem_singleton.mp h4] at h2
              exact absurd h2.symm hpd
        · rintro (h1 | ⟨m', h1, h2, h3⟩)
          · exact Or.inl h1
          · exact Or.inr ⟨m', List.mem_append_left _ h1, h2, h3⟩
    rw [hL, Finset.sum_congr rfl (fun p _ => hR p), Finset.sum_add_distrib, Finset.sum_ite_eq', if_pos (Finset.mem_range.mpr pd)]

end Verif.Lammps
