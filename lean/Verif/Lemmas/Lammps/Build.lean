import Verif.Spec.Lammps
import Verif.Base.Tab
import Verif.Base.Edge
import Mathlib.Data.Nat.Bitwise

/-! # Graph building in the LAMMPS pair style -/

namespace Verif

/-- `for (a : l) body(a)`. -/
def foldO {α σ : Type*} (body : α → σ → Option σ) (l : List α) (s : σ) : Option σ := l.foldlM (fun s a => body a s) s

section fold
variable {α β σ : Type*}

@[simp] theorem foldO_nil (body : α → σ → Option σ) (s : σ) : foldO body [] s = some s := rfl

theorem foldO_cons (body : α → σ → Option σ) (a : α) (l : List α) (s : σ) :
    foldO body (a :: l) s = (body a s).bind (foldO body l) := rfl

theorem foldO_append (body : α → σ → Option σ) (l l' : List α) (s : σ) :
    foldO body (l ++ l') s = (foldO body l s).bind (foldO body l') := by
  simp only [foldO, List.foldlM_append]; rfl

theorem loop_list {l : List α} {n : ℕ} (hn : n ≤ l.length) (body : α → σ → Option σ) (s : σ) :
    loop n (fun i s => (l[i]?).bind (fun a => body a s)) s = foldO body (l.take n) s := by
  induction n with
  | zero => simp
  | succ n ih =>
    rw [loop_succ, ih (by omega), List.take_add_one, List.getElem?_eq_getElem (by omega : n < l.length), Option.toList_some,
      foldO_append]
    congr 1
    funext s
    show body l[n] s = (body l[n] s).bind _
    cases body l[n] s <;> rfl

theorem foldO_filter (p : α → Prop) [DecidablePred p] (body : α → σ → Option σ) (l : List α) (s : σ) :
    foldO (fun a s => if p a then body a s else some s) l s = foldO body (l.filter (fun a => decide (p a))) s := by
  induction l generalizing s with
  | nil => rfl
  | cons a l ih =>
    rw [foldO_cons]
    by_cases h : p a
    · rw [if_pos h, List.filter_cons_of_pos (by simpa using h), foldO_cons]
      congr 1
      funext s
      exact ih s
    · rw [if_neg h, List.filter_cons_of_neg (by simpa using h), Option.bind_some]
      exact ih s

theorem foldO_map (g : β → α) (body : α → σ → Option σ) (l : List β) (s : σ) :
    foldO body (l.map g) s = foldO (fun b => body (g b)) l s := by
  simp [foldO, List.foldlM_map]

theorem foldO_congr {body body' : α → σ → Option σ} {l : List α} (h : ∀ a ∈ l, ∀ s, body a s = body' a s) (s : σ) :
    foldO body l s = foldO body' l s := by
  induction l generalizing s with
  | nil => rfl
  | cons a l ih =>
    rw [foldO_cons, foldO_cons, h a List.mem_cons_self]
    congr 1
    funext s
    exact ih (fun b hb => h b (List.mem_cons_of_mem _ hb)) s

/-- Invariant rule for `foldO`; `P pre` holds after the elements `pre`. -/
theorem foldO_inv {body : α → σ → Option σ} {l : List α} (P : List α → σ → Prop) {s : σ} (h0 : P [] s)
    (hstep : ∀ pre a, a ∈ l → pre ++ [a] <+: l → ∀ s, P pre s → ∃ s', body a s = some s' ∧ P (pre ++ [a]) s') :
    ∃ s', foldO body l s = some s' ∧ P l s' := by
  suffices H : ∀ suf pre, pre ++ suf = l → ∀ s, P pre s → ∃ s', foldO body suf s = some s' ∧ P l s' from H l [] rfl s h0
  intro suf
  induction suf with
  | nil => intro pre e s hP; exact ⟨s, rfl, by rw [← e, List.append_nil]; exact hP⟩
  | cons a suf ih =>
    intro pre e s hP
    have e' : (pre ++ [a]) ++ suf = l := by simpa using e
    obtain ⟨s1, h1, h2⟩ := hstep pre a (by rw [← e]; simp) ⟨suf, e'⟩ s hP
    obtain ⟨s2, h3, h4⟩ := ih (pre ++ [a]) e' s1 h2
    exact ⟨s2, by rw [foldO_cons, h1, Option.bind_some, h3], h4⟩

end fold

/-- A buffer of `n` cells whose first cells are `l`. -/
def Pre {α : Type*} (b : List α) (n : ℕ) (l : List α) : Prop := b.length = n ∧ l <+: b

section pre
variable {α : Type*} {b l : List α} {n : ℕ} {v : α}

theorem Pre.nil (h : b.length = n) : Pre b n [] := ⟨h, List.nil_prefix⟩

theorem Pre.done (h : Pre b n l) (hl : l.length = n) : b = l := (h.2.eq_of_length (by rw [h.1, hl])).symm

theorem Pre.le (h : Pre b n l) : l.length ≤ n := h.1 ▸ h.2.length_le

theorem Pre.wr (h : Pre b n l) (hl : l.length < n) : ∃ b', wr b l.length v = some b' ∧ Pre b' n (l ++ [v]) := by
  refine ⟨_, wr_eq v (by rw [h.1]; exact hl), by simp [h.1], ?_⟩
  obtain ⟨t, ht⟩ := h.2
  subst ht
  cases t with
  | nil => have := h.1; simp at this; omega
  | cons c t =>
    refine ⟨t, ?_⟩
    simp

theorem Pre.ad [Add α] {c : α} (h : Pre b n (l ++ [c])) : ∃ b', ad b l.length v = some b' ∧ Pre b' n (l ++ [c + v]) := by
  obtain ⟨h1, t, ht⟩ := h
  subst ht
  refine ⟨l ++ [c + v] ++ t, ?_, by simpa using h1, t, rfl⟩
  unfold Verif.ad md
  simp

end pre

namespace Lammps
open Verif.MACE Verif.Spec

theorem neighMask_eq (raw : ℕ) : neighMask raw = raw % 2 ^ 29 := by
  unfold neighMask
  exact Nat.and_two_pow_sub_one_eq_mod raw 29

variable {A : Atoms} {L : NList} {rc : ℝ} {mt : List ℕ} {nT : ℕ}

theorem get_nth {l : List ℝ} {i : ℕ} (h : i < l.length) : l[i]? = some (nth l i) := by simp [nth, h]
theorem get_nthN {l : List ℕ} {i : ℕ} (h : i < l.length) : l[i]? = some (nthN l i) := by simp [nthN, h]

/-- Squared distance as the code computes it. -/
def d2 (A : Atoms) (i j : ℕ) : ℝ := disp A i j 0 * disp A i j 0 + disp A i j 1 * disp A i j 1 + disp A i j 2 * disp A i j 2

theorem d2_eq (A : Atoms) (i j : ℕ) : d2 A i j = ∑ c ∈ Finset.range 3, disp A i j c ^ 2 := by
  simp [d2, Finset.sum_range_succ]; ring

theorem neighLoop_eq {σ : Type} (hA : AtomsOk A mt nT) {i : ℕ} (hi : EntryOk A L i)
    (body : ℕ → ℝ → ℝ → ℝ → ℝ → σ → Option σ) (s : σ) :
    neighLoop A L (rc * rc) i body s
      = foldO (fun j => body j (disp A i j 0) (disp A i j 1) (disp A i j 2) (d2 A i j)) (nbrs A L rc i) s := by
  classical
  have hx : ∀ k < A.nlocal + A.nghost, ∀ c < 3, A.x[3 * k + c]? = some (pos A k c) := by
    intro k hk c hc
    exact get_nth (by have := hA.x; omega)
  unfold neighLoop
  have h0 := hx i hi.lt 0 (by norm_num)
  rw [add_zero] at h0
  rw [h0, hx i hi.lt 1 (by norm_num), hx i hi.lt 2 (by norm_num), get_nthN hi.num,
    List.getElem?_eq_getElem hi.first]
  simp only [Option.bind_eq_bind, Option.bind_some]
  have hl := hi.len
  rw [List.getElem?_eq_getElem hi.first, Option.getD_some] at hl
  rw [loop_list hl]
  unfold nbrs listed
  rw [List.getElem?_eq_getElem hi.first, Option.getD_some]
  rw [List.filter_map, foldO_map]
  have hnb := hi.nb
  unfold listed at hnb
  rw [List.getElem?_eq_getElem hi.first, Option.getD_some] at hnb
  rw [show ((fun j => decide (∑ c ∈ Finset.range 3, disp A i j c ^ 2 < rc ^ 2)) ∘ fun x => x % 2 ^ 29)
    = fun a => decide (d2 A i (a % 2 ^ 29) < rc * rc) by funext a; simp only [Function.comp, d2_eq, pow_two rc]]
  rw [← foldO_filter]
  refine foldO_congr (fun raw hraw s => ?_) s
  have hj := hnb (raw % 2 ^ 29) (List.mem_map_of_mem hraw)
  have h0 := hx _ hj 0 (by norm_num)
  rw [add_zero] at h0
  simp only [neighMask_eq, h0, hx _ hj 1 (by norm_num), hx _ hj 2 (by norm_num), Option.bind_some]
  rfl

theorem mem_nbrs_listed {i j : ℕ} (h : j ∈ nbrs A L rc i) : j ∈ listed L i := List.mem_of_mem_filter h

theorem nbrs_lt {i j : ℕ} (hi : EntryOk A L i) (h : j ∈ nbrs A L rc i) : j < A.nlocal + A.nghost :=
  hi.nb j (mem_nbrs_listed h)

theorem maceType_eq (hA : AtomsOk A mt nT) {i : ℕ} (hi : i < A.nlocal + A.nghost) : maceType mt A i = some (species mt A i) := by
  unfold maceType species
  obtain ⟨h1, h2⟩ := hA.typ i hi
  rw [get_nthN (by have := hA.type; omega)]
  simp only [Option.bind_eq_bind, Option.bind_some]
  rw [if_neg (by omega), get_nthN (by omega)]

theorem species_lt (hA : AtomsOk A mt nT) {i : ℕ} (hi : i < A.nlocal + A.nghost) : species mt A i < nT := by
  obtain ⟨h1, h2⟩ := hA.typ i hi
  refine hA.mt _ ?_
  unfold species nthN
  have : nthN A.type i - 1 < mt.length := by omega
  unfold nthN at this
  rw [List.getElem?_eq_getElem this, Option.getD_some]
  exact List.getElem_mem this

/-- Number of bonds of the first nodes. -/
theorem bonds_append (ns ns' : List ℕ) : bonds A L rc (ns ++ ns') = bonds A L rc ns ++ bonds A L rc ns' := by
  simp [bonds]

theorem bonds_length (ns : List ℕ) : (bonds A L rc ns).length = (ns.map (fun i => (nbrs A L rc i).length)).sum := by
  simp [bonds, List.length_flatMap]

theorem foldO_count {α : Type} (l : List α) (c : ℕ) : foldO (fun _ c => some (c + 1)) l c = some (c + l.length) := by
  induction l generalizing c with
  | nil => rfl
  | cons a l ih => rw [foldO_cons, Option.bind_some, ih]; simp; ring

theorem take_get {l : List ℕ} {n i : ℕ} (hn : n ≤ l.length) (hi : i < n) : l.take (i + 1) = l.take i ++ [nthN l i] := by
  rw [List.take_add_one, get_nthN (by omega)]; rfl

theorem centre_mem (hL : ListOk A L) {ii : ℕ} (h : ii < L.inum) : nthN L.ilist ii ∈ centres L := by
  have hl := hL.inum
  rw [centres, List.mem_take_iff_getElem]
  refine ⟨ii, by omega, ?_⟩
  simp [nthN, show ii < L.ilist.length by omega]

theorem countEdges_eq (hA : AtomsOk A mt nT) (hL : ListOk A L) :
    countEdges A L (rc * rc) = some (bonds A L rc (centres L)).length := by
  unfold countEdges
  have h := loop_eq (n := L.inum) (fun ii => (bonds A L rc (L.ilist.take ii)).length)
    (body := fun ii c => do
      let i ← L.ilist[ii]?
      neighLoop A L (rc * rc) i (fun _ _ _ _ _ c => some (c + 1)) c) (fun ii hii => by
      have hm := hL.entry _ (centre_mem hL hii)
      rw [get_nthN (by have := hL.inum; omega)]
      simp only [Option.bind_eq_bind, Option.bind_some]
      rw [neighLoop_eq hA hm, foldO_count, take_get hL.inum hii, bonds_append]
      simp [bonds])
  exact h

/-- Displacements of a bond, as a list. -/
def dlist (A : Atoms) (p : ℕ × ℕ) : List ℝ := [disp A p.1 p.2 0, disp A p.1 p.2 1, disp A p.1 p.2 2]

/-- The buffers after the bonds `ps`: buffers of `e` cells, prefixes filled.  `wi`: the neighbour numbers are stored. -/
structure EdgesFilled (A : Atoms) (mt : List ℕ) (jOf ixOf : ℕ → ℕ) (wi : Bool) (e : ℕ) (ps : List (ℕ × ℕ)) (w : Work) : Prop where
  neighJ : Pre w.neighJ e (ps.map (fun p => jOf p.2))
  idx : wi = true → Pre w.idx e (ps.map (fun p => ixOf p.2))
  ntypes : Pre w.ntypes e (ps.map (fun p => species mt A p.2))
  xyz : Pre w.xyz (3 * e) (ps.flatMap (dlist A))
  r : Pre w.r e (ps.map (fun p => Real.sqrt (d2 A p.1 p.2)))

variable {jOf ixOf : ℕ → ℕ} {wi : Bool} {e : ℕ} {ps : List (ℕ × ℕ)} {w : Work} {look : ℕ → Option (ℕ × Option ℕ)}

theorem dlist_length (ps : List (ℕ × ℕ)) : (ps.flatMap (dlist A)).length = 3 * ps.length := by
  simp [List.length_flatMap, dlist, mul_comm]

theorem fillEdge_spec (hA : AtomsOk A mt nT) {i j : ℕ} (hj : j < A.nlocal + A.nghost)
    (hlook : look j = some (jOf j, if wi then some (ixOf j) else none)) (h : EdgesFilled A mt jOf ixOf wi e ps w)
    (he : ps.length < e) :
    ∃ w', fillEdge A mt look j (disp A i j 0) (disp A i j 1) (disp A i j 2) (d2 A i j) (ps.length, w)
        = some (ps.length + 1, w') ∧ EdgesFilled A mt jOf ixOf wi e (ps ++ [(i, j)]) w' ∧ w'.nodeI = w.nodeI ∧ w'.nn = w.nn ∧
        w'.types = w.types := by
  obtain ⟨b1, a1, c1⟩ := h.neighJ.wr (v := jOf j) (by simpa using he)
  obtain ⟨b2, a2, c2⟩ := h.ntypes.wr (v := species mt A j) (by simpa using he)
  obtain ⟨b3, a3, c3⟩ := h.xyz.wr (v := disp A i j 0) (by rw [dlist_length]; omega)
  obtain ⟨b4, a4, c4⟩ := c3.wr (v := disp A i j 1) (by rw [List.length_append, dlist_length]; simp only [List.length_singleton]; omega)
  obtain ⟨b5, a5, c5⟩ := c4.wr (v := disp A i j 2) (by rw [List.length_append, List.length_append, dlist_length]; simp only [List.length_singleton]; omega)
  obtain ⟨b6, a6, c6⟩ := h.r.wr (v := Real.sqrt (d2 A i j)) (by simpa using he)
  have hidx : ∃ b7, (match (if wi then some (ixOf j) else none) with
      | some ix => wr w.idx ps.length ix
      | none => some w.idx) = some b7 ∧ (wi = true → Pre b7 e ((ps ++ [(i, j)]).map (fun p => ixOf p.2))) := by
    cases wi with
    | false => exact ⟨w.idx, rfl, fun h => by cases h⟩
    | true =>
      obtain ⟨b7, a7, c7⟩ := (h.idx rfl).wr (v := ixOf j) (by simpa using he)
      refine ⟨b7, by simpa using a7, fun _ => by simpa using c7⟩
  obtain ⟨b7, a7, c7⟩ := hidx
  simp only [List.length_map, List.length_append, dlist_length, List.length_cons, List.length_nil, zero_add] at a1 a2 a3 a4 a5 a6
  have a5' : wr b4 (3 * ps.length + 2) (disp A i j 2) = some b5 := by rw [← a5]
  refine ⟨{ w with neighJ := b1, idx := b7, ntypes := b2, xyz := b5, r := b6 }, ?_, ⟨by simpa using c1, c7, by simpa using c2, ?_,
    by simpa using c6⟩, rfl, rfl, rfl⟩
  · unfold fillEdge
    cases wi with
    | false =>
      have h7 : w.idx = b7 := by simpa using a7
      subst h7
      simp [hlook, a1, maceType_eq hA hj, a2, a3, a4, a5', a6]
    | true =>
      have h7 : wr w.idx ps.length (ixOf j) = some b7 := by simpa using a7
      simp [hlook, a1, h7, maceType_eq hA hj, a2, a3, a4, a5', a6]
  · simpa [dlist] using c5

/-- The nodes' buffers after the nodes `ns`; the neighbour counts are `cs`. -/
structure NodesFilled (A : Atoms) (mt : List ℕ) (n : ℕ) (ns cs : List ℕ) (w : Work) : Prop where
  nodeI : Pre w.nodeI n ns
  types : Pre w.types n (ns.map (species mt A))
  nn : Pre w.nn n cs

theorem populate_spec (hA : AtomsOk A mt nT) (hL : ListOk A L) (he : e = (bonds A L rc (centres L)).length)
    (hlook : ∀ i ∈ centres L, ∀ j ∈ nbrs A L rc i, look j = some (jOf j, if wi then some (ixOf j) else none))
    (hN : NodesFilled A mt L.inum [] [] w) (hE : EdgesFilled A mt jOf ixOf wi e [] w) :
    ∃ w', populate A L (rc * rc) mt look w = some w' ∧
      NodesFilled A mt L.inum (centres L) ((centres L).map (fun i => (nbrs A L rc i).length)) w' ∧
      EdgesFilled A mt jOf ixOf wi e (bonds A L rc (centres L)) w' := by
  unfold populate
  have hlen : ∀ ii ≤ L.inum, (L.ilist.take ii).length = ii := fun ii h => by
    rw [List.length_take]; have := hL.inum; omega
  obtain ⟨q, h1, h2, h3, h4⟩ := loop_inv (n := L.inum) (s := (0, w))
    (body := fun ii (q : ℕ × Work) => do
      let i ← L.ilist[ii]?
      let nodeI ← wr q.2.nodeI ii i
      let ti ← maceType mt A i
      let types ← wr q.2.types ii ti
      let nn ← wr q.2.nn ii 0
      neighLoop A L (rc * rc) i (fun j dx dy dz r2 q => do
        let nn ← ad q.2.nn ii 1
        fillEdge A mt look j dx dy dz r2 (q.1, { q.2 with nn := nn })) (q.1, { q.2 with nodeI := nodeI, types := types, nn := nn }))
    (fun ii q => q.1 = (bonds A L rc (L.ilist.take ii)).length ∧
      NodesFilled A mt L.inum (L.ilist.take ii) ((L.ilist.take ii).map (fun i => (nbrs A L rc i).length)) q.2 ∧
      EdgesFilled A mt jOf ixOf wi e (bonds A L rc (L.ilist.take ii)) q.2)
    ⟨by simp [bonds], by simpa using hN, by simpa [bonds] using hE⟩ (fun ii hii q hq => by
      obtain ⟨q1, w⟩ := q
      obtain ⟨k1, k2, k3⟩ := hq
      simp only at k1 k2 k3
      subst k1
      have hmem := centre_mem hL hii
      have hent := hL.entry _ hmem
      generalize hi : nthN L.ilist ii = i at hmem hent
      have hget : L.ilist[ii]? = some i := by rw [get_nthN (by have := hL.inum; omega), hi]
      have htake : L.ilist.take (ii + 1) = L.ilist.take ii ++ [i] := by rw [take_get hL.inum hii, hi]
      obtain ⟨b1, a1, c1⟩ := k2.nodeI.wr (v := i) (by rw [hlen ii hii.le]; exact hii)
      obtain ⟨b2, a2, c2⟩ := k2.types.wr (v := species mt A i) (by rw [List.length_map, hlen ii hii.le]; exact hii)
      obtain ⟨b3, a3, c3⟩ := k2.nn.wr (v := 0) (by rw [List.length_map, hlen ii hii.le]; exact hii)
      rw [hlen ii hii.le] at a1
      rw [List.length_map, hlen ii hii.le] at a2 a3
      obtain ⟨q', e1, e2, e3, e4⟩ := foldO_inv (l := nbrs A L rc i)
        (body := fun j (q : ℕ × Work) => do
          let nn ← ad q.2.nn ii 1
          fillEdge A mt look j (disp A i j 0) (disp A i j 1) (disp A i j 2) (d2 A i j) (q.1, { q.2 with nn := nn }))
        (s := ((bonds A L rc (L.ilist.take ii)).length, { w with nodeI := b1, types := b2, nn := b3 }))
        (fun js q => q.1 = (bonds A L rc (L.ilist.take ii) ++ js.map (fun j => (i, j))).length ∧
          NodesFilled A mt L.inum (L.ilist.take ii ++ [i])
            ((L.ilist.take ii).map (fun i => (nbrs A L rc i).length) ++ [js.length]) q.2 ∧
          EdgesFilled A mt jOf ixOf wi e (bonds A L rc (L.ilist.take ii) ++ js.map (fun j => (i, j))) q.2)
        ⟨by simp, ⟨c1, by simpa using c2, c3⟩, by simpa using ⟨k3.1, k3.2, k3.3, k3.4, k3.5⟩⟩
        (fun js j hj hpre q hq => by
          obtain ⟨q1, w⟩ := q
          obtain ⟨k1, k2, k3⟩ := hq
          simp only at k1 k2 k3
          subst k1
          obtain ⟨b, a, c⟩ := k2.nn.ad (v := 1)
          rw [List.length_map, hlen ii hii.le] at a
          have hlt : (bonds A L rc (L.ilist.take ii) ++ js.map (fun j => (i, j))).length < e := by
            have h1 : (bonds A L rc (L.ilist.take (ii + 1))).length ≤ e := by
              rw [he]
              have : centres L = L.ilist.take (ii + 1) ++ (centres L).drop (ii + 1) := by
                conv_lhs => rw [← List.take_append_drop (ii + 1) (centres L)]
                rw [centres, List.take_take, min_eq_left (by omega)]
              rw [this, bonds_append, List.length_append]; omega
            rw [htake, bonds_append, List.length_append] at h1
            have h2 := hpre.length_le
            simp only [List.length_append, List.length_map, List.length_singleton] at h2 ⊢
            have h3 : (bonds A L rc [i]).length = (nbrs A L rc i).length := by simp [bonds]
            omega
          obtain ⟨w', f1, f2, f3, f4, f5⟩ := fillEdge_spec (w := { w with nn := b }) (i := i) hA (nbrs_lt hent hj)
            (hlook i hmem j hj) ⟨k3.1, k3.2, k3.3, k3.4, k3.5⟩ hlt
          refine ⟨_, by simp only [a, Option.bind_eq_bind, Option.bind_some]; exact f1, ?_, ?_, ?_⟩
          · simp; ring
          · refine ⟨by rw [f3]; exact k2.nodeI, by rw [f5]; exact k2.types, ?_⟩
            rw [f4]
            simpa using c
          · simpa using f2)
      refine ⟨q', ?_, ?_, ?_, ?_⟩
      · simp only [hget, a1, maceType_eq hA hent.lt, a2, a3, Option.bind_eq_bind, Option.bind_some]
        rw [neighLoop_eq hA hent]
        exact e1
      · rw [e2, htake, bonds_append]; simp [bonds]
      · rw [htake]; simpa using e3
      · rw [htake, bonds_append]; simpa [bonds] using e4)
  refine ⟨q.2, ?_, h3, h4⟩
  rw [h1]; rfl

/-! ## The graph -/

theorem tab2_succ {K : Type*} (n B : ℕ) (f : ℕ → ℕ → K) : tab2 (n + 1) B f = tab2 n B f ++ tab B (f n) := by
  symm
  rw [eq_tab2_iff]
  refine ⟨by simp; ring, fun q hq j hj => ?_⟩
  by_cases h : q < n
  · rw [List.getElem?_append_left (by simpa using flat_lt h hj), getElem?_tab2 h hj]
  · have : q = n := by omega
    subst this
    rw [List.getElem?_append_right (by simp), length_tab2, Nat.add_sub_cancel_left, getElem?_tab_lt hj]

theorem vecs_append_lt {ps ps' : List (ℕ × ℕ)} {e : ℕ} (h : e < ps.length) : vecs A (ps ++ ps') e = vecs A ps e := by
  funext c
  unfold vecs
  rw [List.getElem?_append_left h]

theorem dlist_tab2 (ps : List (ℕ × ℕ)) : ps.flatMap (dlist A) = tab2 ps.length 3 (vecs A ps) := by
  induction ps using List.reverseRecOn with
  | nil => rfl
  | append_singleton ps p ih =>
    rw [List.flatMap_append, ih, List.length_append, List.length_singleton, tab2_succ]
    congr 1
    · exact tab2_congr (fun q hq j hj => by rw [vecs_append_lt hq])
    · simp [dlist, tab, List.range_succ, vecs]

theorem bonds_nn (ns : List ℕ) : ((ns.map (fun i => (nbrs A L rc i).length)).take ns.length).sum = (bonds A L rc ns).length := by
  rw [bonds_length, List.take_of_length_le (by simp)]

theorem sysOf_E (ns : List ℕ) (ix : ℕ → ℕ) : (sysOf A L rc mt ns ix).E = (bonds A L rc ns).length := bonds_nn ns

theorem len_vecs {ps : List (ℕ × ℕ)} {e : ℕ} (h : e < ps.length) : len (vecs A ps e) = Real.sqrt (d2 A ps[e].1 ps[e].2) := by
  unfold len
  rw [d2_eq]
  simp [vecs, h]

/-- The buffers of a complete build describe the graph. -/
theorem graph_of_filled {n : ℕ} {ns : List ℕ} (hn : ns.length = n)
    (hN : NodesFilled A mt n ns (ns.map (fun i => (nbrs A L rc i).length)) w)
    (hE : EdgesFilled A mt jOf ixOf wi (bonds A L rc ns).length (bonds A L rc ns) w) :
    w.nodeI = ns ∧ w.neighJ = (bonds A L rc ns).map (fun p => jOf p.2) ∧
    { w.graph n with idx := (bonds A L rc ns).map (fun p => ixOf p.2) } = (sysOf A L rc mt ns ixOf).graph (vecs A (bonds A L rc ns)) ∧
    (wi = true → w.idx = (bonds A L rc ns).map (fun p => ixOf p.2)) := by
  have h1 := hN.nodeI.done hn
  have h2 := hN.types.done (by simpa using hn)
  have h3 := hN.nn.done (by simpa using hn)
  have h4 := hE.neighJ.done (by simp)
  have h5 := hE.ntypes.done (by simp)
  have h6 := hE.xyz.done (by rw [dlist_length])
  have h7 := hE.r.done (by simp)
  refine ⟨h1, h4, ?_, fun h => (hE.idx h).done (by simp)⟩
  have hr : w.r = (List.range (sysOf A L rc mt ns ixOf).E).map (fun e => len (vecs A (bonds A L rc ns) e)) := by
    rw [h7]
    refine List.ext_getElem (by simp [sysOf_E]) (fun e h1 h2 => ?_)
    rw [List.getElem_map, List.getElem_map, List.getElem_range, len_vecs]
  have hx : w.xyz = (List.range ((sysOf A L rc mt ns ixOf).E * 3)).map (fun p => vecs A (bonds A L rc ns) (p / 3) (p % 3)) := by
    rw [h6, dlist_tab2, sysOf_E]; rfl
  unfold Work.graph Sys.graph
  rw [← hx, ← hr, h2, h3, h5, ← hn]
  rfl

theorem iiFromI_spec {ns : List ℕ} {n : ℕ} (hn : n ≤ ns.length) (hd : (ns.take n).Nodup) :
    ∃ m, iiFromI n ns = some m ∧ (∀ i ∈ ns.take n, m i = some (rank (ns.take n) i)) ∧ ∀ i, i ∉ ns.take n → m i = none := by
  unfold iiFromI
  obtain ⟨m, h1, h2⟩ := loop_inv (n := n) (s := fun _ => (none : Option ℕ))
    (body := fun ii m => do
      let i ← ns[ii]?
      pure (Function.update m i (some ii)))
    (fun ii m => (∀ i ∈ ns.take ii, m i = some (rank (ns.take ii) i)) ∧ ∀ i, i ∉ ns.take ii → m i = none)
    ⟨by simp, by simp⟩ (fun ii hii m hm => by
      have hi : ii < ns.length := by omega
      refine ⟨_, by rw [List.getElem?_eq_getElem hi]; rfl, ?_⟩
      have htake : ns.take (ii + 1) = ns.take ii ++ [ns[ii]] := by rw [List.take_add_one, List.getElem?_eq_getElem hi]; rfl
      have hd' : (ns.take (ii + 1)).Nodup := by
        have : ns.take (ii + 1) = (ns.take n).take (ii + 1) := by rw [List.take_take, min_eq_left (by omega)]
        rw [this]; exact hd.sublist (List.take_sublist _ _)
      rw [htake] at hd' ⊢
      have hnot : ns[ii] ∉ ns.take ii := by
        intro h
        rw [List.nodup_append] at hd'
        exact hd'.2.2 _ h _ (by simp) rfl
      refine ⟨fun i h => ?_, fun i h => ?_⟩
      · by_cases e : i = ns[ii]
        · subst e
          rw [Function.update_self]
          unfold rank
          rw [List.idxOf_append_of_notMem hnot]
          simp; omega
        · have hmem : i ∈ ns.take ii := by
            rcases List.mem_append.mp h with h | h
            · exact h
            · exact absurd (by simpa using h) e
          rw [Function.update_of_ne e, hm.1 i hmem]
          unfold rank
          rw [List.idxOf_append_of_mem hmem]
      · have h1 : i ≠ ns[ii] := fun e => h (List.mem_append_right _ (by simp [e]))
        have h2 : i ∉ ns.take ii := fun e => h (List.mem_append_left _ e)
        rw [Function.update_of_ne h1, hm.2 i h2])
  exact ⟨m, h1, h2⟩

theorem resize_filled (n e : ℕ) : NodesFilled A mt n [] [] (w.resize n e) ∧ EdgesFilled A mt jOf ixOf wi e [] (w.resize n e) := by
  refine ⟨⟨Pre.nil ?_, Pre.nil ?_, Pre.nil ?_⟩, ⟨Pre.nil ?_, fun _ => Pre.nil ?_, Pre.nil ?_, Pre.nil ?_, Pre.nil ?_⟩⟩ <;>
    simp [Work.resize]

theorem centres_length (hL : ListOk A L) : (centres L).length = L.inum := by
  rw [centres, List.length_take]; have := hL.inum; omega

theorem mapTag_eq (hI : ImagesOk A L) {i j : ℕ} (hi : i ∈ centres L) (hj : j ∈ listed L i) (hlt : j < A.nlocal + A.nghost) :
    mapTag A j = some (original A j) := by
  unfold mapTag original
  obtain ⟨o, h1, h2⟩ := hI.orig i hi j hj
  rw [get_nthN (by have := hI.tag; omega)]
  simp only [Option.bind_eq_bind, Option.bind_some, h1, Option.getD_some]

theorem original_mem (hI : ImagesOk A L) {i j : ℕ} (hi : i ∈ centres L) (hj : j ∈ listed L i) : original A j ∈ centres L := by
  obtain ⟨o, h1, h2⟩ := hI.orig i hi j hj
  unfold original
  rw [h1, Option.getD_some]
  exact h2

theorem buildSingle_spec (hA : AtomsOk A mt nT) (hL : ListOk A L) (hI : ImagesOk A L) (w : Work) :
    ∃ w', buildSingle rc mt A L w = some w' ∧ w'.nodeI = centres L ∧
      w'.neighJ = (bonds A L rc (centres L)).map (fun p => original A p.2) ∧
      w'.graph L.inum = (sysOf A L rc mt (centres L) (fun j => rank (centres L) (original A j))).graph
        (vecs A (bonds A L rc (centres L))) := by
  unfold buildSingle
  obtain ⟨m, m1, m2, m3⟩ := iiFromI_spec hL.inum hL.nodup
  obtain ⟨r1, r2⟩ := resize_filled (A := A) (mt := mt) (w := w) (jOf := original A)
    (ixOf := fun j => rank (centres L) (original A j)) (wi := true) L.inum (bonds A L rc (centres L)).length
  obtain ⟨w', h1, h2, h3⟩ := populate_spec (look := fun j => do
    let jl ← mapTag A j
    pure (jl, some (iiGet m jl))) hA hL rfl (fun i hi j hj => by
      have hj' := nbrs_lt (hL.entry i hi) hj
      rw [mapTag_eq hI hi (mem_nbrs_listed hj) hj']
      simp only [Option.bind_eq_bind, Option.bind_some, if_true, Option.pure_def]
      rw [iiGet, m2 _ (original_mem hI hi (mem_nbrs_listed hj))]
      rfl) r1 r2
  obtain ⟨g1, g2, g3, g4⟩ := graph_of_filled (centres_length hL) h2 h3
  refine ⟨w', ?_, g1, g2, ?_⟩
  · rw [countEdges_eq hA hL, m1]
    exact h1
  · rw [← g3, ← g4 rfl]; rfl

theorem buildMpi_spec (hA : AtomsOk A mt nT) (hL : ListOk A L) (w : Work) :
    ∃ w', buildMpi rc mt A L w = some w' ∧ w'.nodeI = centres L ∧
      w'.neighJ = (bonds A L rc (centres L)).map (fun p => p.2) ∧
      { w'.graph L.inum with idx := w'.neighJ } = (sysOf A L rc mt (centres L) (fun j => j)).graph
        (vecs A (bonds A L rc (centres L))) := by
  unfold buildMpi
  obtain ⟨r1, r2⟩ := resize_filled (A := A) (mt := mt) (w := w) (jOf := fun j => j)
    (ixOf := fun j => j) (wi := false) L.inum (bonds A L rc (centres L)).length
  obtain ⟨w', h1, h2, h3⟩ := populate_spec (look := fun j => some (j, none)) hA hL rfl (fun i hi j hj => by simp) r1 r2
  obtain ⟨g1, g2, g3, _⟩ := graph_of_filled (centres_length hL) h2 h3
  refine ⟨w', ?_, g1, g2, ?_⟩
  · rw [countEdges_eq hA hL]
    exact h1
  · rw [← g3, g2]

end Lammps

end Verif
