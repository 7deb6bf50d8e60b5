import Verif.Props.LammpsMpi
import Verif.Lemmas.Lammps.Domain
import Mathlib.Algebra.Group.PUnit

/-! # Property theorems: division in space, with ghosts up to the communication cutoff (C91) -/

namespace Verif.Props
open Verif.Lammps Verif.MACE Verif.Spec

section
variable {ι : Type} [AddCommGroup ι] {M : Matter ι} {rc skin cut : ℝ} {f : File} {mt : List ℕ} {np : ℕ} {A : ℕ → Atoms} {L : ℕ → NList}
  {id : ℕ → ℕ → ℕ} {sh : ℕ → ℕ → ι} {A0 : Atoms} {L0 : NList} {id0 : ℕ → ℕ} {sh0 : ℕ → ι}

theorem centres_perm {A : Atoms} {L : NList} (hl : ListOk A L) (ha : ∀ j < A.nlocal, j ∈ centres L) :
    (centres L).Perm (List.range A.nlocal) :=
  (List.perm_ext_iff_of_nodup hl.nodup List.nodup_range).mpr fun j =>
    ⟨fun h => List.mem_range.mpr (hl.loc j h), fun h => ha j (List.mem_range.mp h)⟩

/-- A division for the given nodes, if these see everything. -/
theorem parts_of_sees {nodes : ℕ → List ℕ} (hrc : 0 < rc) (hm : M.Moved skin) (hd : Divided M np A id)
    (hp : ∀ p < np, ProcOk f mt (A p) (L p) (nodes p)) (hh : ∀ p < np, Holder M rc skin (A p) (L p) (id p) (sh p) (nodes p))
    (hs : ∀ p < np, ∀ i ∈ nodes p, Sees M rc (A p) (id p) (sh p) i) (hw : Whole M rc skin A0 L0 id0 sh0) (hl : ListOk A0 L0) :
    Parts np A L id nodes A0 L0 rc mt := by
  refine ⟨?_, fun p h i hi => ?_, fun p h i hi => ?_⟩
  · refine List.Perm.trans ?_ (hd.trans ((List.Perm.of_eq (by rw [hw.nlocal])).trans (centres_perm hl hw.holder.all).symm))
    exact List.Perm.flatMap_left _ fun p h => (centres_perm (hp p (List.mem_range.mp h)).list (hh p (List.mem_range.mp h)).all).map _
  · have hi' := ((hp p h).entry i hi).lt
    have ha := (hh p h).atom i hi'
    unfold species
    rw [(hh p h).type i hi', hw.holder.type _ (by rw [hw.nlocal]; omega), hw.self _ ha]
  · have hi' := ((hp p h).entry i hi).lt
    have ha := (hh p h).atom i hi'
    have hc := hw.holder.all (id p i) (by rw [hw.nlocal]; exact ha)
    exact (hh p h).same hw.holder hrc hm hi hc ((hp p h).entry i hi) (hl.entry _ hc) (hs p h i hi)
      (hw.holder.sees_local hm hw.covers le_rfl (hl.loc _ hc)) (hw.self _ ha).symm (fun _ _ => rfl) hw.orig

/-- C91, `no_mpi_message_passing`: if the processes hold all images closer than `cut ≥ 2 rc + skin` to their atoms, and have complete
neighbour lists also for ghosts, no atom having moved by more than half the skin since, the division is one for which C44 holds. -/
theorem C91_no_mpi (hrc : 0 < rc) (hm : M.Moved skin) (hd : Divided M np A id)
    (hp : ∀ p < np, ProcOk f mt (A p) (L p) (centres (L p) ++ halo (A p) (L p) rc))
    (hh : ∀ p < np, Holder M rc skin (A p) (L p) (id p) (sh p) (centres (L p) ++ halo (A p) (L p) rc))
    (hc : ∀ p < np, Covers M cut (A p) (id p) (sh p)) (hcut : 2 * rc + skin ≤ cut) (hw : Whole M rc skin A0 L0 id0 sh0)
    (hl : ListOk A0 L0) : GhostParts f rc mt np A L id A0 L0 := by
  refine ⟨hp, parts_of_sees hrc hm hd hp hh (fun p h i hi => ?_) hw hl⟩
  rcases List.mem_append.mp hi with hi' | hi'
  · exact (hh p h).sees_local hm (hc p h) (by linarith) ((hp p h).list.loc i hi')
  · obtain ⟨_, _, o, h1, h2⟩ := mem_halo.mp hi'
    exact (hh p h).sees_halo hrc hm (hc p h) hcut ((hp p h).list.loc o h1) ((hp p h).entry i hi).lt h2

/-- C91, `mpi_message_passing`: here `cut ≥ rc + skin` and neighbour lists of the local atoms are enough; the communication plan is LAMMPS'. -/
theorem C91_mpi (hrc : 0 < rc) (hm : M.Moved skin) (hd : Divided M np A id)
    (hp : ∀ p < np, ProcOk f mt (A p) (L p) (centres (L p)))
    (hh : ∀ p < np, Holder M rc skin (A p) (L p) (id p) (sh p) (centres (L p)))
    (hc : ∀ p < np, Covers M cut (A p) (id p) (sh p)) (hcut : rc + skin ≤ cut) (hw : Whole M rc skin A0 L0 id0 sh0)
    (hl : ListOk A0 L0) {ms : List Msg} (hplan : PlanOk np A id ms)
    (hfill : ∀ p < np, ∀ j < (A p).nlocal + (A p).nghost, Known A ms p j) : MpiParts f rc mt np A L id ms A0 L0 :=
  ⟨hp, parts_of_sees hrc hm hd hp hh (fun p h i hi => (hh p h).sees_local hm (hc p h) hcut ((hp p h).list.loc i hi)) hw hl,
    fun p h => (hh p h).all, hplan, hfill⟩

end

/-! ## Two cutoffs are needed -/

/-- Three atoms in a row, distance `d`; the outer ones moved inwards by half the skin. -/
noncomputable def row (d skin : ℝ) : Matter Unit where
  N := 3
  typ := fun _ => 1
  built := fun b c => if c = 0 then b * (d + skin / 2) - skin / 2 else 0
  now := fun b c => if c = 0 then b * d else 0
  T := fun _ _ => 0
  zero := fun _ => rfl
  add := fun _ _ _ => by simp

/-- Process 0 has the first atom and one ghost; process 1 the others and one ghost; process 2: the whole row. -/
noncomputable def rowAtoms (d : ℝ) (p : ℕ) : Atoms where
  nlocal := if p = 0 then 1 else if p = 1 then 2 else 3
  nghost := if p = 2 then 0 else 1
  x := if p = 0 then [0, 0, 0, d, 0, 0] else if p = 1 then [d, 0, 0, 2 * d, 0, 0, 0, 0, 0] else [0, 0, 0, d, 0, 0, 2 * d, 0, 0]
  type := if p = 0 then [1, 1] else [1, 1, 1]
  tag := if p = 0 then [1, 2] else if p = 1 then [2, 3, 1] else [1, 2, 3]
  map := fun t => if p = 0 then (if t = 1 then some 0 else if t = 2 then some 1 else none)
    else if p = 1 then (if t = 2 then some 0 else if t = 3 then some 1 else if t = 1 then some 2 else none)
    else if t = 1 then some 0 else if t = 2 then some 1 else if t = 3 then some 2 else none

def rowList (p : ℕ) : NList where
  inum := if p = 0 then 1 else if p = 1 then 2 else 3
  ilist := if p = 0 then [0] else if p = 1 then [0, 1] else [0, 1, 2]
  num := if p = 0 then [1, 1] else if p = 1 then [2, 1, 1] else [1, 2, 1]
  first := if p = 0 then [[1], [0]] else if p = 1 then [[1, 2], [0], [0]] else [[1], [0, 2], [1]]

def rowId (p j : ℕ) : ℕ := nthN (if p = 0 then [0, 1] else if p = 1 then [1, 2, 0] else [0, 1, 2]) j

theorem len_row (x : ℝ) : len (fun c => if c = 0 then x else 0) = |x| := by
  simp [len, Finset.sum_range_succ, Real.sqrt_sq_eq_abs]

theorem row_far (d skin : ℝ) (b b' : ℕ) (s s' : Unit) :
    (row d skin).far (row d skin).built b s b' s' = |((b' : ℝ) - b) * (d + skin / 2)| := by
  unfold Matter.far
  rw [← len_row]
  refine congrArg len (funext fun c => ?_)
  simp only [row]
  split <;> ring

theorem row_moved (d : ℝ) {skin : ℝ} (h : 0 ≤ skin) : (row d skin).Moved skin := by
  intro b hb
  have e : (fun c => (row d skin).now b c - (row d skin).built b c) = fun c => if c = 0 then (1 - (b : ℝ)) * (skin / 2) else 0 := by
    funext c
    simp only [row]
    split <;> ring
  rw [e, len_row, abs_mul, abs_of_nonneg (by linarith : 0 ≤ skin / 2)]
  have hb' : b < 3 := hb
  have : |1 - (b : ℝ)| ≤ 1 := by
    interval_cases b <;> norm_num
  nlinarith

theorem row_listed : listed (rowList 0) 0 = [1] ∧ listed (rowList 0) 1 = [0] ∧ listed (rowList 1) 0 = [1, 2] ∧ listed (rowList 1) 1 = [0] ∧
    listed (rowList 1) 2 = [0] ∧ listed (rowList 2) 0 = [1] ∧ listed (rowList 2) 1 = [0, 2] ∧ listed (rowList 2) 2 = [1] := by decide

theorem row_proc (f : File) (hf : 1 ≤ f.nT) (d : ℝ) {p : ℕ} (hp : p < 3) {ns : List ℕ}
    (hn : ∀ i ∈ ns, i < (rowAtoms d p).nlocal + (rowAtoms d p).nghost) : ProcOk f [0] (rowAtoms d p) (rowList p) ns := by
  have he : ∀ i < (rowAtoms d p).nlocal + (rowAtoms d p).nghost, EntryOk (rowAtoms d p) (rowList p) i := by
    intro i hi
    obtain ⟨l1, l2, l3, l4, l5, l6, l7, l8⟩ := row_listed
    interval_cases p <;> simp only [rowAtoms] at hi <;> norm_num at hi <;> interval_cases i <;>
      refine ⟨by simp [rowAtoms], by simp [rowList], by simp [rowList], by simp [rowList, nthN], ?_⟩ <;>
      simp [rowAtoms, l1, l2, l3, l4, l5, l6, l7, l8]
  have hc : ∀ i ∈ centres (rowList p), i < (rowAtoms d p).nlocal := by
    intro i hi
    interval_cases p <;> simp [centres, rowList] at hi <;> simp [rowAtoms] <;> omega
  refine ⟨⟨?_, ?_, ?_, ?_⟩, ⟨?_, ?_, hc, fun i hi => he i ((hc i hi).trans_le (Nat.le_add_right _ _))⟩, fun i hi => he i (hn i hi)⟩
  · interval_cases p <;> simp [rowAtoms]
  · interval_cases p <;> simp [rowAtoms]
  · intro i hi
    interval_cases p <;> simp only [rowAtoms] at hi <;> norm_num at hi <;> interval_cases i <;> simp [rowAtoms, nthN]
  · simp; omega
  · interval_cases p <;> simp [rowList]
  · interval_cases p <;> simp [centres, rowList]

theorem row_holder {d skin rc : ℝ} (hd : rc ≤ 2 * d) (hrc : 0 < rc) (hs : 0 ≤ skin) {p : ℕ} (hp : p < 3) {ns : List ℕ}
    (hn : ∀ i ∈ ns, i < (rowAtoms d p).nlocal + (rowAtoms d p).nghost) :
    Holder (row d skin) rc skin (rowAtoms d p) (rowList p) (rowId p) (fun _ => ()) ns := by
  obtain ⟨l1, l2, l3, l4, l5, l6, l7, l8⟩ := row_listed
  refine ⟨?_, fun _ _ => rfl, ?_, ?_, ?_, ?_, ?_, ?_⟩
  · intro j hj
    interval_cases p <;> simp only [rowAtoms] at hj <;> norm_num at hj <;> interval_cases j <;> simp [row, rowId, nthN]
  · intro j hj c hc
    interval_cases p <;> simp only [rowAtoms] at hj <;> norm_num at hj <;> interval_cases j <;> interval_cases c <;>
      simp [row, rowId, nthN, pos, rowAtoms, nth]
  · intro j hj
    interval_cases p <;> simp only [rowAtoms] at hj <;> norm_num at hj <;> interval_cases j <;> simp [row, rowAtoms, nthN]
  · intro j hj k hk e _
    interval_cases p <;> simp only [rowAtoms] at hj hk <;> norm_num at hj hk <;> interval_cases j <;> interval_cases k <;>
      simp [rowId, nthN] at e ⊢
  · intro j hj
    interval_cases p <;> simp only [rowAtoms] at hj <;> norm_num at hj <;> (first | subst hj | interval_cases j) <;> simp [centres, rowList]
  · intro i hi j hj hne hfar
    have hi' := hn i hi
    have key : |(2 : ℝ) * (d + skin / 2)| = 2 * d + skin := by rw [abs_of_nonneg (by linarith)]; ring
    have key' : |(-2 : ℝ) * (d + skin / 2)| = 2 * d + skin := by
      rw [show (-2 : ℝ) * (d + skin / 2) = -(2 * (d + skin / 2)) by ring, abs_neg, key]
    rw [row_far] at hfar
    interval_cases p <;> simp only [rowAtoms] at hi' hj <;> norm_num at hi' hj <;> interval_cases i <;> interval_cases j <;>
      first
      | exact absurd rfl hne
      | (simp [l1, l2, l3, l4, l5, l6, l7, l8]; done)
      | (exfalso
         simp only [rowId, nthN] at hfar
         norm_num [key, key'] at hfar
         linarith)
  · intro i hi
    have hi' := hn i hi
    interval_cases p <;> simp only [rowAtoms] at hi' <;> norm_num at hi' <;> interval_cases i <;> simp [l1, l2, l3, l4, l5, l6, l7, l8]

theorem row_divided (d skin : ℝ) : Divided (row d skin) 2 (rowAtoms d) rowId := by
  unfold Divided
  simp [List.range_succ, rowAtoms, rowId, nthN, row]

theorem row_whole {d skin rc : ℝ} (hd : rc ≤ 2 * d) (hrc : 0 < rc) (hs : 0 ≤ skin) :
    Whole (row d skin) rc skin (rowAtoms d 2) (rowList 2) (rowId 2) (fun _ => ()) := by
  have e : ∀ j < 3, rowId 2 j = j := by decide
  refine ⟨row_holder hd hrc hs (by norm_num) fun i hi => ?_, fun _ _ b hb _ _ => ⟨b, hb, e b hb, rfl⟩, rfl, e, fun j hj => ?_⟩
  · simp [centres, rowList] at hi
    simp [rowAtoms]
    omega
  · simp [rowAtoms] at hj
    interval_cases j <;> simp [original, rowAtoms, rowId, nthN]

theorem row_covers {d skin cut : ℝ} (hcut : cut ≤ 2 * d + skin) (h0 : 0 ≤ 2 * d + skin) {p : ℕ} (hp : p < 2) :
    Covers (row d skin) cut (rowAtoms d p) (rowId p) (fun _ => ()) := by
  intro o ho b hb _ hfar
  have hb' : b < 3 := hb
  have key : |(2 : ℝ) * (d + skin / 2)| = 2 * d + skin := by rw [abs_of_nonneg (by linarith)]; ring
  rw [row_far] at hfar
  interval_cases p <;> simp only [rowAtoms] at ho <;> norm_num at ho
  · subst ho
    interval_cases b
    · exact ⟨0, by simp [rowAtoms], rfl, rfl⟩
    · exact ⟨1, by simp [rowAtoms], rfl, rfl⟩
    · exfalso
      simp only [rowId, nthN] at hfar
      norm_num [key] at hfar
      linarith
  · interval_cases b
    · exact ⟨2, by simp [rowAtoms], rfl, rfl⟩
    · exact ⟨0, by simp [rowAtoms], rfl, rfl⟩
    · exact ⟨1, by simp [rowAtoms], rfl, rfl⟩

/-- C91: less than `2 rc + skin` is not enough for `no_mpi_message_passing`, whatever the cutoff and the skin: with everything else as in
`C91_no_mpi` a ghost may lack a neighbour. -/
theorem C91_two_cutoffs_needed (f : File) (hf : 1 ≤ f.nT) {rc skin cut : ℝ} (hrc : 0 < rc) (hs : 0 ≤ skin) (h1 : rc + skin ≤ cut)
    (h2 : cut < 2 * rc + skin) : ∃ (M : Matter Unit) (A : ℕ → Atoms) (L : ℕ → NList) (id : ℕ → ℕ → ℕ) (sh : ℕ → ℕ → Unit),
      M.Moved skin ∧ Divided M 2 A id ∧
      (∀ p < 2, ProcOk f [0] (A p) (L p) (centres (L p) ++ halo (A p) (L p) rc) ∧
        Holder M rc skin (A p) (L p) (id p) (sh p) (centres (L p) ++ halo (A p) (L p) rc) ∧ Covers M cut (A p) (id p) (sh p)) ∧
      Whole M rc skin (A 2) (L 2) (id 2) (sh 2) ∧ ListOk (A 2) (L 2) ∧ ¬ GhostParts f rc [0] 2 A L id (A 2) (L 2) := by
  obtain ⟨d, hd⟩ : ∃ d, 2 * d + skin = cut := ⟨(cut - skin) / 2, by ring⟩
  have hd1 : rc ≤ 2 * d := by linarith
  have hd2 : d < rc := by linarith
  have hd0 : 0 < d := by linarith
  have hn : ∀ p < 2, ∀ i ∈ centres (rowList p) ++ halo (rowAtoms d p) (rowList p) rc, i < (rowAtoms d p).nlocal + (rowAtoms d p).nghost := by
    intro p hp i hi
    rcases List.mem_append.mp hi with hi | hi
    · have := (row_proc f hf d (p := p) (by omega) (ns := []) (by simp)).list.loc i hi
      omega
    · exact (mem_halo.mp hi).1
  refine ⟨row d skin, rowAtoms d, rowList, rowId, fun _ _ => (), row_moved d hs, row_divided d skin,
    fun p hp => ⟨row_proc f hf d (by omega) (hn p hp), row_holder hd1 hrc hs (by omega) (hn p hp), row_covers hd.ge (by linarith) hp⟩,
    row_whole hd1 hrc hs, (row_proc f hf d (p := 2) (by norm_num) (ns := []) (by simp)).list, fun h => ?_⟩
  have hsq : d ^ 2 < rc ^ 2 := by nlinarith
  obtain ⟨l1, l2, l3, l4, l5, l6, l7, l8⟩ := row_listed
  have n1 : nbrs (rowAtoms d 0) (rowList 0) rc 1 = [0] := by
    simp [nbrs, l2, disp, pos, rowAtoms, nth, Finset.sum_range_succ, hsq]
  have n0 : nbrs (rowAtoms d 0) (rowList 0) rc 0 = [1] := by
    simp [nbrs, l1, disp, pos, rowAtoms, nth, Finset.sum_range_succ, hsq]
  have n2 : nbrs (rowAtoms d 2) (rowList 2) rc 1 = [0, 2] := by
    have e : 2 * d - d = d := by ring
    simp [nbrs, l7, disp, pos, rowAtoms, nth, Finset.sum_range_succ, hsq, e]
  have hm : 1 ∈ centres (rowList 0) ++ halo (rowAtoms d 0) (rowList 0) rc :=
    List.mem_append_right _ (mem_halo.mpr ⟨by simp [rowAtoms], by simp [centres, rowList], 0, by simp [centres, rowList], by rw [n0]; simp⟩)
  have := (h.parts.same 0 (by norm_num) 1 hm).length_eq
  have e : rowId 0 1 = 1 := rfl
  simp [view, n1, n2, e] at this

/-! ## Example: an infinite chain, two atoms per cell, on two processes -/

/-- Atoms at the integers. -/
noncomputable def chain : Matter ℤ where
  N := 2
  typ := fun b => b + 1
  built := fun b c => if c = 0 then b else 0
  now := fun b c => if c = 0 then b else 0
  T := fun s c => if c = 0 then 2 * s else 0
  zero := fun _ => by simp
  add := fun s t c => by split <;> push_cast <;> ring

/-- Process `p < 2` has atom `p` and the two next images on either side; 2: both atoms and the next image on either side. -/
noncomputable def chainAtoms (p : ℕ) : Atoms where
  nlocal := if p < 2 then 1 else 2
  nghost := if p < 2 then 4 else 2
  x := if p = 0 then [0, 0, 0, -2, 0, 0, -1, 0, 0, 1, 0, 0, 2, 0, 0] else if p = 1 then [1, 0, 0, -1, 0, 0, 0, 0, 0, 2, 0, 0, 3, 0, 0]
    else [0, 0, 0, 1, 0, 0, -1, 0, 0, 2, 0, 0]
  type := if p = 0 then [1, 1, 2, 2, 1] else if p = 1 then [2, 2, 1, 1, 2] else [1, 2, 2, 1]
  tag := if p = 0 then [1, 1, 2, 2, 1] else if p = 1 then [2, 2, 1, 1, 2] else [1, 2, 2, 1]
  map := fun t => if p = 0 then (if t = 1 then some 0 else if t = 2 then some 2 else none)
    else if p = 1 then (if t = 2 then some 0 else if t = 1 then some 2 else none)
    else if t = 1 then some 0 else if t = 2 then some 1 else none

def chainList (p : ℕ) : NList where
  inum := if p < 2 then 1 else 2
  ilist := if p < 2 then [0] else [0, 1]
  num := if p < 2 then [2, 1, 2, 2, 1] else [2, 2]
  first := if p < 2 then [[2, 3], [2], [1, 0], [0, 4], [3]] else [[2, 1], [0, 3]]

def chainId (p j : ℕ) : ℕ := nthN (if p = 0 then [0, 0, 1, 1, 0] else if p = 1 then [1, 1, 0, 0, 1] else [0, 1, 1, 0]) j

def chainSh (p j : ℕ) : ℤ := (if p = 0 then [0, -1, -1, 0, 1] else if p = 1 then [0, -1, 0, 1, 1] else [0, 0, -1, 1])[j]?.getD 0

theorem chain_far (b b' : ℕ) (s s' : ℤ) : chain.far chain.built b s b' s' = |(((b' : ℤ) + 2 * s' - (b + 2 * s) : ℤ) : ℝ)| := by
  unfold Matter.far
  rw [← len_row]
  refine congrArg len (funext fun c => ?_)
  simp only [chain]
  split <;> push_cast <;> ring

theorem chain_near {b b' : ℕ} {s s' : ℤ} {n : ℕ} {x : ℝ} (hx : x ≤ n + 1) (h : chain.far chain.built b s b' s' < x) :
    |(b' : ℤ) + 2 * s' - (b + 2 * s)| ≤ n := by
  rw [chain_far] at h
  have : ((|(b' : ℤ) + 2 * s' - (b + 2 * s)| : ℤ) : ℝ) < ((n + 1 : ℤ) : ℝ) := by
    rw [Int.cast_abs]
    push_cast
    push_cast at h
    linarith
  have := Int.cast_lt.mp this
  omega

theorem chain_moved : chain.Moved 0 := by
  intro b _
  simp [chain, len]

theorem chain_num (p : ℕ) (hp : p < 2) : (chainAtoms p).nlocal = 1 ∧ (chainAtoms p).nghost = 4 := by
  simp [chainAtoms, hp]

theorem chain_listed (p : ℕ) (hp : p < 2) : listed (chainList p) 0 = [2, 3] ∧ listed (chainList p) 1 = [2] ∧ listed (chainList p) 2 = [1, 0] ∧
    listed (chainList p) 3 = [0, 4] ∧ listed (chainList p) 4 = [3] := by
  interval_cases p <;> decide

theorem chain_entry {p i : ℕ} (hp : p < 2) (hi : i < 5) : EntryOk (chainAtoms p) (chainList p) i := by
  obtain ⟨l0, l1, l2, l3, l4⟩ := chain_listed p hp
  obtain ⟨n1, n2⟩ := chain_num p hp
  interval_cases i <;> refine ⟨by rw [n1, n2]; omega, by simp [chainList, hp], by simp [chainList, hp], by simp [chainList, hp, nthN], ?_⟩ <;>
    rw [n1, n2] <;> simp [l0, l1, l2, l3, l4]

theorem chain_holder {p : ℕ} (hp : p < 2) {ns : List ℕ} (hn : ∀ i ∈ ns, i < 5) :
    Holder chain (5 / 4) 0 (chainAtoms p) (chainList p) (chainId p) (chainSh p) ns := by
  obtain ⟨l0, l1, l2, l3, l4⟩ := chain_listed p hp
  obtain ⟨n1, n2⟩ := chain_num p hp
  refine ⟨?_, ?_, ?_, ?_, ?_, ?_, ?_, ?_⟩ <;> (try simp only [n1, n2])
  · intro j hj
    change chainId p j < 2
    interval_cases p <;> interval_cases j <;> decide
  · intro j hj
    interval_cases p <;> interval_cases j <;> decide
  · intro j hj c hc
    interval_cases p <;> interval_cases j <;> interval_cases c <;> norm_num [pos, nth, chainAtoms, chain, chainId, chainSh, nthN]
  · intro j hj
    interval_cases p <;> interval_cases j <;> rfl
  · intro j hj k hk h1 h2
    have : ∀ p < 2, ∀ j < 5, ∀ k < 5, chainId p j = chainId p k → chainSh p j = chainSh p k → j = k := by decide
    exact this p hp j hj k hk h1 h2
  · intro j hj
    interval_cases p <;> interval_cases j <;> decide
  · intro i hi j hj hne hf
    have h := chain_near (n := 1) (by norm_num) hf
    have hi' := hn i hi
    have this : ∀ i ∈ List.range 5, ∀ j ∈ List.range 5, j ≠ i →
        ((chainId p j : ℤ) + 2 * chainSh p j - (chainId p i + 2 * chainSh p i)).natAbs ≤ 1 → j ∈ listed (chainList p) i := by
      clear h hf
      interval_cases p <;> decide +kernel
    refine this i (List.mem_range.mpr hi') j (List.mem_range.mpr hj) hne ?_
    rw [← Int.natCast_natAbs] at h
    exact_mod_cast h
  · intro i hi
    have hi' := hn i hi
    interval_cases i <;> simp [l0, l1, l2, l3, l4]

theorem chain_covers {p : ℕ} (hp : p < 2) : Covers chain (5 / 2) (chainAtoms p) (chainId p) (chainSh p) := by
  intro o ho b hb s hf
  rw [(chain_num p hp).1] at ho
  have h := chain_near (n := 2) (by norm_num) hf
  have hb' : b < 2 := hb
  obtain rfl : o = 0 := by omega
  have e : chainId p 0 = p := by interval_cases p <;> rfl
  rw [e, abs_le] at h
  rw [(chain_num p hp).1, (chain_num p hp).2]
  have hs : -1 ≤ s ∧ s ≤ 1 := by push_cast at h; omega
  have : ∀ p : ℕ, p < 2 → ∀ b : ℕ, b < 2 → ∀ s ∈ [(-1 : ℤ), 0, 1], -((2 : ℕ) : ℤ) ≤ (b : ℤ) + 2 * s - (p + 2 * 0) ∧ (b : ℤ) + 2 * s - (p + 2 * 0) ≤ (2 : ℕ) →
      ∃ j < 1 + 4, chainId p j = b ∧ chainSh p j = s := by decide +kernel
  exact this p hp b hb' s (by simp; omega) h

theorem chain_whole : Whole chain (5 / 4) 0 (chainAtoms 2) (chainList 2) (chainId 2) (chainSh 2) := by
  have l0 : listed (chainList 2) 0 = [2, 1] := by decide
  have l1 : listed (chainList 2) 1 = [0, 3] := by decide
  have n1 : (chainAtoms 2).nlocal = 2 := rfl
  have n2 : (chainAtoms 2).nghost = 2 := rfl
  have hc : centres (chainList 2) = [0, 1] := rfl
  refine ⟨⟨?_, ?_, ?_, ?_, ?_, ?_, ?_, ?_⟩, ?_, rfl, by decide +kernel, ?_⟩ <;> (try simp only [n1, n2])
  · intro j hj
    change chainId 2 j < 2
    interval_cases j <;> decide
  · decide
  · intro j hj c hc
    interval_cases j <;> interval_cases c <;> norm_num [pos, nth, chainAtoms, chain, chainId, chainSh, nthN]
  · intro j hj
    interval_cases j <;> rfl
  · intro j hj k hk h1 h2
    have : ∀ j < 4, ∀ k < 4, chainId 2 j = chainId 2 k → chainSh 2 j = chainSh 2 k → j = k := by decide
    exact this j hj k hk h1 h2
  · decide
  · intro i hi j hj hne hf
    have h := chain_near (n := 1) (by norm_num) hf
    have : ∀ i ∈ [0, 1], ∀ j < 4, j ≠ i → |(chainId 2 j : ℤ) + 2 * chainSh 2 j - (chainId 2 i + 2 * chainSh 2 i)| ≤ (1 : ℕ) →
      j ∈ listed (chainList 2) i := by decide +kernel
    exact this i hi j hj hne h
  · intro i hi
    rw [hc] at hi
    simp at hi
    rcases hi with rfl | rfl <;> simp [l0, l1]
  · intro o ho b hb s hf
    have h := chain_near (n := 1) (by norm_num) hf
    have hb' : b < 2 := hb
    rw [n1] at ho
    have e : chainId 2 o = o := by interval_cases o <;> rfl
    rw [e, abs_le] at h
    have hs : -1 ≤ s ∧ s ≤ 1 := by push_cast at h; omega
    have : ∀ o : ℕ, o < 2 → ∀ b : ℕ, b < 2 → ∀ s ∈ [(-1 : ℤ), 0, 1], -((1 : ℕ) : ℤ) ≤ (b : ℤ) + 2 * s - (o + 2 * 0) ∧ (b : ℤ) + 2 * s - (o + 2 * 0) ≤ (1 : ℕ) →
        ∃ j < 2 + 2, chainId 2 j = b ∧ chainSh 2 j = s := by decide +kernel
    exact this o ho b hb' s (by simp; omega) h
  · intro j hj
    interval_cases j <;> rfl

theorem chain_list : ListOk (chainAtoms 2) (chainList 2) := by
  refine ⟨by decide, by decide, by decide, fun i hi => ?_⟩
  have hi' : i = 0 ∨ i = 1 := by simpa [centres, chainList] using hi
  rcases hi' with rfl | rfl <;> exact ⟨by decide, by decide, by decide, by decide, by decide⟩

theorem chain_proc {p : ℕ} (hp : p < 2) {ns : List ℕ} (hn : ∀ i ∈ ns, i < 5) :
    ProcOk exFile [0, 1] (chainAtoms p) (chainList p) ns := by
  have hc : centres (chainList p) = [0] := by interval_cases p <;> rfl
  refine ⟨?_, ⟨by simp [chainList, hp], by simp [hc], by simp [hc, (chain_num p hp).1], fun i hi => ?_⟩, fun i hi => chain_entry hp (hn i hi)⟩
  · have ht : exFile.nT = 2 := rfl
    rw [ht]
    interval_cases p <;> refine ⟨by simp [chainAtoms], by simp [chainAtoms], ?_, by decide⟩ <;> decide
  · rw [hc] at hi
    simp at hi
    exact hi ▸ chain_entry hp (by norm_num)

/-- The infinite chain on two processes meets the hypotheses of `C91_no_mpi`. -/
example : GhostParts exFile (5 / 4) [0, 1] 2 chainAtoms chainList chainId (chainAtoms 2) (chainList 2) := by
  have hn : ∀ p < 2, ∀ i ∈ centres (chainList p) ++ halo (chainAtoms p) (chainList p) (5 / 4), i < 5 := by
    intro p hp i hi
    have hc : centres (chainList p) = [0] := by interval_cases p <;> rfl
    rcases List.mem_append.mp hi with hi | hi
    · rw [hc] at hi; simp at hi; omega
    · have := (mem_halo.mp hi).1
      rw [(chain_num p hp).1, (chain_num p hp).2] at this
      exact this
  exact C91_no_mpi (by norm_num) chain_moved (by change List.Perm _ (List.range 2); decide) (fun p hp => chain_proc hp (hn p hp)) (fun p hp => chain_holder hp (hn p hp))
    (fun p hp => chain_covers hp) (by norm_num) chain_whole chain_list

end Verif.Props
