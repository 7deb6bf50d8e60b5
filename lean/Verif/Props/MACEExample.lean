import Verif.Props.MACE

/-! # A file and an input meeting the hypotheses of Props/MACE.lean

Two elements, two channels, `l_max = L_max = 1`, three message paths, ZBL and density normalisation switched on. -/

namespace Verif.Props
open Verif.MACE Verif.Spec

noncomputable def exFile : File where
  numChannels := 2
  lmax := 1
  Lmax := 1
  atomicNumbers := [1, 6]
  atomicEnergies := [-13, -1029]
  zbl := some ⟨0.3, 0.4543, [0.1818, 0.5099, 0.2802, 0.02817], [0.2, 0.31, 0.28, 1.28, 0.96, 0.84, 0.76], 6⟩
  splH := 1
  vals0 := List.replicate 3 (List.replicate 4 [1, 2, 3])
  ders0 := List.replicate 3 (List.replicate 4 [1, 0, -1])
  vals1 := List.replicate 3 (List.replicate 6 [1, 2, 3])
  ders1 := List.replicate 3 (List.replicate 6 [1, 0, -1])
  H0w := [1, 2, 3, 4]
  A0w := List.replicate 2 (List.replicate 2 [1, 2, 3, 4])
  A0scaled := true
  A0h := 1
  A0vals := List.replicate 3 [1, 1, 1]
  A0ders := List.replicate 3 [0, 0, 0]
  M0w := fun a LM k => [a + 1, LM + k]
  M0mon := fun LM => [[LM], [0, LM]]
  H1w := [1, 2, 3, 4, 5, 6, 7, 8]
  phil := [0, 1, 1]
  phil1 := [0, 1, 0]
  phil2 := [0, 0, 1]
  philme := [0, 3]
  cg := [1, 1 / 2]
  philelm := [0, 4]
  A1w := [[1, 2, 3, 4], [1, 2, 3, 4, 5, 6, 7, 8]]
  A1scaled := false
  A1h := 1
  A1vals := []
  A1ders := []
  M1w := fun a k => [a + 1, k]
  M1mon := [[0], [1, 1]]
  H2wH1 := List.replicate 2 [1, 2, 3, 4]
  H2wM1 := [1, 2, 3, 4]
  ro1 := [1, 2]
  ro2w1 := List.replicate 32 1
  ro2w2 := List.replicate 16 1
  ro2scale := 1

theorem exFile_couplings : exFile.couplings.length = 7 := rfl

theorem exFile_ok : FileOk exFile where
  nT := by decide
  C := by decide
  nP := by decide
  energies := by decide
  zbl := by
    intro z hz
    cases hz
    exact ⟨by simp, by norm_num, by intro Z hZ; simp [exFile] at hZ; rcases hZ with rfl | rfl <;> simp⟩
  h := by norm_num [exFile]
  vals0 := rfl
  ders0 := rfl
  rows0 := by
    intro i hi
    have : i < 3 := hi
    interval_cases i <;> refine ⟨rfl, rfl, ?_, ?_⟩ <;> intro w hw <;> rw [List.eq_of_mem_replicate hw] <;> rfl
  nodes0 := by show 0 < 3; omega
  vals1 := rfl
  ders1 := rfl
  rows1 := by
    intro i hi
    have : i < 3 := hi
    interval_cases i <;> refine ⟨rfl, rfl, ?_, ?_⟩ <;> intro w hw <;> rw [List.eq_of_mem_replicate hw] <;> rfl
  nodes1 := by show 0 < 3; omega
  H0w := by decide
  A0w := ⟨by decide, by
    intro w hw
    rw [List.eq_of_mem_replicate hw]
    refine ⟨by decide, fun v hv => ?_⟩
    rw [List.eq_of_mem_replicate hv]
    simp [exFile]⟩
  A0s := by
    intro _
    refine ⟨by norm_num [exFile], rfl, rfl, fun i hi => ?_⟩
    have : i < 3 := hi
    interval_cases i <;> exact ⟨by show 0 < 3; omega, le_refl 3⟩
  M0w := by intros; rfl
  M0mon := by
    intro LM hLM
    have : LM < 4 := hLM
    have e : exFile.M0mon LM = [[LM], [0, LM]] := rfl
    have h4 : (exFile.lmax + 1) * (exFile.lmax + 1) = 4 := rfl
    rw [e, h4]
    interval_cases LM <;> decide
  H1w := by decide
  phil := by decide
  phil1 := by decide
  phil2 := by decide
  philme := by decide
  philelm := by
    rw [exFile_couplings]
    decide
  A1w := by
    refine ⟨by decide, fun l hl => ?_⟩
    have : l ≤ 1 := hl
    interval_cases l <;> decide
  A1s := by intro h; exact absurd h (by decide)
  M1w := by intros; rfl
  M1mon := by decide
  H2wH1 := ⟨by decide, by intro w hw; rw [List.eq_of_mem_replicate hw]; simp [exFile]⟩
  H2wM1 := by decide
  ro1 := by decide
  ro2w1 := rfl
  ro2w2 := rfl

/-- Two bonded atoms of different type. -/
def exSys : Sys := ⟨2, [0, 1], [1, 1], [1, 0], [1, 0]⟩

/-- Unit bond vectors. -/
def exX : ℕ → ℕ → ℝ := fun e a => if a = 0 then (if e = 0 then 1 else -1) else 0

theorem exSys_ok : SysOk exFile exSys where
  types := by decide
  typ := by decide
  nn := by decide
  idx := by decide
  nbr := by decide
  ntypes := by decide
  nty := by decide

theorem exLen {e : ℕ} (he : e < 2) : len (exX e) = 1 := by
  interval_cases e <;> norm_num [len, exX, Finset.sum_range_succ]

theorem exInside : Inside exFile exSys exX := by
  intro e he
  have h2 : e < 2 := he
  unfold InTable
  rw [exLen h2]
  have e0 : exFile.nodes0 = 3 := rfl
  have e1 : exFile.nodes1 = 3 := rfl
  refine ⟨by norm_num, by rw [e0]; norm_num [exFile], by rw [e1]; norm_num [exFile], fun _ w hw => ?_,
    fun h => absurd h (by decide)⟩
  rw [List.eq_of_mem_replicate hw]
  norm_num [exFile]

/-- A polynomial in place of the harmonics, and its gradient. -/
def exSph : ℝ → ℝ → ℝ → ℕ → ℝ := fun x y z lm => if lm = 0 then 1 else if lm = 1 then x else if lm = 2 then y else z
def exDsph : ℝ → ℝ → ℝ → ℕ → ℕ → ℝ := fun _ _ _ a lm => if lm = 0 then 0 else if a + 1 = lm then 1 else 0

theorem exSph_ok : IsSphGrad exSph exDsph ((exFile.lmax + 1) * (exFile.lmax + 1)) := by
  intro x y z u v w lm hlm _
  have : lm < 4 := hlm
  have h : ∀ p q : ℝ, HasDerivAt (fun τ : ℝ => p + τ * q) q 0 := by
    intro p q
    simpa using ((hasDerivAt_id (0 : ℝ)).mul_const q).const_add p
  interval_cases lm
  · simpa [exSph, exDsph] using hasDerivAt_const (0 : ℝ) (1 : ℝ)
  · simpa [exSph, exDsph] using h x u
  · simpa [exSph, exDsph] using h y v
  · simpa [exSph, exDsph] using h z w

theorem exScales : ScalesNonzero exFile exSph exSys exX := by
  intro i hi
  have h2 : i < 2 := hi
  have hp : ∀ i < 2, edgePair exFile exSys i = 1 := by
    intro j hj
    have h : j < exSys.E := hj
    have ho : exSys.owner j = j := by
      refine owner_eq (T := exSys) hj ?_
      interval_cases j <;> decide
    unfold edgePair
    rw [ho]
    interval_cases j <;> decide
  refine ⟨?_, ?_⟩
  · have e : exSys.edg i = {i} := by interval_cases i <;> rfl
    simp only [confOf]
    rw [if_pos (by rfl), e, Finset.sum_singleton, hp i h2, exLen h2]
    have hv : row exFile.A0vals 1 = [1, 1, 1] := rfl
    have hd : row exFile.A0ders 1 = [0, 0, 0] := rfl
    have hh : exFile.A0h = 1 := rfl
    rw [hv, hd, hh]
    norm_num [hermite, hermite01, nth]
  · simp [confOf, exFile]

theorem exSort : Poly.SortFn (fun l => l.mergeSort (fun a b => a.length ≤ b.length)) := by
  refine fun l => ⟨List.mergeSort_perm _ _, ?_⟩
  have := List.pairwise_mergeSort (le := fun a b : List (List ℕ) => decide (a.length ≤ b.length))
    (by intro a b c; simp; omega) (by intro a b; simp; omega) l
  exact this.imp (by simp)

/-- The hypotheses of C01 - C07 and C52 hold for this file and input. -/
example : FileOk exFile ∧ SysOk exFile exSys ∧ Inside exFile exSys exX ∧
    IsSphGrad exSph exDsph ((exFile.lmax + 1) * (exFile.lmax + 1)) ∧ ScalesNonzero exFile exSph exSys exX ∧
    ∃ srt, Poly.SortFn srt := ⟨exFile_ok, exSys_ok, exInside, exSph_ok, exScales, _, exSort⟩

/-- The same system with the atoms (and edges) exchanged. -/
def exSys' : Sys := ⟨2, [1, 0], [1, 1], [1, 0], [0, 1]⟩

/-- The hypotheses on renumbering are met with atoms 0 and 1 exchanged. -/
example : SysOk exFile exSys' ∧ Inside exFile exSys' (fun e => exX (1 - e)) ∧
    Renumbered exSys exX exSys' (fun e => exX (1 - e)) (fun i => 1 - i) (fun e => 1 - e) := by
  refine ⟨⟨by decide, by decide, by decide, by decide, by decide, by decide, by decide⟩, ?_, rfl, ?_, ?_, by decide⟩
  · intro e he
    have h2 : e < 2 := he
    exact exInside (1 - e) (by show 1 - e < 2; omega)
  · refine ⟨fun i hi => ?_, fun i hi j hj h => ?_, fun i hi => ⟨1 - i, ?_, ?_⟩⟩
    all_goals simp only [Set.mem_Iio, exSys] at *
    all_goals omega
  · intro i hi
    have h2 : i < 2 := hi
    have e1 : exSys.edg i = {i} := by interval_cases i <;> rfl
    have e2 : exSys'.edg (1 - i) = {1 - i} := by interval_cases i <;> rfl
    refine ⟨by interval_cases i <;> rfl, ?_, fun e he a _ => ?_, fun e he => ?_⟩
    · rw [e1, e2]
      simp [Set.bijOn_singleton]
    · rw [e1, Finset.mem_singleton] at he
      subst he
      have : 1 - (1 - e) = e := by omega
      simp only [this]
    · rw [e1, Finset.mem_singleton] at he
      subst he
      interval_cases e <;> rfl

end Verif.Props
