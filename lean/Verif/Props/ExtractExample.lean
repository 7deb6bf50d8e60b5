import Verif.Props.ExtractMACE

/-! # A model that fulfils the hypotheses of C78-C82 -/

namespace Verif.Props
open Verif.MACE Verif.Spec Verif.Extract

/-- Inverse of a matrix if there is one. -/
noncomputable def invEx (n : ℕ) (A : ℕ → ℕ → ℝ) : Option (ℕ → ℕ → ℝ) :=
  open Classical in
  if h : ∃ B : ℕ → ℕ → ℝ, ∀ i < n, ∀ k < n, ∑ j ∈ Finset.range n, A i j * B j k = if i = k then 1 else 0 then some h.choose else none

theorem invEx_ok : InvOk invEx := by
  intro n A B hB
  unfold invEx at hB
  split_ifs at hB with h
  rw [← Option.some.inj hB]
  exact h.choose_spec

theorem invEx_one : ∃ B, invEx 2 (fun k' k => (if k' * 2 + k = 0 ∨ k' * 2 + k = 3 then Real.sqrt 2 else 0) / Real.sqrt ((2 : ℕ) : ℝ)) = some B := by
  have h2 : Real.sqrt ((2 : ℕ) : ℝ) ≠ 0 := by
    rw [Real.sqrt_ne_zero']
    norm_num
  unfold invEx
  rw [dif_pos]
  · exact ⟨_, rfl⟩
  · refine ⟨fun i k => if i = k then 1 else 0, fun i hi k hk => ?_⟩
    have h2' : Real.sqrt 2 / Real.sqrt ((2 : ℕ) : ℝ) = 1 := by
      rw [div_eq_one_iff_eq h2]
      norm_num
    interval_cases i <;> interval_cases k <;> simp [Finset.sum_range_succ] <;> norm_num

/-- Hydrogen and carbon, two channels, two paths of the tensor product (`0 ⊗ 0 → 0`, `1 ⊗ 0 → 1`), different radial functions for
different pairs, edge densities in the second interaction only. -/
noncomputable def torchEx : Torch where
  zs := [1, 6]
  C := 2
  rcut := 5
  lmax := 3
  Lmax := 1
  e0 z := if z = 0 then -13 else -1029
  scale := 0.8
  shift := -0.1
  zbl := none
  R0 a b c r := (a + b + c + 1) * (5 - r)
  R1 a b c r := (a * b + c + 1) * (5 - r)
  dens0 := none
  dens1 := some (fun a b r => (a + b + 1) * (5 - r))
  avg0 := 10
  avg1 := 10
  emb p := p + 1
  up0 p := p - 1
  lin0 l k' k := l + k' + k
  skip0 l k' z k := l + k' - k + z
  nEta0 _ corr := corr
  U0 l corr m t eta := if t.sum = l + m + eta then corr + 1 else 0
  W0 _ corr z eta k := corr + z + eta + k
  plin0 p := p + 2
  up1 p := if p = 0 ∨ p = 3 then Real.sqrt 2 else 0
  phil := [0, 1]
  phil1 := [0, 1]
  phil2 := [0, 0]
  tp H Y R p := if p < 2 then R p * (Y 0 * H p) else R (2 + (p - 2) / 3) * (Y (1 + (p - 2) % 3) * H ((p - 2) / 3))
  lin1 l ek k := l + ek + k
  nEta1 corr := corr
  U1 corr t eta := if t.sum = eta then corr + 1 else 0
  W1 corr z eta k := corr + z + eta + k
  skip1 k' z k := k' + z + k
  plin1 p := p
  read1 k := k + 1
  read2a p := p
  read2b j := j
  cst := 1.6

/-- Its coupling coefficients. -/
noncomputable def cgEx (_ m1 _ mu : ℕ) : ℝ := if m1 = mu then 1 else 0

theorem torchEx_ok : TorchOk torchEx cgEx where
  lmax := rfl
  C := by decide
  zs := by decide
  rcut := by show (1e-12 : ℝ) < 5; norm_num
  zbl := by intro p hp; cases hp
  avg := by constructor <;> (show (10 : ℝ) ≠ 0) <;> norm_num
  R0 a b := by funext c r; simp only [torchEx]; ring
  R1 a b := by funext c r; simp only [torchEx]; ring
  dens0 d hd := by cases hd
  dens1 d hd a b := by cases hd; funext r; ring
  U0 l corr m t eta := by
    simp only [torchEx]
    split_ifs
    · right
      rw [abs_of_pos (by positivity)]
      have : (0 : ℝ) ≤ corr := Nat.cast_nonneg _
      norm_num
      linarith
    · exact Or.inl rfl
  U1 corr t eta := by
    simp only [torchEx]
    split_ifs
    · right
      rw [abs_of_pos (by positivity)]
      have : (0 : ℝ) ≤ corr := Nat.cast_nonneg _
      norm_num
      linarith
    · exact Or.inl rfl
  paths := by decide
  phil := by decide
  phil1 := by decide
  phil2 := by decide
  thr le m1 m2 mu := by
    unfold cgEx
    split_ifs
    · right; norm_num
    · exact Or.inl rfl
  tp H Y R le hle k hk mu hmu := by
    have hle : le < 2 := hle
    have hk : k < 2 := hk
    interval_cases le
    · have hmu : mu < 1 := hmu
      interval_cases mu
      interval_cases k <;> simp [torchEx, cgEx, nthN]
    · have hmu : mu < 3 := hmu
      interval_cases mu <;> interval_cases k <;> simp [torchEx, cgEx, nthN, Finset.sum_range_succ]

/-- The script succeeds for it, also if hydrogen is requested twice. -/
theorem torchEx_runs (species : List ℕ) (h : ∀ a ∈ species, a ∈ ([1, 6] : List ℕ)) (n : ℕ) (der : List ℝ → List ℝ) :
    ∃ f, extract n der invEx species torchEx = some f := by
  obtain ⟨B, hB⟩ := invEx_one
  refine extract_runs rfl (fun a ha => ?_) hB
  rw [mem_elems] at ha
  split_ifs at ha
  · exact ha
  · exact h a ha

example : ∃ f, extract 200 id invEx [] torchEx = some f ∧ FileOk f ∧ f.atomicNumbers.length = 2 := by
  obtain ⟨f, hf⟩ := torchEx_runs [] (by simp) 200 id
  refine ⟨f, hf, ((C78_file_shape torchEx_ok (by norm_num) (fun _ => rfl) (by simp)).2 f hf).1, ?_⟩
  obtain ⟨-, -, us, u1, inv1, rfl, -⟩ := extract_some hf
  rfl

/-- C80 fails: an explicit model, whose table for two carbon atoms (types 2 and 2) is not the one of its radial functions. -/
theorem C80_violated_witness : ∃ f, extract 200 id invEx [1, 6, 1] torchEx = some f ∧ nthN f.atomicNumbers 2 = 6 ∧
    tbl f.vals0 (pairPos f.nT 2 2) ≠ radialTable torchEx.rcut 200 ((torchEx.lmax + 1) * torchEx.C)
      (torchEx.R0 (torchEx.zs.idxOf 6) (torchEx.zs.idxOf 6)) := by
  obtain ⟨f, hf⟩ := torchEx_runs [1, 6, 1] (by simp) 200 id
  obtain ⟨h1, -, -, h2⟩ := C80_violated hf
  refine ⟨f, hf, by rw [h1]; rfl, ?_⟩
  rw [h2]
  intro hh
  have e : ∀ R : ℕ → ℝ → ℝ, ((radialTable 5 200 ((3 + 1) * 2) R)[0]?.bind (fun l => l[0]?)) = some (R 0 (gridPoint 5 200 0)) := by
    intro R
    simp [radialTable, tableOf]
  have hh : radialTable 5 200 ((3 + 1) * 2) (torchEx.R0 0 1) = radialTable 5 200 ((3 + 1) * 2) (torchEx.R0 1 1) := hh
  have h3 := e (torchEx.R0 0 1)
  rw [hh, e, Option.some.injEq] at h3
  simp only [torchEx, gridPoint] at h3
  norm_num at h3

end Verif.Props
