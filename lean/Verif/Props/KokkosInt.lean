import Verif.Lemmas.IntIndex.Kok
import Verif.Props.IntIndex

/-!
# C110: sizes and offsets `MACEKokkos` computes in `int`

`FileFitsK`, `SysFitsK` are the products that have to be below `2^31`.
-/

namespace Verif.Props
open Verif.MACE Verif.Spec Verif.IntIndex

variable {f : File} {T : Sys} {P0 : ℕ → ℕ} {P1 : ℕ}

/-- C110 for inputs whose products fit: no `int` expression overflows.  (Missing: larger inputs, for which the claim is false.) -/
theorem C110_fits_partial (hf : FileOk f) (hT : SysOk f T) (h : FileFitsK f P0 P1) (h' : SysFitsK f T.N T.E) {cell : Kok.Cells}
    (hc : cell.Fit T.E) : Kok.computeInts f P0 P1 T cell = some () :=
  Kok.computeInts_ok hf hT h h' hc

/-- The bound is exact: any larger input overflows. -/
theorem C110_exact (hf : FileOk f) (hT : SysOk f T) (h : FileFitsK f P0 P1) {cell : Kok.Cells} (hc : cell.Fit T.E) :
    Kok.computeInts f P0 P1 T cell = some () ↔ SysFitsK f T.N T.E :=
  ⟨Kok.computeInts_imp, fun h' => Kok.computeInts_ok hf hT h h' hc⟩

/-- Inputs within the bounds of `MACE` (C97) are within those of `MACEKokkos`. -/
theorem C110_wider (hf : FileOk f) {N E : ℕ} (h : SysFits f N E) : SysFitsK f N E := by
  have hC : 1 ≤ f.numChannels := hf.C
  have hM : 1 ≤ (f.lmax + 1) * (f.lmax + 1) := Nat.mul_pos (by omega) (by omega)
  have hL : 1 ≤ (f.Lmax + 1) * (f.Lmax + 1) := Nat.mul_pos (by omega) (by omega)
  have h0 := cut h.grad0 hC
  exact { harm := h.harm
          A0 := lt_of_le_of_lt (Nat.mul_le_mul_right _ (Nat.le_mul_of_pos_right _ hL)) h0
          M0 := cut h0 hM
          phi1r := cut h.phi1r hC
          H2 := cut (cut h.grad1 hC) hM }

theorem fileC_fitsK : FileFitsK (fileC 128) (fun _ => 0) 0 := by
  exact { chan := by change (3 + 1) * (3 + 1) * 128 < _; norm_num
          hidden := by change (1 + 1) * (1 + 1) < _; norm_num
          rad1 := by change 4 * 128 < _; norm_num
          mix := by change 128 * 128 < _; norm_num
          phi1 := by change ([0, 1, 2, 3].map (fun l => 2 * l + 1)).sum * 128 < _; norm_num
          tables := by change 4 * (1 * (1 + 1)) + 1 < _; norm_num
          cg := by change 1 < _; norm_num
          poly0 := fun _ _ => by change (3 + 1) * (3 + 1) + 0 < _; norm_num
          poly1 := by change (3 + 1) * (3 + 1) + 0 < _; norm_num }

theorem fileC_sysK {N E : ℕ} (hN : N ≤ 16777215) (hE : E ≤ 44739242) : SysFitsK (fileC 128) N E := by
  have hc := couplings_length 128
  exact { harm := by change 3 * E * ((3 + 1) * (3 + 1)) < 2147483648; omega
          A0 := by change N * ((3 + 1) * (3 + 1)) < 2147483648; omega
          M0 := by change N * ((1 + 1) * (1 + 1)) < 2147483648; omega
          phi1r := by rw [hc]; change N * 16 < 2147483648; omega
          H2 := by change N * 128 < 2147483648; omega }

/-- C110 is violated by a model of usual size (128 channels, `l_max = 3`): by `2^24` atoms without neighbours, and by one atom with
44739243 pairs. -/
theorem C110_violated (cell : Kok.Cells) :
    (FileOk (fileC 128) ∧ FileFitsK (fileC 128) (fun _ => 0) 0) ∧
    (SysOk (fileC 128) (alone 16777216) ∧ Kok.computeInts (fileC 128) (fun _ => 0) 0 (alone 16777216) cell = none) ∧
    ∀ T : Sys, 44739243 ≤ T.E → Kok.computeInts (fileC 128) (fun _ => 0) 0 T cell = none := by
  refine ⟨⟨fileC_ok (by norm_num), fileC_fitsK⟩, ⟨alone_ok 128 _, ?_⟩, fun T hT => ?_⟩
  · cases h : Kok.computeInts (fileC 128) (fun _ => 0) 0 (alone 16777216) cell with
    | none => rfl
    | some u =>
      have := (Kok.computeInts_imp h).H2
      change 16777216 * 128 < 2 ^ 31 at this
      norm_num at this
  · cases h : Kok.computeInts (fileC 128) (fun _ => 0) 0 T cell with
    | none => rfl
    | some u =>
      have := (Kok.computeInts_imp h).harm
      change 3 * T.E * ((3 + 1) * (3 + 1)) < 2147483648 at this
      omega

/-- The 8192 atoms with which `MACE` overflows (C97) are no problem for `MACEKokkos`. -/
example : Kok.computeInts (fileC 128) (fun _ => 0) 0 (alone 8192) ⟨id, id, id, id⟩ = some () :=
  C110_fits_partial (fileC_ok (by norm_num)) (alone_ok 128 8192) fileC_fitsK
    (fileC_sysK (show (8192 : ℕ) ≤ 16777215 by norm_num) (by rw [alone_E]; omega)) (fun e he => by rw [alone_E] at he; omega)

/-- Non-trivial instance with pairs. -/
example : Kok.computeInts (fileC 128) (fun _ => 0) 0 couple ⟨fun _ => 0, fun _ => 0, fun _ => 0, fun _ => 0⟩ = some () :=
  (C110_exact (fileC_ok (by norm_num)) couple_ok fileC_fitsK (fun _ _ => by norm_num)).2
    (fileC_sysK (by simp [couple]) (by simp [couple, Sys.E]))

/-- The hypothesis of `C110_wider` for a system with pairs. -/
example : SysFitsK (fileC 128) 2 2 := C110_wider (fileC_ok (by norm_num)) (fileC_sys (by norm_num) (by norm_num))

end Verif.Props
