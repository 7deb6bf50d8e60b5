import Mathlib.Analysis.SpecialFunctions.Pow.Real

/-!
# Specification of the ZBL pair potential

The mathematical formulas (MACE `radial.py`), independent of the code model.
-/

namespace Verif.Spec

/-- Screening length. -/
noncomputable def zblA (aExp aPre : ℝ) (Zu Zv : ℕ) : ℝ := aPre * 0.529 / ((Zu : ℝ) ^ aExp + (Zv : ℝ) ^ aExp)

/-- Screening function `φ(x) = Σ c_k exp(-β_k x)`. -/
noncomputable def zblPhi (c : Fin 4 → ℝ) (x : ℝ) : ℝ :=
  c 0 * Real.exp (-3.2 * x) + c 1 * Real.exp (-0.9423 * x) + c 2 * Real.exp (-0.4028 * x)
    + c 3 * Real.exp (-0.2016 * x)

/-- Polynomial cutoff of order `p` on `r < R`, zero beyond. -/
noncomputable def envelope (R : ℝ) (p : ℕ) (r : ℝ) : ℝ :=
  if r < R then 1 - ((p + 1) * (p + 2) / 2) * (r / R) ^ p + p * (p + 2) * (r / R) ^ (p + 1)
    - (p * (p + 1) / 2) * (r / R) ^ (p + 2) else 0

/-- Half of the pair energy (each pair is visited from both sides). -/
noncomputable def zblEnergy (aExp aPre : ℝ) (c : Fin 4 → ℝ) (R : ℝ) (p : ℕ) (Zu Zv : ℕ) (r : ℝ) : ℝ :=
  1 / 2 * (14.3996 * Zu * Zv / r * zblPhi c (r / zblA aExp aPre Zu Zv)) * envelope R p r

end Verif.Spec
