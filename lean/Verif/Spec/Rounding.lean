import Mathlib.Data.Real.Archimedean
import Mathlib.Data.Int.Log
import Mathlib.Algebra.Order.Round

/-! # Specification of rounded arithmetic -/

namespace Verif.Spec

/-- Every operation returns the exact result with relative error at most `u` ("standard model"; no overflow, no underflow). -/
structure IsRounding (fl : ℝ → ℝ) (u : ℝ) : Prop where
  nonneg : 0 ≤ u
  err : ∀ x, |fl x - x| ≤ u * |x|

/-- Nearest integer, ties to even. -/
noncomputable def nearestEven (x : ℝ) : ℤ :=
  if x - ⌊x⌋ < 1 / 2 then ⌊x⌋ else if 1 / 2 < x - ⌊x⌋ then ⌊x⌋ + 1 else if Even ⌊x⌋ then ⌊x⌋ else ⌊x⌋ + 1

/-- IEEE 754 rounding to nearest with `p` significant bits and unlimited exponent range; `p = 53` is `double`, `p = 24` is `float`. -/
noncomputable def roundTo (p : ℕ) (x : ℝ) : ℝ :=
  nearestEven (x / 2 ^ (Int.log 2 |x| + 1 - p)) * 2 ^ (Int.log 2 |x| + 1 - p)

end Verif.Spec
