import Mathlib.Data.Real.Basic
import Mathlib.Algebra.Order.Floor.Semiring
import Mathlib.Algebra.Order.Archimedean.Basic
import Mathlib.Data.Real.Archimedean

/-! # Specification of a cubic Hermite spline on a uniform grid -/

namespace Verif.Spec

/-- Cubic Hermite interpolant on `[0,1]` with end values `v`, `v'` and end slopes `m`, `m'`. -/
noncomputable def hermite01 (v m v' m' u : ℝ) : ℝ :=
  (2 * u ^ 3 - 3 * u ^ 2 + 1) * v + (u ^ 3 - 2 * u ^ 2 + u) * m + (-2 * u ^ 3 + 3 * u ^ 2) * v' + (u ^ 3 - u ^ 2) * m'

/-- Its derivative. -/
noncomputable def hermite01' (v m v' m' u : ℝ) : ℝ :=
  (6 * u ^ 2 - 6 * u) * v + (3 * u ^ 2 - 4 * u + 1) * m + (-6 * u ^ 2 + 6 * u) * v' + (3 * u ^ 2 - 2 * u) * m'

/-- Spline through the nodes `(h i, v i)` with slopes `d i`. -/
noncomputable def hermite (h : ℝ) (v d : ℕ → ℝ) (r : ℝ) : ℝ :=
  let i := ⌊r / h⌋₊
  hermite01 (v i) (h * d i) (v (i + 1)) (h * d (i + 1)) (r / h - i)

/-- Its derivative. -/
noncomputable def hermite' (h : ℝ) (v d : ℕ → ℝ) (r : ℝ) : ℝ :=
  let i := ⌊r / h⌋₊
  hermite01' (v i) (h * d i) (v (i + 1)) (h * d (i + 1)) (r / h - i) / h

end Verif.Spec
