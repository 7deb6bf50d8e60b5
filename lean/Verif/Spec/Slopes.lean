import Mathlib.Analysis.Calculus.Deriv.Basic

/-! # The spline whose slopes the extraction script stores

`scipy.interpolate.CubicSpline(r, y, bc_type=("not-a-knot", "clamped"))` on a uniform grid: the twice continuously differentiable piecewise
cubic through the data whose first two pieces are one polynomial and whose slope is zero at the last node. -/

namespace Verif.Spec

/-- `d` are the slopes at the nodes of that spline through the values `y` at `n` nodes with distance `h`; `c2 k`, `c3 k` are the higher
coefficients of piece `k` about its left node. -/
def ScipySlopes (h : ℝ) (n : ℕ) (y d : ℕ → ℝ) : Prop :=
  ∃ c2 c3 : ℕ → ℝ,
    (∀ k, k + 1 < n → y (k + 1) = y k + d k * h + c2 k * h ^ 2 + c3 k * h ^ 3 ∧ d (k + 1) = d k + 2 * c2 k * h + 3 * c3 k * h ^ 2) ∧
    (∀ k, k + 2 < n → c2 (k + 1) = c2 k + 3 * c3 k * h) ∧ c3 0 = c3 1 ∧ d (n - 1) = 0

/-- On `[a, b]` the function `f` has the derivative `f'` and three more, the last bounded by `B`. -/
def Smooth4 (f f' : ℝ → ℝ) (a b B : ℝ) : Prop :=
  ∃ f2 f3 f4 : ℝ → ℝ, ∀ t, a ≤ t → t ≤ b →
    HasDerivAt f (f' t) t ∧ HasDerivAt f' (f2 t) t ∧ HasDerivAt f2 (f3 t) t ∧ HasDerivAt f3 (f4 t) t ∧ |f4 t| ≤ B

end Verif.Spec
