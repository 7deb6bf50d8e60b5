import Mathlib.Analysis.Calculus.Deriv.Basic

/-! # Harmonics differentiable along every motion -/

namespace Verif.Spec

/-- `dsph` is the gradient of the first `M` harmonics: away from the origin the chain rule holds along every differentiable curve. -/
def IsSphDiff (sph : ℝ → ℝ → ℝ → ℕ → ℝ) (dsph : ℝ → ℝ → ℝ → ℕ → ℕ → ℝ) (M : ℕ) : Prop :=
  ∀ (x y z : ℝ → ℝ) (x' y' z' t : ℝ), HasDerivAt x x' t → HasDerivAt y y' t → HasDerivAt z z' t → ¬ (x t = 0 ∧ y t = 0 ∧ z t = 0) →
    ∀ lm < M, HasDerivAt (fun τ => sph (x τ) (y τ) (z τ) lm)
      (dsph (x t) (y t) (z t) 0 lm * x' + dsph (x t) (y t) (z t) 1 lm * y' + dsph (x t) (y t) (z t) 2 lm * z') t

end Verif.Spec
