import Mathlib.Algebra.BigOperators.Group.Finset.Basic
import Mathlib.Analysis.SpecialFunctions.Exp

/-! # Specification of a multilayer perceptron -/

namespace Verif.Spec

/-- Hidden layer values: `h_0 = x`, `h_{l+1} = s(W_l h_l)`; layer `l` has width `n l`. -/
def mlpHidden {K : Type*} [CommRing K] (s : K → K) (n : ℕ → ℕ) (W : ℕ → ℕ → ℕ → K) (x : ℕ → K) : ℕ → ℕ → K
  | 0 => x
  | l + 1 => fun i => s (∑ k ∈ Finset.range (n l), W l i k * mlpHidden s n W x l k)

/-- Output of a network with `L` weight matrices: `W_{L-1} h_{L-1}`, no activation. -/
def mlpOut {K : Type*} [CommRing K] (s : K → K) (n : ℕ → ℕ) (W : ℕ → ℕ → ℕ → K) (L : ℕ) (x : ℕ → K) (i : ℕ) : K :=
  ∑ k ∈ Finset.range (n (L - 1)), W (L - 1) i k * mlpHidden s n W x (L - 1) k

/-- The scaled activation `scale * x * sigmoid(x)`. -/
noncomputable def scaledSilu (scale x : ℝ) : ℝ := scale * (x * (1 + Real.exp (-x))⁻¹)

end Verif.Spec
