import Mathlib.Algebra.BigOperators.Group.List.Basic
import Mathlib.Algebra.Ring.Basic

/-! # Specification of a polynomial given by coefficients and monomials -/

namespace Verif.Spec

/-- The monomial `Π_{v ∈ m} x_v`. -/
def monomial {K : Type*} [CommRing K] (x : ℕ → K) (m : List ℕ) : K := (m.map x).prod

/-- The polynomial `Σ_i c_i Π_{v ∈ m_i} x_v`. -/
def polynomial {K : Type*} [CommRing K] (coeffs : List K) (monos : List (List ℕ)) (x : ℕ → K) : K :=
  ((monos.zip coeffs).map (fun q => q.2 * monomial x q.1)).sum

end Verif.Spec
