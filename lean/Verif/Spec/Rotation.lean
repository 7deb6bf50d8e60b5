import Verif.Spec.MACE
import Mathlib.Data.Real.Basic

/-!
# Rotations, and networks that respect them

`D lm lm'` is the matrix by which the harmonics with combined index `lm` change under a rotation.  `Intertwines W nT D` are the
relations between `D` and the weights that make a network equivariant: they are stated for the separate weights (symmetric
products, Clebsch-Gordan table), not for the network as a whole.
-/

namespace Verif.Spec

/-- The three columns of `Q` are orthonormal: a rotation, possibly combined with a reflection. -/
def Orthonormal3 (Q : ℕ → ℕ → ℝ) : Prop :=
  ∀ b < 3, ∀ c < 3, ∑ a ∈ Finset.range 3, Q a b * Q a c = if b = c then 1 else 0

/-- All bond vectors rotated. -/
def rotate (Q : ℕ → ℕ → ℝ) (X : ℕ → ℕ → ℝ) (e a : ℕ) : ℝ := ∑ b ∈ Finset.range 3, Q a b * X e b

/-- A vector of `n` angular components rotated. -/
def act (D : ℕ → ℕ → ℝ) (n : ℕ) (x : ℕ → ℝ) (lm : ℕ) : ℝ := ∑ lm' ∈ Finset.range n, D lm lm' * x lm'

/-- Output `o` of the Clebsch-Gordan table for radial features `r` (by path), harmonics `y` and node features `h`. -/
def coupled (W : Net ℝ) (r y h : ℕ → ℝ) (o : ℕ) : ℝ :=
  ∑ p ∈ Finset.range W.nCG, if W.cgOut p = o
    then W.cgC p * (r (W.qp (W.cgIn p)) * y (W.q1 (W.cgIn p)) * h (W.q2 (W.cgIn p))) else 0

/-- Relations between the weights of a network with `nT` element types and the matrices `D`. -/
structure Intertwines (W : Net ℝ) (nT : ℕ) (D : ℕ → ℕ → ℝ) : Prop where
  /-- components of different angular momenta do not mix -/
  block : ∀ lm lm', Nat.sqrt lm ≠ Nat.sqrt lm' → D lm lm' = 0
  /-- scalars are unchanged -/
  one : D 0 0 = 1
  /-- the products of the first layer map rotated arguments to rotated values -/
  prod0 : ∀ t < nT, ∀ LM < W.LM, ∀ k < W.C, ∀ x, polynomial (W.coef0 t LM k) (W.mono0 LM) (act D W.M x)
    = act D W.LM (fun LM' => polynomial (W.coef0 t LM' k) (W.mono0 LM') x) LM
  /-- the Clebsch-Gordan table maps rotated arguments to rotated outputs, for every path -/
  couple : ∀ l ≤ W.lmax, ∀ m < 2 * l + 1, ∀ e < W.nE l, ∀ r y h,
    coupled W r (act D W.M y) (act D W.LM h) (W.base l + m * W.nE l + e)
      = ∑ m' ∈ Finset.range (2 * l + 1), D (l * l + m) (l * l + m') * coupled W r y h (W.base l + m' * W.nE l + e)
  /-- the products of the second layer are invariant -/
  prod1 : ∀ t < nT, ∀ k < W.C, ∀ x, polynomial (W.coef1 t k) W.mono1 (act D W.M x) = polynomial (W.coef1 t k) W.mono1 x

end Verif.Spec
