import Mathlib.Analysis.Calculus.Deriv.Basic
import Mathlib.Analysis.Real.Sqrt

/-! # What it means for one stage to be the transposed derivative of another

A stage maps an input buffer to an output buffer; its reverse stage receives one weight per entry of the output buffer and has
to deliver, per entry of the input buffer, the derivative of the weighted sum of the outputs. -/

namespace Verif.Spec

/-- Sum over positions of the products of two buffers. -/
noncomputable def dot (a b : List ℝ) : ℝ := (List.zipWith (· * ·) a b).sum

/-- The buffer `x + τ d`. -/
noncomputable def shift (x d : List ℝ) (τ : ℝ) : List ℝ := List.zipWith (fun a b => a + τ * b) x d

/-- `g` is the gradient at `x` of `w · F`: on every line through `x` the stage is defined, delivers as many numbers as `w` has,
and the weighted sum of them has the derivative that `g` says. -/
def IsGrad (F : List ℝ → Option (List ℝ)) (x w g : List ℝ) : Prop :=
  g.length = x.length ∧ ∀ d : List ℝ, d.length = x.length → ∃ y : ℝ → List ℝ,
    (∀ τ, F (shift x d τ) = some (y τ) ∧ (y τ).length = w.length) ∧ HasDerivAt (fun τ => dot w (y τ)) (dot g d) 0

/-- `g` is minus the gradient of `w · F` with respect to the bond vectors `X` of `E` edges (component `a` of edge `e` at
`e * 3 + a`); the stage has to be defined near `X` only. -/
def IsMinusGradX (E : ℕ) (F : (ℕ → ℕ → ℝ) → Option (List ℝ)) (X : ℕ → ℕ → ℝ) (w g : List ℝ) : Prop :=
  g.length = E * 3 ∧ ∀ D : ℕ → ℕ → ℝ, ∃ y : ℝ → List ℝ,
    (∀ᶠ τ in nhds 0, F (fun e a => X e a + τ * D e a) = some (y τ) ∧ (y τ).length = w.length) ∧
    HasDerivAt (fun τ => dot w (y τ))
      (- ∑ e ∈ Finset.range E, ∑ a ∈ Finset.range 3, g.getD (e * 3 + a) 0 * D e a) 0

/-- Entrywise sum of two buffers. -/
noncomputable def plus (a b : List ℝ) : List ℝ := List.zipWith (· + ·) a b

/-- What an accumulating buffer starts from: zeros if the stage is asked to clear it, its old content otherwise. -/
def startOf (z : Bool) (old : List ℝ) (n : ℕ) : List ℝ := if z then List.replicate n 0 else old

/-- `rev` is the transposed derivative of `fwd`: for every input buffer `x` (of `nIn` numbers) and all weights `w` of the
`nOut` outputs, running `fwd`, storing the weights, and running `rev` leaves the gradient of the weighted sum in `adj`. -/
def Transposed {σ : Type} (fwd rev : σ → Option σ) (setIn : List ℝ → σ → σ) (out : σ → List ℝ) (setW : List ℝ → σ → σ)
    (adj : σ → List ℝ) (nIn nOut : ℕ) (s : σ) : Prop :=
  ∀ x w : List ℝ, x.length = nIn → w.length = nOut → ∃ s1 s2, fwd (setIn x s) = some s1 ∧ rev (setW w s1) = some s2 ∧
    IsGrad (fun x => (fwd (setIn x s)).map out) x w (adj s2)

end Verif.Spec
