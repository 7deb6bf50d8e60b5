import Verif.Lemmas.MACE.Forces

/-! # What the reverse passes compute, as finite sums -/

namespace Verif.MACE
open Verif.Spec

variable {K : Type} [Field K]

/-- Derivative data of a configuration: bond vectors, lengths, radial derivatives, gradients of the harmonics, derivatives of
the density splines; gradients of the product polynomials and of the readout at the current features. -/
structure DConf (K : Type) where
  X : ℕ → ℕ → K
  R : ℕ → K
  dR0 : ℕ → ℕ → ℕ → K
  dR1 : ℕ → ℕ → ℕ → K
  dY : ℕ → ℕ → ℕ → K
  ds0 : ℕ → K
  ds1 : ℕ → K
  G0 : ℕ → ℕ → ℕ → ℕ → K
  G1 : ℕ → ℕ → ℕ → K
  gr : ℕ → ℕ → K

variable (W : Net K) (c : Conf K) (d : DConf K)

/-- `Phi0_adj_i` from `A0_adj = A`. -/
def phi0a (A : ℕ → ℕ → ℕ → K) (i lm k : ℕ) : K := ∑ k' ∈ Finset.range W.C, A i lm k' * W.mix0 (c.typ i) (Nat.sqrt lm) k k'

/-- Force increment on edge `e` of node `i` in `reverse_A0`. -/
def force0 (A : ℕ → ℕ → ℕ → K) (i e a : ℕ) : K :=
  ∑ lm ∈ Finset.range W.M, ∑ k ∈ Finset.range W.C,
    forceTerm (phi0a W c A i lm k) (d.X e a) (d.R e) (d.dR0 e (Nat.sqrt lm) k) (c.Y e lm) (W.emb (c.nty e) k)
      (c.R0 e (Nat.sqrt lm) k) (d.dY e a lm)

/-- `dPhi1r` from `dPhi1 = D`. -/
def dphi1r (D : ℕ → ℕ → ℕ → K) (i q k : ℕ) : K :=
  ∑ p ∈ Finset.range W.nCG, if W.cgIn p = q then W.cgC p * D i (W.cgOut p) k else 0

/-- Force increment on edge `e` of node `i` in `reverse_Phi1`. -/
def force1 (H : ℕ → ℕ → ℕ → K) (Dr : ℕ → ℕ → ℕ → K) (i e a : ℕ) : K :=
  ∑ q ∈ Finset.range W.nQ, ∑ k ∈ Finset.range W.C,
    forceTerm (Dr i q k) (d.X e a) (d.R e) (d.dR1 e (W.qp q) k) (c.Y e (W.q1 q)) (H (c.nbr e) (W.q2 q) k)
      (c.R1 e (W.qp q) k) (d.dY e a (W.q1 q))

/-- Increment of `H1_adj` at `(v, LM, k)` in `reverse_Phi1`; `N` nodes. -/
def adj1 (N : ℕ) (Dr : ℕ → ℕ → ℕ → K) (v LM k : ℕ) : K :=
  ∑ i ∈ Finset.range N, ∑ e ∈ c.edg i, ∑ q ∈ Finset.range W.nQ,
    if v = c.nbr e ∧ LM = W.q2 q then c.R1 e (W.qp q) k * c.Y e (W.q1 q) * Dr i q k else 0

end Verif.MACE
