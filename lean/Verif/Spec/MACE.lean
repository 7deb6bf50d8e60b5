import Verif.Spec.Polynomial
import Mathlib.Algebra.BigOperators.Group.Finset.Basic
import Mathlib.Algebra.Field.Basic
import Mathlib.Data.Nat.Sqrt

/-!
# Specification of a two-layer MACE network

Written with finite sums over edges, channels and (combined) angular indices `lm = l² + (m + l)`, so `l = √lm` (integer square
root).  No buffers or flat indices.
-/

namespace Verif.Spec

/-- Sizes and weights. -/
structure Net (K : Type) where
  /-- channels -/
  C : ℕ
  lmax : ℕ
  Lmax : ℕ
  /-- element embedding: type, channel -/
  emb : ℕ → ℕ → K
  /-- first-layer mixing: type, `l`, `k'`, `k` -/
  mix0 : ℕ → ℕ → ℕ → ℕ → K
  /-- first-layer product: coefficients for type, `LM`, channel; monomials for `LM` -/
  coef0 : ℕ → ℕ → ℕ → List K
  mono0 : ℕ → List (List ℕ)
  /-- linear map after the first product: `l`, `k'`, `k` -/
  lin1 : ℕ → ℕ → ℕ → K
  /-- coupling channels `q`: number, path, first and second angular index -/
  nQ : ℕ
  qp : ℕ → ℕ
  q1 : ℕ → ℕ
  q2 : ℕ → ℕ
  /-- number of paths with output angular momentum `l` -/
  nE : ℕ → ℕ
  /-- Clebsch-Gordan entries: number, output index, coupling channel, coefficient -/
  nCG : ℕ
  cgOut : ℕ → ℕ
  cgIn : ℕ → ℕ
  cgC : ℕ → K
  /-- second-layer mixing: `l`, path with output `l`, `k'`, `k` -/
  mix1 : ℕ → ℕ → ℕ → ℕ → K
  coef1 : ℕ → ℕ → List K
  mono1 : List (List ℕ)
  /-- update of the second layer: type, `k'`, `k` (from the first layer) and `k'`, `k` (from the product) -/
  lin2h : ℕ → ℕ → ℕ → K
  lin2m : ℕ → ℕ → K
  /-- isolated-atom energies and readouts -/
  atomE : ℕ → K
  read1 : ℕ → K
  read2 : (ℕ → K) → K

namespace Net
variable {K : Type} (W : Net K)

def M : ℕ := (W.lmax + 1) * (W.lmax + 1)
def LM : ℕ := (W.Lmax + 1) * (W.Lmax + 1)

/-- First output index of angular momentum `l`; outputs are ordered by `l`, `m`, path. -/
def base (l : ℕ) : ℕ := ∑ l' ∈ Finset.range l, (2 * l' + 1) * W.nE l'

/-- Number of output indices. -/
def nOut : ℕ := W.base (W.lmax + 1)

end Net

/-- A configuration: atoms, their neighbours and the edge features. -/
structure Conf (K : Type) where
  /-- type of a node -/
  typ : ℕ → ℕ
  /-- edges of a node; node at the far end of an edge and its type -/
  edg : ℕ → Finset ℕ
  nbr : ℕ → ℕ
  nty : ℕ → ℕ
  /-- radial features: edge, `l` or path, channel; harmonics: edge, `lm` -/
  R0 : ℕ → ℕ → ℕ → K
  R1 : ℕ → ℕ → ℕ → K
  Y : ℕ → ℕ → K
  /-- density normalisations of a node (`1` if unused) -/
  s0 : ℕ → K
  s1 : ℕ → K
  /-- pair-repulsion energy of a node (`0` if unused) -/
  pairE : ℕ → K

section formulas
variable {K : Type} [Field K] (W : Net K) (c : Conf K)

/-- Neighbour density of the first layer. -/
def phi0 (i lm k : ℕ) : K := ∑ e ∈ c.edg i, c.R0 e (Nat.sqrt lm) k * c.Y e lm * W.emb (c.nty e) k

def a0 (i lm k : ℕ) : K := ∑ k' ∈ Finset.range W.C, phi0 W c i lm k' * W.mix0 (c.typ i) (Nat.sqrt lm) k' k

def a0s (i lm k : ℕ) : K := a0 W c i lm k / c.s0 i

def m0 (i LM k : ℕ) : K := polynomial (W.coef0 (c.typ i) LM k) (W.mono0 LM) (fun lm => a0s W c i lm k)

/-- First-layer features. -/
def h1 (i LM k : ℕ) : K := ∑ k' ∈ Finset.range W.C, m0 W c i LM k' * W.lin1 (Nat.sqrt LM) k' k

/-- Second layer, as a function of the features `H` of the neighbours. -/
def phi1r (H : ℕ → ℕ → ℕ → K) (i q k : ℕ) : K :=
  ∑ e ∈ c.edg i, c.R1 e (W.qp q) k * c.Y e (W.q1 q) * H (c.nbr e) (W.q2 q) k

def phi1 (H : ℕ → ℕ → ℕ → K) (i o k : ℕ) : K :=
  ∑ p ∈ Finset.range W.nCG, if W.cgOut p = o then W.cgC p * phi1r W c H i (W.cgIn p) k else 0

def a1 (H : ℕ → ℕ → ℕ → K) (i lm k : ℕ) : K :=
  ∑ e ∈ Finset.range (W.nE (Nat.sqrt lm)), ∑ k' ∈ Finset.range W.C,
    phi1 W c H i (W.base (Nat.sqrt lm) + (lm - Nat.sqrt lm * Nat.sqrt lm) * W.nE (Nat.sqrt lm) + e) k'
      * W.mix1 (Nat.sqrt lm) e k' k

def a1s (H : ℕ → ℕ → ℕ → K) (i lm k : ℕ) : K := a1 W c H i lm k / c.s1 i

def m1 (H : ℕ → ℕ → ℕ → K) (i k : ℕ) : K := polynomial (W.coef1 (c.typ i) k) W.mono1 (fun lm => a1s W c H i lm k)

/-- Second-layer features; `H i` are the node's own first-layer features. -/
def h2 (H : ℕ → ℕ → ℕ → K) (i k : ℕ) : K :=
  (∑ k' ∈ Finset.range W.C, H i 0 k' * W.lin2h (c.typ i) k' k)
    + ∑ k' ∈ Finset.range W.C, m1 W c H i k' * W.lin2m k' k

/-- Energy of node `i` given first-layer features `H`. -/
def nodeE (H : ℕ → ℕ → ℕ → K) (i : ℕ) : K :=
  c.pairE i + W.atomE (c.typ i) + (∑ k ∈ Finset.range W.C, W.read1 k * H i 0 k) + W.read2 (h2 W c H i)

/-- Energy of node `i`. -/
def energy (i : ℕ) : K := nodeE W c (h1 W c) i

end formulas

end Verif.Spec
