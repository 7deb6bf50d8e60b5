import Verif.Model.ExtractMACE
import Verif.Spec.MACEFile
import Mathlib.Algebra.BigOperators.Fin
import Mathlib.Data.Fintype.Pi

/-!
# The two-layer MACE network as PyTorch evaluates it

The modules of `mace-torch` and `e3nn` by their documented formulas, layer after layer, without fusing of weights: an e3nn `Linear`
divides by the square root of the number of inputs, a `FullyConnectedTensorProduct` with the one-hot element vector by the square root of
channels times elements.  Only the record `Torch` (the weights) comes from the model; angular indices are `lm = l² + (m + l)`.
-/

namespace Verif.Extract
open Verif.MACE Verif.Spec

/-- Radial functions of a network: two elements, column, distance; and the edge densities if used. -/
structure Radials where
  R0 : ℕ → ℕ → ℕ → ℝ → ℝ
  R1 : ℕ → ℕ → ℕ → ℝ → ℝ
  d0 : Option (ℕ → ℕ → ℝ → ℝ)
  d1 : Option (ℕ → ℕ → ℝ → ℝ)

/-- Those of the PyTorch model. -/
noncomputable def Torch.radials (M : Torch) : Radials where
  R0 := M.R0
  R1 := M.R1
  d0 := M.dens0.map (fun d a b r => Real.tanh (d a b r ^ 2))
  d1 := M.dens1.map (fun d a b r => Real.tanh (d a b r ^ 2))

/-- Every function replaced by the spline `S` of it. -/
def Radials.map (S : (ℝ → ℝ) → ℝ → ℝ) (q : Radials) : Radials where
  R0 a b c := S (q.R0 a b c)
  R1 a b c := S (q.R1 a b c)
  d0 := q.d0.map (fun d a b => S (d a b))
  d1 := q.d1.map (fun d a b => S (d a b))

/-- A structure: element of each node (number in the PyTorch model), edges of a node; node and element at the far end of an edge, its
length, its harmonics; pair energy of a node. -/
structure Scene where
  z : ℕ → ℕ
  edg : ℕ → Finset ℕ
  nbr : ℕ → ℕ
  nz : ℕ → ℕ
  len : ℕ → ℝ
  Y : ℕ → ℕ → ℝ
  pair : ℕ → ℝ

/-- `Σ_{t ∈ [0,M)^corr} U t Π x_t`. -/
noncomputable def contraction (M corr : ℕ) (U : List ℕ → ℝ) (x : ℕ → ℝ) : ℝ :=
  ∑ t : Fin corr → Fin M, U (List.ofFn (fun i => (t i : ℕ))) * ∏ i, x (t i)

section reference
variable (M : Torch) (q : Radials) (cg : ℕ → ℕ → ℕ → ℕ → ℝ) (S : Scene)

/-- `node_embedding`, `interactions[0].linear_up`: element, channel. -/
noncomputable def tEmb (z k : ℕ) : ℝ := M.emb (z * M.C + k) / Real.sqrt M.zs.length
noncomputable def tUp0 (z k : ℕ) : ℝ := ∑ k' ∈ Finset.range M.C, tEmb M z k' * (M.up0 (k' * M.C + k) / Real.sqrt M.C)

/-- `interactions[0]`: `conv_tp` and sum over the edges; `linear` with normalisation; `skip_tp`. -/
noncomputable def tConv0 (i lm k : ℕ) : ℝ :=
  ∑ e ∈ S.edg i, q.R0 (S.z i) (S.nz e) (Nat.sqrt lm * M.C + k) (S.len e) * S.Y e lm * tUp0 M (S.nz e) k
noncomputable def tNorm0 (i : ℕ) : ℝ := match q.d0 with
  | some d => (∑ e ∈ S.edg i, d (S.z i) (S.nz e) (S.len e)) + 1
  | none => M.avg0
noncomputable def tLin0 (i lm k : ℕ) : ℝ :=
  (∑ k' ∈ Finset.range M.C, tConv0 M q S i lm k' * (M.lin0 (Nat.sqrt lm) k' k / Real.sqrt M.C)) / tNorm0 M q S i
noncomputable def tMsg0 (i lm k : ℕ) : ℝ :=
  ∑ k' ∈ Finset.range M.C, tLin0 M q S i lm k' * (M.skip0 (Nat.sqrt lm) k' (S.z i) k / Real.sqrt (M.zs.length * M.C))

/-- `products[0]`: symmetric contraction, `linear`. -/
noncomputable def tProd0 (i LM k : ℕ) : ℝ :=
  ∑ corr ∈ {1, 2, 3}, ∑ eta ∈ Finset.range (M.nEta0 (Nat.sqrt LM) corr), M.W0 (Nat.sqrt LM) corr (S.z i) eta k
    * contraction ((M.lmax + 1) * (M.lmax + 1)) corr (fun t => M.U0 (Nat.sqrt LM) corr (LM - Nat.sqrt LM * Nat.sqrt LM) t eta)
        (fun lm => tMsg0 M q S i lm k)
noncomputable def tFeat0 (i LM k : ℕ) : ℝ :=
  ∑ k' ∈ Finset.range M.C, tProd0 M q S i LM k' * (M.plin0 ((Nat.sqrt LM * M.C + k') * M.C + k) / Real.sqrt M.C)

/-- `interactions[1]`: `linear_up`, `conv_tp` of path `le` (component `mu`) and sum over the edges, `linear` with normalisation. -/
noncomputable def tUp1 (i LM k : ℕ) : ℝ :=
  ∑ k' ∈ Finset.range M.C, tFeat0 M q S i LM k' * (M.up1 ((Nat.sqrt LM * M.C + k') * M.C + k) / Real.sqrt M.C)
noncomputable def tConv1 (i le mu k : ℕ) : ℝ :=
  ∑ e ∈ S.edg i, q.R1 (S.z i) (S.nz e) (le * M.C + k) (S.len e)
    * ∑ m1 ∈ Finset.range (2 * nthN M.phil1 le + 1), ∑ m2 ∈ Finset.range (2 * nthN M.phil2 le + 1), cg le m1 m2 mu
        * S.Y e (nthN M.phil1 le * nthN M.phil1 le + m1) * tUp1 M q S (S.nbr e) (nthN M.phil2 le * nthN M.phil2 le + m2) k
noncomputable def tNorm1 (i : ℕ) : ℝ := match q.d1 with
  | some d => (∑ e ∈ S.edg i, d (S.z i) (S.nz e) (S.len e)) + 1
  | none => M.avg1
/-- Number of earlier paths with the same output. -/
def Torch.rank (le : ℕ) : ℕ := (M.phil.take le).count (nthN M.phil le)
noncomputable def tMsg1 (i lm k : ℕ) : ℝ :=
  (∑ le ∈ (Finset.range M.phil.length).filter (fun le => nthN M.phil le = Nat.sqrt lm), ∑ k' ∈ Finset.range M.C,
    tConv1 M q cg S i le (lm - Nat.sqrt lm * Nat.sqrt lm) k'
      * (M.lin1 (Nat.sqrt lm) (M.rank le * M.C + k') k / Real.sqrt (M.phil.count (Nat.sqrt lm) * M.C))) / tNorm1 M q S i

/-- `products[1]`: symmetric contraction; `linear`; plus `skip_tp` of the first layer's features. -/
noncomputable def tProd1 (i k : ℕ) : ℝ :=
  ∑ corr ∈ {1, 2, 3}, ∑ eta ∈ Finset.range (M.nEta1 corr), M.W1 corr (S.z i) eta k
    * contraction ((M.lmax + 1) * (M.lmax + 1)) corr (fun t => M.U1 corr t eta) (fun lm => tMsg1 M q cg S i lm k)
noncomputable def tFeat1 (i k : ℕ) : ℝ :=
  (∑ k' ∈ Finset.range M.C, tProd1 M q cg S i k' * (M.plin1 (k' * M.C + k) / Real.sqrt M.C))
    + ∑ k' ∈ Finset.range M.C, tFeat0 M q S i 0 k' * (M.skip1 k' (S.z i) k / Real.sqrt (M.zs.length * M.C))

/-- `readouts`. -/
noncomputable def tRead0 (i : ℕ) : ℝ := ∑ k ∈ Finset.range M.C, tFeat0 M q S i 0 k * (M.read1 k / Real.sqrt M.C)
noncomputable def tRead1 (i : ℕ) : ℝ :=
  ∑ j ∈ Finset.range 16, scaledSilu M.cst (∑ k ∈ Finset.range M.C, tFeat1 M q cg S i k * (M.read2a (k * 16 + j) / Real.sqrt M.C))
    * (M.read2b j / Real.sqrt 16)

/-- Energy of node `i`: isolated atom plus scaled and shifted interaction energy. -/
noncomputable def torchEnergy (i : ℕ) : ℝ :=
  M.e0 (S.z i) + (M.scale * (S.pair i + tRead0 M q S i + tRead1 M q cg S i) + M.shift)

end reference

/-- The input `T`, `X` of the evaluator whose types are numbers in the list `an`, as a structure for the PyTorch model. -/
noncomputable def sceneOf (M : Torch) (an : List ℕ) (sph : ℝ → ℝ → ℝ → ℕ → ℝ) (T : Sys) (X : ℕ → ℕ → ℝ) : Scene where
  z i := M.zs.idxOf (nthN an (nthN T.types i))
  edg i := T.edg i
  nbr e := nthN T.idx e
  nz e := M.zs.idxOf (nthN an (nthN T.ntypes e))
  len e := len (X e)
  Y e lm := sph (X e 2) (X e 0) (X e 1) lm * (2 * Real.sqrt Real.pi)
  pair i := match M.zbl with
    | some p => ∑ e ∈ T.edg i, zblEnergy p.aExp p.aPre (fun k => nth p.c k)
        (nth p.rad (nthN an (nthN T.types i)) + nth p.rad (nthN an (nthN T.ntypes e))) p.p.toNat
        (nthN an (nthN T.types i)) (nthN an (nthN T.ntypes e)) (len (X e))
    | none => 0

/-- What the PyTorch model fulfils.  `cg` are the coupling coefficients of `conv_tp`: path, components of harmonic, of node features, of
the output.  Nonzero entries of the coupling tensors are larger than the script's threshold. -/
structure TorchOk (M : Torch) (cg : ℕ → ℕ → ℕ → ℕ → ℝ) : Prop where
  lmax : M.lmax = 3
  C : 0 < M.C
  zs : M.zs.Nodup ∧ M.zs ≠ []
  rcut : 1e-12 < M.rcut
  zbl : ∀ p, M.zbl = some p → 4 ≤ p.c.length ∧ 1 ≤ p.p ∧ ∀ Z ∈ M.zs, Z < p.rad.length
  avg : M.avg0 ≠ 0 ∧ M.avg1 ≠ 0
  R0 : ∀ a b, M.R0 a b = M.R0 b a
  R1 : ∀ a b, M.R1 a b = M.R1 b a
  dens0 : ∀ d, M.dens0 = some d → ∀ a b, d a b = d b a
  dens1 : ∀ d, M.dens1 = some d → ∀ a b, d a b = d b a
  U0 : ∀ l corr m t eta, M.U0 l corr m t eta = 0 ∨ 1e-12 < |M.U0 l corr m t eta|
  U1 : ∀ corr t eta, M.U1 corr t eta = 0 ∨ 1e-12 < |M.U1 corr t eta|
  paths : M.phil ≠ []
  phil : M.phil.Pairwise (· ≤ ·) ∧ ∀ l ∈ M.phil, l ≤ M.lmax
  phil1 : M.phil1.length = M.phil.length ∧ ∀ l ∈ M.phil1, l ≤ M.lmax
  phil2 : M.phil2.length = M.phil.length ∧ ∀ l ∈ M.phil2, l ≤ M.Lmax
  thr : ∀ le m1 m2 mu, cg le m1 m2 mu = 0 ∨ 1e-12 < |cg le m1 m2 mu|
  tp : ∀ H Y R : ℕ → ℝ, ∀ le < M.phil.length, ∀ k < M.C, ∀ mu < 2 * nthN M.phil le + 1,
    M.tp H Y R (((M.phil.take le).map (fun l => 2 * l + 1)).sum * M.C + k * (2 * nthN M.phil le + 1) + mu)
      = R (le * M.C + k) * ∑ m1 ∈ Finset.range (2 * nthN M.phil1 le + 1), ∑ m2 ∈ Finset.range (2 * nthN M.phil2 le + 1),
          cg le m1 m2 mu * Y (nthN M.phil1 le * nthN M.phil1 le + m1)
            * H (nthN M.phil2 le * nthN M.phil2 le * M.C + k * (2 * nthN M.phil2 le + 1) + m2)

/-- `np.linalg.inv` returns an inverse or fails. -/
def InvOk (inv : ℕ → (ℕ → ℕ → ℝ) → Option (ℕ → ℕ → ℝ)) : Prop :=
  ∀ n A B, inv n A = some B → ∀ i < n, ∀ k < n, ∑ j ∈ Finset.range n, A i j * B j k = if i = k then 1 else 0

end Verif.Extract
