import Verif.Model.MACE
import Verif.Spec.MACE
import Verif.Spec.MLP
import Verif.Spec.Pairs
import Verif.Spec.Spline
import Verif.Spec.ZBL
import Mathlib.Data.Real.Sqrt
import Mathlib.Analysis.SpecialFunctions.Trigonometric.Basic

/-!
# What a model file and an input mean

`netOf f` are the weights in the file as a `Net`; `confOf f sph T X` are the edge features of the bond vectors `X`.
`FileOk f` is the shape a well-formed file has, `SysOk f T` the shape of a well-formed input.
Only the record types `File`, `Graph`, `ZBL` come from the model.
-/

namespace Verif.Spec
open Verif.MACE

/-- Entry of a list (`0` outside). -/
def nth (l : List ℝ) (i : ℕ) : ℝ := l[i]?.getD 0
def nthN (l : List ℕ) (i : ℕ) : ℕ := l[i]?.getD 0
def row (l : List (List ℝ)) (i : ℕ) : List ℝ := l[i]?.getD []
def tbl (l : List (List (List ℝ))) (i : ℕ) : List (List ℝ) := l[i]?.getD []

end Verif.Spec

namespace Verif.MACE
open Verif.Spec

/-- Coupling channels `(path, lm1, lm2)`: for each path all `m1`, then all `m2`. -/
def File.couplings (f : File) : List (ℕ × ℕ × ℕ) :=
  (List.range f.phil.length).flatMap (fun le =>
    let l1 := nthN f.phil1 le
    let l2 := nthN f.phil2 le
    (List.range (2 * l1 + 1)).flatMap (fun m1 => (List.range (2 * l2 + 1)).map (fun m2 => (le, l1 * l1 + m1, l2 * l2 + m2))))

/-- Number of element types. -/
def File.nT (f : File) : ℕ := f.atomicNumbers.length

/-- Number of spline nodes of the two radial tables. -/
def File.nodes0 (f : File) : ℕ := (row (tbl f.vals0 0) 0).length
def File.nodes1 (f : File) : ℕ := (row (tbl f.vals1 0) 0).length

/-- The weights of the file. -/
noncomputable def netOf (f : File) : Net ℝ where
  C := f.numChannels
  lmax := f.lmax
  Lmax := f.Lmax
  emb t k := nth f.H0w (t * f.numChannels + k)
  mix0 t l k' k := nth (row (tbl f.A0w t) l) (k' * f.numChannels + k)
  coef0 := f.M0w
  mono0 := f.M0mon
  lin1 l k' k := nth f.H1w (l * f.numChannels * f.numChannels + (k' * f.numChannels + k))
  nQ := f.couplings.length
  qp q := (f.couplings[q]?.getD (0, 0, 0)).1
  q1 q := (f.couplings[q]?.getD (0, 0, 0)).2.1
  q2 q := (f.couplings[q]?.getD (0, 0, 0)).2.2
  nE l := f.phil.count l
  nCG := f.cg.length
  cgOut p := nthN f.philme p
  cgIn p := nthN f.philelm p
  cgC p := nth f.cg p
  mix1 l e k' k := nth (row f.A1w l) ((e * f.numChannels + k') * f.numChannels + k)
  coef1 := f.M1w
  mono1 := f.M1mon
  lin2h t k' k := nth (row f.H2wH1 t) (k' * f.numChannels + k)
  lin2m k' k := nth f.H2wM1 (k' * f.numChannels + k)
  atomE t := nth f.atomicEnergies t
  read1 k := nth f.ro1 k
  read2 x := mlpOut (scaledSilu f.ro2scale) (fun l => if l = 0 then f.numChannels else if l = 1 then 16 else 1)
    (fun l i k => if l = 0 then nth f.ro2w1 (i * f.numChannels + k) else nth f.ro2w2 (i * 16 + k)) 2 x 0

/-- Discrete part of the input: nodes, types, neighbours. -/
structure Sys where
  N : ℕ
  types : List ℕ
  nn : List ℕ
  idx : List ℕ
  ntypes : List ℕ

/-- Number of edges. -/
def Sys.E (T : Sys) : ℕ := (T.nn.take T.N).sum

/-- Edges of node `i`: `nn i` numbers following those of the nodes before. -/
def Sys.edg (T : Sys) (i : ℕ) : Finset ℕ := Finset.Ico (T.nn.take i).sum (T.nn.take (i + 1)).sum

/-- Node whose list contains edge `e`. -/
noncomputable def Sys.owner (T : Sys) (e : ℕ) : ℕ := open Classical in if h : ∃ i < T.N, e ∈ T.edg i then h.choose else 0

/-- Length of a bond vector. -/
noncomputable def len (x : ℕ → ℝ) : ℝ := Real.sqrt (∑ a ∈ Finset.range 3, x a ^ 2)

/-- The arguments of `compute_node_energies_forces` for bond vectors `X`. -/
noncomputable def Sys.graph (T : Sys) (X : ℕ → ℕ → ℝ) : Graph ℝ where
  N := T.N
  types := T.types
  nn := T.nn
  idx := T.idx
  ntypes := T.ntypes
  xyz := (List.range (T.E * 3)).map (fun p => X (p / 3) (p % 3))
  r := (List.range T.E).map (fun e => len (X e))

section conf
variable (f : File) (sph : ℝ → ℝ → ℝ → ℕ → ℝ) (T : Sys) (X : ℕ → ℕ → ℝ)

/-- Position in the tables of the pair of types at the ends of edge `e`. -/
noncomputable def edgePair (e : ℕ) : ℕ := pairPos f.nT (nthN T.types (T.owner e)) (nthN T.ntypes e)

/-- Screened nuclear repulsion on edge `e` (half of the pair energy). -/
noncomputable def zblEdge (z : ZBLModel.ZBL) (e : ℕ) : ℝ :=
  let Zu := nthN f.atomicNumbers (nthN T.types (T.owner e))
  let Zv := nthN f.atomicNumbers (nthN T.ntypes e)
  zblEnergy z.aExp z.aPre (fun k => nth z.c k) (nth z.rad Zu + nth z.rad Zv) z.p.toNat Zu Zv (len (X e))

/-- The edge features. -/
noncomputable def confOf : Conf ℝ where
  typ i := nthN T.types i
  edg i := T.edg i
  nbr e := nthN T.idx e
  nty e := nthN T.ntypes e
  R0 e l k := hermite f.splH (nth (row (tbl f.vals0 (edgePair f T e)) (l * f.numChannels + k)))
    (nth (row (tbl f.ders0 (edgePair f T e)) (l * f.numChannels + k))) (len (X e))
  R1 e p k := hermite f.splH (nth (row (tbl f.vals1 (edgePair f T e)) (p * f.numChannels + k)))
    (nth (row (tbl f.ders1 (edgePair f T e)) (p * f.numChannels + k))) (len (X e))
  Y e lm := sph (X e 2) (X e 0) (X e 1) lm * (2 * Real.sqrt Real.pi)
  s0 i := if f.A0scaled then 1 + ∑ e ∈ T.edg i, hermite f.A0h (nth (row f.A0vals (edgePair f T e)))
    (nth (row f.A0ders (edgePair f T e))) (len (X e)) else 1
  s1 i := if f.A1scaled then 1 + ∑ e ∈ T.edg i, hermite f.A1h (nth (row f.A1vals (edgePair f T e)))
    (nth (row f.A1ders (edgePair f T e))) (len (X e)) else 1
  pairE i := match f.zbl with
    | some z => ∑ e ∈ T.edg i, zblEdge f T X z e
    | none => 0

end conf

/-- Shapes of a well-formed file. -/
structure FileOk (f : File) : Prop where
  nT : 0 < f.nT
  C : 0 < f.numChannels
  nP : 0 < f.phil.length
  energies : f.nT ≤ f.atomicEnergies.length
  zbl : ∀ z, f.zbl = some z → 4 ≤ z.c.length ∧ 1 ≤ z.p ∧ ∀ Z ∈ f.atomicNumbers, Z < z.rad.length
  h : 0 < f.splH
  vals0 : f.vals0.length = (pairList f.nT).length
  ders0 : f.ders0.length = (pairList f.nT).length
  rows0 : ∀ i < (pairList f.nT).length, (tbl f.vals0 i).length = (f.lmax + 1) * f.numChannels ∧
    (tbl f.ders0 i).length = (f.lmax + 1) * f.numChannels ∧ (∀ w ∈ tbl f.vals0 i, w.length = f.nodes0) ∧
    ∀ w ∈ tbl f.ders0 i, w.length = f.nodes0
  nodes0 : 0 < f.nodes0
  vals1 : f.vals1.length = (pairList f.nT).length
  ders1 : f.ders1.length = (pairList f.nT).length
  rows1 : ∀ i < (pairList f.nT).length, (tbl f.vals1 i).length = f.phil.length * f.numChannels ∧
    (tbl f.ders1 i).length = f.phil.length * f.numChannels ∧ (∀ w ∈ tbl f.vals1 i, w.length = f.nodes1) ∧
    ∀ w ∈ tbl f.ders1 i, w.length = f.nodes1
  nodes1 : 0 < f.nodes1
  H0w : f.nT * f.numChannels ≤ f.H0w.length
  A0w : f.nT ≤ f.A0w.length ∧ ∀ w ∈ f.A0w, f.lmax + 1 ≤ w.length ∧ ∀ v ∈ w, f.numChannels * f.numChannels ≤ v.length
  A0s : f.A0scaled = true → 0 < f.A0h ∧ f.A0vals.length = (pairList f.nT).length ∧ f.A0ders.length = (pairList f.nT).length ∧
    ∀ i < (pairList f.nT).length, 0 < (row f.A0vals i).length ∧ (row f.A0vals i).length ≤ (row f.A0ders i).length
  M0w : ∀ a < f.nT, ∀ LM < (f.Lmax + 1) * (f.Lmax + 1), ∀ k < f.numChannels, (f.M0w a LM k).length = (f.M0mon LM).length
  M0mon : ∀ LM < (f.Lmax + 1) * (f.Lmax + 1), (f.M0mon LM).Nodup ∧ ∀ m ∈ f.M0mon LM, m ≠ [] ∧
    ∀ v ∈ m, v < (f.lmax + 1) * (f.lmax + 1)
  H1w : (f.Lmax + 1) * f.numChannels * f.numChannels ≤ f.H1w.length
  phil : ∀ l ∈ f.phil, l ≤ f.lmax
  phil1 : f.phil.length ≤ f.phil1.length ∧ ∀ l ∈ f.phil1, l ≤ f.lmax
  phil2 : f.phil.length ≤ f.phil2.length ∧ ∀ l ∈ f.phil2, l ≤ f.Lmax
  philme : f.cg.length ≤ f.philme.length ∧ ∀ o ∈ f.philme, o < (f.phil.map (fun l => 2 * l + 1)).sum
  philelm : f.cg.length ≤ f.philelm.length ∧ ∀ q ∈ f.philelm, q < f.couplings.length
  A1w : f.lmax + 1 ≤ f.A1w.length ∧ ∀ l ≤ f.lmax, f.phil.count l * f.numChannels * f.numChannels ≤ (row f.A1w l).length
  A1s : f.A1scaled = true → 0 < f.A1h ∧ f.A1vals.length = (pairList f.nT).length ∧ f.A1ders.length = (pairList f.nT).length ∧
    ∀ i < (pairList f.nT).length, 0 < (row f.A1vals i).length ∧ (row f.A1vals i).length ≤ (row f.A1ders i).length
  M1w : ∀ a < f.nT, ∀ k < f.numChannels, (f.M1w a k).length = f.M1mon.length
  M1mon : f.M1mon.Nodup ∧ ∀ m ∈ f.M1mon, m ≠ [] ∧ ∀ v ∈ m, v < (f.lmax + 1) * (f.lmax + 1)
  H2wH1 : f.nT ≤ f.H2wH1.length ∧ ∀ w ∈ f.H2wH1, f.numChannels * f.numChannels ≤ w.length
  H2wM1 : f.numChannels * f.numChannels ≤ f.H2wM1.length
  ro1 : f.numChannels ≤ f.ro1.length
  ro2w1 : f.ro2w1.length = 16 * f.numChannels
  ro2w2 : f.ro2w2.length = 16

/-- Well-formed discrete input with neighbour indices below `NH`. -/
structure SysIn (f : File) (T : Sys) (NH : ℕ) : Prop where
  types : T.N ≤ T.types.length
  typ : ∀ i < T.N, nthN T.types i < f.nT
  nn : T.N ≤ T.nn.length
  idx : T.E ≤ T.idx.length
  nbr : ∀ e < T.E, nthN T.idx e < NH
  ntypes : T.E ≤ T.ntypes.length
  nty : ∀ e < T.E, nthN T.ntypes e < f.nT

/-- Well-formed discrete input: the neighbours are nodes. -/
abbrev SysOk (f : File) (T : Sys) : Prop := SysIn f T T.N

/-- The length is inside all spline tables. -/
def InTable (f : File) (r : ℝ) : Prop :=
  0 < r ∧ r < f.splH * (f.nodes0 - 1 : ℕ) ∧ r < f.splH * (f.nodes1 - 1 : ℕ) ∧
  (f.A0scaled = true → ∀ w ∈ f.A0vals, r < f.A0h * (w.length - 1 : ℕ)) ∧
  (f.A1scaled = true → ∀ w ∈ f.A1vals, r < f.A1h * (w.length - 1 : ℕ))

/-- All bond vectors are inside the tables. -/
def Inside (f : File) (T : Sys) (X : ℕ → ℕ → ℝ) : Prop := ∀ e < T.E, InTable f (len (X e))

end Verif.MACE
