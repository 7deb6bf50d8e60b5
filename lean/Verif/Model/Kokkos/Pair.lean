import Verif.Model.Kokkos.Eval
import Verif.Model.Lammps

/-!
# The LAMMPS pair style `symmetrix/mace/kk`: `compute`

/repo/pair_symmetrix/pair_symmetrix_mace_kokkos.cpp.  Kernels are modelled as in Model/Kokkos/Eval.lean; what a team does outside
nested ranges is executed once.  A kernel that writes integer and real views works on pairs of an integer and a real.  LAMMPS'
atoms, neighbour list and accumulators are those of Model/Lammps.lean (`d_neighbors(i,jj)` is entry `jj` of `first[i]`); its two
atom-map styles are the function `map`.  `mace_types` holds the species numbers of an accepted `pair_coeff`.
-/

namespace Verif.Kokkos.Pair
open Verif.Par Verif.Par.Prog Verif.Lammps

/-- Also the order in which threads of kernels on integer and real views run. -/
structure PEnv extends Env ℝ where
  LX : Launcher (ℕ × ℝ)

/-- The member views, pair_symmetrix_mace_kokkos.h. -/
structure Mem where
  nodeI : List ℕ
  types : List ℕ
  nn : List ℕ
  fn : List ℕ
  idx : List ℕ
  ntypes : List ℕ
  xyz : List ℝ
  r : List ℝ

/-- `if (v.size() < n) Kokkos::realloc(v, n)`. -/
def growL {α : Type} [Zero α] (l : List α) (n : ℕ) : List α := if l.length < n then List.replicate n 0 else l

/-- `Kokkos::subview(v, make_pair(0, n))`. -/
def sub {α : Type} (l : List α) (n : ℕ) : View α := ⟨[n], l.take n⟩

/-- The view after its first entries have been changed through a subview. -/
def back {α : Type} (l : List α) (v : View α) : List α := v.data ++ l.drop v.data.length

/-- The position of atom `i`. -/
def posAt (A : Atoms) (i : ℕ) : Option (ℝ × ℝ × ℝ) := do
  let x ← A.x[3 * i]?
  let y ← A.x[3 * i + 1]?
  let z ← A.x[3 * i + 2]?
  some (x, y, z)

/-- Neighbour `jj` of atom `i` (at `xi`): its number, the vector to it and the squared distance, pair_symmetrix_mace_kokkos.cpp:424-428. -/
noncomputable def pairAt (A : Atoms) (L : NList) (i : ℕ) (xi : ℝ × ℝ × ℝ) (jj : ℕ) : Option (ℕ × (ℝ × ℝ × ℝ) × ℝ) := do
  let jl ← L.first[i]?
  let raw ← jl[jj]?
  let j := neighMask raw
  let xj ← posAt A j
  let dx := xj.1 - xi.1
  let dy := xj.2.1 - xi.2.1
  let dz := xj.2.2 - xi.2.2
  some (j, (dx, dy, dz), dx * dx + dy * dy + dz * dz)

/-- The views of the first kernel. -/
inductive NodeV | index | type | count
  deriving DecidableEq

open Classical in
/-- "set_node_based_views", pair_symmetrix_mace_kokkos.cpp:411-433 (620-642, 937-958); `node ii` is the atom of node `ii`. -/
noncomputable def nodesK (A : Atoms) (L : NList) (rc2 : ℝ) (mt : List ℕ) (n : ℕ) (node : ℕ → Option ℕ) (E : NodeV → List ℕ) :
    Prog NodeV ℕ :=
  parFor n (fun ii => opt (node ii) (fun i => seq (put E .index [ii] i) (opt (maceType mt A i) (fun t => seq (put E .type [ii] t)
    (opt (both (posAt A i) L.num[i]?) (fun q => .par q.2
      (fun jj => opt (pairAt A L i q.1 jj) (fun p => .ret [if p.2.2 < rc2 then 1 else 0]))
      (fun vs => put E .count [ii] (red 0 vs))))))))

/-- "count_edges", pair_symmetrix_mace_kokkos.cpp:437-441 (646-650, 963-973): the nodes `a .. a+n-1`. -/
def countK (nn : List ℕ) (a n : ℕ) : Prog Unit ℕ :=
  .par n (fun ii => opt (nn[a + ii]?) (fun m => .ret [m])) (fun vs => .ret [red 0 vs])

/-- Result of a reduction that writes no view. -/
def reduceTo {K : Type} [AddCommMonoid K] (L : Launcher K) (p : Prog Unit K) : Option K :=
  (L.go p (fun _ => [])).bind (fun q => q.1[0]?)

/-- Run of the first kernel on views that are large enough. -/
noncomputable def nodeLaunch (V : PEnv) (A : Atoms) (L : NList) (rc2 : ℝ) (mt : List ℕ) (n : ℕ) (node : ℕ → Option ℕ) (w : Mem) :
    Option Mem := do
  let vs : NodeV → View ℕ := fun b => match b with
    | .index => sub w.nodeI n
    | .type => sub w.types n
    | .count => sub w.nn n
  let q ← V.LN.launch (nodesK A L rc2 mt n node (fun b => (vs b).ext)) vs
  some { w with nodeI := back w.nodeI (q.2 .index), types := back w.types (q.2 .type), nn := back w.nn (q.2 .count) }

/-- Graph data of the nodes: `node_indices`, `node_types`, `num_neigh`, pair_symmetrix_mace_kokkos.cpp:399-433 (608-642). -/
noncomputable def nodeViews (V : PEnv) (A : Atoms) (L : NList) (rc2 : ℝ) (mt : List ℕ) (n : ℕ) (node : ℕ → Option ℕ) (w : Mem) :
    Option Mem :=
  nodeLaunch V A L rc2 mt n node
    { w with nodeI := growL w.nodeI n, types := growL w.types n, nn := List.replicate (growL w.nn n).length 0 }

/-- "populate_first_neigh", pair_symmetrix_mace_kokkos.cpp:444-451 (653-660, 977-985). -/
noncomputable def scanFirst (V : PEnv) (n : ℕ) (w : Mem) : Option Mem := do
  let fn ← firstNeigh V.toEnv w.nn n
  some { w with fn := back (growL w.fn n) ⟨[n], fn⟩ }

/-- The views of the second kernel. -/
inductive EdgeV | index | type | xyz | r
  deriving DecidableEq

/-- Writes of one edge, pair_symmetrix_mace_kokkos.cpp:479-484 (686-691, 1016-1021). -/
noncomputable def edgeK (E : EdgeV → List ℕ) (A : Atoms) (mt : List ℕ) (ij : ℕ) (jn j : ℕ) (d : ℝ × ℝ × ℝ) (r2 : ℝ) :
    Prog EdgeV (ℕ × ℝ) :=
  seq (put E .index [ij] (jn, 0)) (opt (maceType mt A j) (fun t => seq (put E .type [ij] (t, 0))
    (seq (put E .xyz [3 * ij] (0, d.1)) (seq (put E .xyz [3 * ij + 1] (0, d.2.1)) (seq (put E .xyz [3 * ij + 2] (0, d.2.2))
      (put E .r [ij] (0, Real.sqrt r2)))))))

open Classical in
/-- The loop over the neighbours `jj, jj+1, ...` (`m` of them) with its running edge number, pair_symmetrix_mace_kokkos.cpp:471-487
(679-694, 1009-1024).  `look j` is what is stored for neighbour `j` (line 473 evaluates it for all listed neighbours; it only
matters for those inside the cutoff). -/
noncomputable def edgeLoop (E : EdgeV → List ℕ) (A : Atoms) (L : NList) (rc2 : ℝ) (mt : List ℕ) (look : ℕ → Option ℕ) (i : ℕ)
    (xi : ℝ × ℝ × ℝ) : ℕ → ℕ → ℕ → Prog EdgeV (ℕ × ℝ)
  | 0, _, _ => .ret []
  | m + 1, jj, ij => opt (pairAt A L i xi jj) (fun q =>
      if q.2.2 < rc2 then opt (look q.1) (fun jn =>
        seq (edgeK E A mt ij jn q.1 q.2.1 q.2.2) (edgeLoop E A L rc2 mt look i xi m (jj + 1) (ij + 1)))
      else edgeLoop E A L rc2 mt look i xi m (jj + 1) ij)

/-- "set_edge_based_views", pair_symmetrix_mace_kokkos.cpp:463-488 (671-695, 1001-1025). -/
noncomputable def edgesK (A : Atoms) (L : NList) (rc2 : ℝ) (mt : List ℕ) (n : ℕ) (node : ℕ → Option ℕ) (fn : List ℕ)
    (look : ℕ → Option ℕ) (E : EdgeV → List ℕ) : Prog EdgeV (ℕ × ℝ) :=
  parFor n (fun ii => opt (node ii) (fun i => opt (both (posAt A i) (both fn[ii]? L.num[i]?)) (fun q =>
    edgeLoop E A L rc2 mt look i q.1 q.2.2 0 q.2.1)))

/-- Graph data of the edges: `neigh_indices`, `neigh_types`, `xyz`, `r`. -/
noncomputable def edgeViews (V : PEnv) (A : Atoms) (L : NList) (rc2 : ℝ) (mt : List ℕ) (n e : ℕ) (node : ℕ → Option ℕ)
    (look : ℕ → Option ℕ) (w : Mem) : Option Mem := do
  let w := { w with idx := growL w.idx e, ntypes := growL w.ntypes e, xyz := growL w.xyz (3 * e), r := growL w.r e }
  let vs : EdgeV → View (ℕ × ℝ) := fun b => match b with
    | .index => sub (w.idx.map (fun k => (k, 0))) e
    | .type => sub (w.ntypes.map (fun k => (k, 0))) e
    | .xyz => sub (w.xyz.map (fun x => (0, x))) (3 * e)
    | .r => sub (w.r.map (fun x => (0, x))) e
  let q ← V.LX.launch (edgesK A L rc2 mt n node w.fn look (fun b => (vs b).ext)) vs
  let nat := fun b => View.mk (q.2 b).ext ((q.2 b).data.map Prod.fst)
  let real := fun b => View.mk (q.2 b).ext ((q.2 b).data.map Prod.snd)
  some { w with idx := back w.idx (nat .index), ntypes := back w.ntypes (nat .type), xyz := back w.xyz (real .xyz),
                r := back w.r (real .r) }

/-- The graph of the atoms `node 0 .. node (n-1)`, pair_symmetrix_mace_kokkos.cpp:399-488 (610-695); also the number of edges. -/
noncomputable def graphViews (V : PEnv) (A : Atoms) (L : NList) (rc2 : ℝ) (mt : List ℕ) (n : ℕ) (node : ℕ → Option ℕ)
    (look : ℕ → Option ℕ) (w : Mem) : Option (Mem × ℕ) := do
  let w ← nodeViews V A L rc2 mt n node w
  let e ← reduceTo V.LN (countK w.nn 0 n)
  let w ← scanFirst V n w
  let w ← edgeViews V A L rc2 mt n e node look w
  some (w, e)

/-- The arguments of the evaluator: subviews for `n` nodes and `e` edges. -/
def Mem.graph (w : Mem) (n e : ℕ) : MACE.Graph ℝ where
  N := n
  types := w.types.take n
  nn := w.nn.take n
  idx := w.idx.take e
  ntypes := w.ntypes.take e
  xyz := w.xyz.take (3 * e)
  r := w.r.take e

/-! ## Results -/

/-- "energy_reduction", pair_symmetrix_mace_kokkos.cpp:495-499 (761-765, 1091-1093). -/
noncomputable def energyK (energies : View ℝ) (n : ℕ) : Prog Unit ℝ :=
  .par n (fun i => opt (energies.get [i]) (fun e => .ret [e])) (fun vs => .ret [red 0 vs])

/-- "extract_atomic_energies", pair_symmetrix_mace_kokkos.cpp:506-508 (772-774, 1100-1102). -/
noncomputable def eatomK (energies : View ℝ) (n : ℕ) (E : Unit → List ℕ) : Prog Unit ℝ :=
  parFor n (fun ii => opt (energies.get [ii]) (fun e => plus E () [ii] e))

/-- The three components of the force on edge `ij`. -/
def forceAt (forces : View ℝ) (ij : ℕ) : Option (ℝ × ℝ × ℝ) := do
  let x ← forces.get [3 * ij]
  let y ← forces.get [3 * ij + 1]
  let z ← forces.get [3 * ij + 2]
  some (x, y, z)

/-- The vector of edge `ij`. -/
def vecAt (xyz : List ℝ) (ij : ℕ) : Option (ℝ × ℝ × ℝ) := do
  let x ← xyz[3 * ij]?
  let y ← xyz[3 * ij + 1]?
  let z ← xyz[3 * ij + 2]?
  some (x, y, z)

/-- "force_reduction", pair_symmetrix_mace_kokkos.cpp:513-536 (779-802, 1107-1130). -/
noncomputable def forceK (n : ℕ) (w : Mem) (forces : View ℝ) (E : Unit → List ℕ) : Prog Unit ℝ :=
  parFor n (fun ii => opt (both w.nodeI[ii]? (both w.fn[ii]? w.nn[ii]?)) (fun q => .par q.2.2
    (fun jj => opt (both w.idx[q.2.1 + jj]? (forceAt forces (q.2.1 + jj))) (fun p =>
      seq (atomic E () [p.1, 0] p.2.1) (seq (atomic E () [p.1, 1] p.2.2.1) (seq (atomic E () [p.1, 2] p.2.2.2)
        (.ret [p.2.1, p.2.2.1, p.2.2.2])))))
    (fun vs => seq (atomic E () [q.1, 0] (-(red 0 vs))) (seq (atomic E () [q.1, 1] (-(red 1 vs)))
      (atomic E () [q.1, 2] (-(red 2 vs)))))))

/-- "virial_reduction", pair_symmetrix_mace_kokkos.cpp:541-573 (807-839, 1135-1167). -/
noncomputable def virialK (n : ℕ) (w : Mem) (forces : View ℝ) (E : Unit → List ℕ) : Prog Unit ℝ :=
  parFor n (fun ii => opt (both w.nodeI[ii]? (both w.fn[ii]? w.nn[ii]?)) (fun q => .par q.2.2
    (fun jj => opt (both (vecAt w.xyz (q.2.1 + jj)) (forceAt forces (q.2.1 + jj))) (fun p =>
      let x := p.1.1
      let y := p.1.2.1
      let z := p.1.2.2
      let fx := p.2.1
      let fy := p.2.2.1
      let fz := p.2.2.2
      .ret [x * fx, y * fy, z * fz, 1 / 2 * (x * fy + y * fx), 1 / 2 * (x * fz + z * fx), 1 / 2 * (y * fz + z * fy)]))
    (fun vs => seq (atomic E () [0] (red 0 vs)) (seq (atomic E () [1] (red 1 vs)) (seq (atomic E () [2] (red 2 vs))
      (seq (atomic E () [3] (red 3 vs)) (seq (atomic E () [4] (red 4 vs)) (atomic E () [5] (red 5 vs)))))))))

/-- `virial[k] += h_v(k)` for the six components, pair_symmetrix_mace_kokkos.cpp:575-580 (841-846, 1169-1174). -/
noncomputable def addSix (v : View ℝ) (virial : List ℝ) : Option (List ℝ) :=
  loop 6 (fun k l => do
    let x ← v.get [k]
    ad l k x) virial

/-- Everything after the evaluation, pair_symmetrix_mace_kokkos.cpp:492-584 (758-850, 1088-1178): `nE` nodes with energies, `nF`
nodes with edges.  `t.eatom` is the content of `k_eatom` (a new view contains zeros). -/
noncomputable def finish (V : PEnv) (fl : Flags) (nE nF : ℕ) (w : Mem) (energies forces : View ℝ) (t : Tally) : Option Tally := do
  let eng ← (if fl.eGlobal then (reduceTo V.L (energyK energies nE)).map (t.eng + ·) else some t.eng : Option ℝ)
  let eatom ← (if fl.eAtom then
      (V.L.launch1 (eatomK energies nE (fun _ => [t.eatom.length])) ⟨[t.eatom.length], t.eatom⟩).map View.data
    else some t.eatom : Option (List ℝ))
  let f ← V.L.launch1 (forceK nF w forces (fun _ => [t.f.length / 3, 3])) ⟨[t.f.length / 3, 3], t.f⟩
  let virial ← (if fl.vGlobal then
      (V.L.launch1 (virialK nF w forces (fun _ => [6])) (View.new [6] 0)).bind (fun v => addSix v t.virial)
    else some t.virial : Option (List ℝ))
  if fl.vAtom then none else some { eng := eng, eatom := eatom, f := f.data, virial := virial }

/-- `compute_no_domain_decomposition`, pair_symmetrix_mace_kokkos.cpp:374-585. -/
noncomputable def computeSingle (V : PEnv) (zbl : Option ZBLModel.ZBL) (P : Params ℝ) (rc : ℝ) (mt : List ℕ) (fl : Flags) (A : Atoms)
    (L : NList) (w : Mem) (s : State ℝ) (t : Tally) : Option (Mem × State ℝ × Tally) := do
  let n := L.inum
  let (w, e) ← graphViews V A L (rc * rc) mt n (fun ii => L.ilist[ii]?) (mapTag A) w
  let s ← compute V.toEnv P zbl (w.graph n e) s
  let t ← finish V fl n n w s.energies s.forces t
  some (w, s, t)

end Verif.Kokkos.Pair
