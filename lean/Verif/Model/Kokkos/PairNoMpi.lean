import Verif.Model.Kokkos.Pair
import Verif.Model.Kokkos.Layers

/-!
# The pair style `symmetrix/mace/kk` without MPI message passing

`compute_no_mpi_message_passing`, /repo/pair_symmetrix/pair_symmetrix_mace_kokkos.cpp:857-1179.

A `Kokkos::Bitset` is a view of counters, a bit being set when its counter is not zero: `set` adds one atomically (setting a bit
twice is not a conflict), `test` reads.  Kokkos ignores accesses outside the set; here they are failures.
-/

namespace Verif.Kokkos.Pair
open Verif.Par Verif.Par.Prog Verif.Lammps

/-- "fill is_local", pair_symmetrix_mace_kokkos.cpp:879-885. -/
def markLocalK (L : NList) (E : Unit → List ℕ) : Prog Unit ℕ :=
  parFor L.inum (fun ii => opt L.ilist[ii]? (fun i => atomic E () [i] 1))

open Classical in
/-- "fill is_ghost", pair_symmetrix_mace_kokkos.cpp:888-907. -/
noncomputable def markGhostK (A : Atoms) (L : NList) (rc2 : ℝ) (isLocal : List ℕ) (E : Unit → List ℕ) : Prog Unit ℕ :=
  parFor L.inum (fun ii => opt L.ilist[ii]? (fun i => opt (both (posAt A i) L.num[i]?) (fun q =>
    parFor q.2 (fun jj => opt (pairAt A L i q.1 jj) (fun p =>
      if p.2.2 < rc2 then opt isLocal[p.1]? (fun b => if b = 0 then atomic E () [p.1] 1 else .ret []) else .ret [])))))

/-- What the last pass of "populate ghost_indices" writes, pair_symmetrix_mace_kokkos.cpp:918-919; `up` are the values of `update`. -/
def ghostK (isGhost up : List ℕ) (n : ℕ) (E : Unit → List ℕ) : Prog Unit ℕ :=
  parFor n (fun i => opt (both isGhost[i]? up[i]?) (fun q => if q.1 ≠ 0 then put E () [q.2] i else .ret []))

/-- `ghost_indices`, pair_symmetrix_mace_kokkos.cpp:876-922. -/
noncomputable def ghostsK (V : PEnv) (A : Atoms) (L : NList) (rc2 : ℝ) : Option (List ℕ) := do
  let nall := A.nlocal + A.nghost
  let isLocal ← V.LN.launch1 (markLocalK L (fun _ => [nall])) (View.new [nall] 0)
  let isGhost ← V.LN.launch1 (markGhostK A L rc2 isLocal.data (fun _ => [nall])) (View.new [nall] 0)
  let count := isGhost.data.countP (fun b => b ≠ 0)
  let up ← firstNeigh V.toEnv (isGhost.data.map (fun b => if b ≠ 0 then 1 else 0)) nall
  let ghost ← V.LN.launch1 (ghostK isGhost.data up nall (fun _ => [count])) (View.new [count] 0)
  some ghost.data

/-- The search of neighbour `j` among the nodes `ii, ii+1, ...` (`m` of them), pair_symmetrix_mace_kokkos.cpp:1035-1040. -/
def searchK (E : Unit → List ℕ) (nodeI : List ℕ) (j ij : ℕ) : ℕ → ℕ → Prog Unit ℕ
  | 0, _ => .ret []
  | m + 1, ii => opt nodeI[ii]? (fun i => if i = j then put E () [ij] ii else searchK E nodeI j ij m (ii + 1))

/-- "populate neigh_ii_indices", pair_symmetrix_mace_kokkos.cpp:1031-1041. -/
def neighK (nodeI idx : List ℕ) (n e : ℕ) (E : Unit → List ℕ) : Prog Unit ℕ :=
  parFor e (fun ij => opt idx[ij]? (fun j => searchK E nodeI j ij n 0))

/-- The graph of this mode. -/
structure NoMpiK where
  ghosts : ℕ
  local_edges : ℕ
  edges : ℕ
  w : Mem
  nii : List ℕ

/-- Everything before the evaluation, pair_symmetrix_mace_kokkos.cpp:876-1042. -/
noncomputable def buildNoMpiK (V : PEnv) (A : Atoms) (L : NList) (rc2 : ℝ) (mt : List ℕ) (w : Mem) (nii : List ℕ) : Option NoMpiK := do
  let gh ← ghostsK V A L rc2
  let nl := L.inum
  let n := nl + gh.length
  let w ← nodeLaunch V A L rc2 mt n (fun ii => if ii < nl then L.ilist[ii]? else gh[ii - nl]?)
    { w with nodeI := growL w.nodeI n, types := growL w.types n, nn := List.replicate n 0 ++ (growL w.nn n).drop n }
  let el ← reduceTo V.LN (countK w.nn 0 nl)
  let eg ← reduceTo V.LN (countK w.nn nl gh.length)
  let w ← scanFirst V n w
  let nodeI := w.nodeI
  let w ← edgeViews V A L rc2 mt n (el + eg) (fun ii => nodeI[ii]?) some w
  let nii := growL nii el
  let v ← V.LN.launch1 (neighK w.nodeI w.idx n el (fun _ => [el])) (sub nii el)
  some { ghosts := gh.length, local_edges := el, edges := el + eg, w := w, nii := back nii v }

/-- The arguments of stages on all nodes. -/
def NoMpiK.graph (q : NoMpiK) (nl : ℕ) : MACE.Graph ℝ := q.w.graph (nl + q.ghosts) q.edges

/-- The arguments of stages on the local nodes. -/
def NoMpiK.localGraph (q : NoMpiK) (nl : ℕ) : MACE.Graph ℝ := { q.graph nl with N := nl, idx := q.nii.take q.local_edges }

/-- `compute_no_mpi_message_passing`, pair_symmetrix_mace_kokkos.cpp:857-1179. -/
noncomputable def computeNoMpiK (V : PEnv) (zbl : Option ZBLModel.ZBL) (P : Params ℝ) (rc : ℝ) (mt : List ℕ) (fl : Flags) (A : Atoms)
    (L : NList) (w : Mem) (nii : List ℕ) (s : State ℝ) (t : Tally) : Option (Mem × List ℕ × State ℝ × Tally) := do
  let q ← buildNoMpiK V A L (rc * rc) mt w nii
  let s ← startPair V.toEnv zbl P (q.localGraph L.inum) s
  let s ← firstLayer V.toEnv P (q.graph L.inum) s
  let s ← secondLayer V.toEnv P (q.localGraph L.inum) s
  let s ← firstLayerBack V.toEnv P (q.graph L.inum) s
  let t ← finish V fl L.inum (L.inum + q.ghosts) q.w s.energies s.forces t
  some (q.w, q.nii, s, t)

end Verif.Kokkos.Pair
