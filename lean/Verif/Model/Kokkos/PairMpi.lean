import Verif.Model.Kokkos.Pair
import Verif.Model.Kokkos.Layers
import Verif.Model.Kokkos.Comm

/-!
# The pair style `symmetrix/mace/kk` with MPI message passing

`compute_mpi_message_passing`, /repo/pair_symmetrix/pair_symmetrix_mace_kokkos.cpp:590-851, on all processes.

Copying a `Kokkos::View` copies the handle, not the storage.  `mace->H1 = H1` (line 731) makes the evaluator's and the pair style's `H1` the
same allocation.  They part when one of them is reallocated: the evaluator's in `compute_H1`, the pair style's in line 717.  `own = none`
means that the two are one allocation, `own = some v` that the pair style's is another one, holding `v`.

`H1_adj = mace->H1_adj` (line 748) precedes the reverse communication in every call, so the communication works on the evaluator's adjoints.

As in the CPU model, the messages of all processes are delivered one after the other; the buffers are in device memory
(`comm->forward_comm(this)` of `CommKokkos`).
-/

namespace Verif.Kokkos.Pair
open Verif.Par Verif.Par.Prog Verif.Lammps

/-- What one process keeps: graph views, number of edges, evaluator, the pair style's `H1` if it is not the evaluator's, accumulators. -/
structure ProcK where
  w : Mem
  edges : ℕ
  s : State ℝ
  own : Option (View ℝ)
  t : Tally

/-- The member `H1` of the pair style. -/
def ProcK.H1 (q : ProcK) : View ℝ := q.own.getD q.s.H1

/-- The state after the contents of the pair style's `H1` have become `v`. -/
def ProcK.setH1 (q : ProcK) (v : View ℝ) : ProcK :=
  match q.own with
  | some _ => { q with own := some v }
  | none => { q with s := { q.s with H1 := v } }

/-- "Sort H1" when the two views are different, pair_symmetrix_mace_kokkos.cpp:718-727. -/
def sortK (n LM C : ℕ) (ilist : List ℕ) (Hm : View ℝ) (E : Unit → List ℕ) : Prog Unit ℝ :=
  parFor3 n LM C (fun ii a k => opt (both ilist[ii]? (Hm.get [ii, a, k])) (fun q => put E () [q.1, a, k] q.2))

/-- "Sort H1" when the two views are one, pair_symmetrix_mace_kokkos.cpp:718-727. -/
def sortSameK (n LM C : ℕ) (ilist : List ℕ) (E : Unit → List ℕ) : Prog Unit ℝ :=
  parFor3 n LM C (fun ii a k => opt ilist[ii]? (fun i => get E () [ii, a, k] (fun x => put E () [i, a, k] x)))

/-- The pair style's `H1` after `compute_H1` (which reallocates the evaluator's, `old`, if it has fewer rows than `M0`) and lines 716-717. -/
def ownNext (P : Params ℝ) (own : Option (View ℝ)) (old M0 new : View ℝ) (rows : ℕ) : Option (View ℝ) :=
  let own := if old.extent 0 < M0.extent 0 then some (own.getD old) else own
  if (own.getD new).extent 0 < rows then some (View.new [rows, P.LM, P.C] 0) else own

/-- "sort H1 contributions by i", pair_symmetrix_mace_kokkos.cpp:715-727. -/
def sortStep (V : PEnv) (P : Params ℝ) (L : NList) (q : ProcK) : Option ProcK :=
  match q.own with
  | some v => do
    let v ← V.L.launch1 (sortK L.inum P.LM P.C L.ilist q.s.H1 (fun _ => v.ext)) v
    some { q with own := some v }
  | none => do
    let v ← V.L.launch1 (sortSameK L.inum P.LM P.C L.ilist (fun _ => q.s.H1.ext)) q.s.H1
    some { q with s := { q.s with H1 := v } }

/-- Before the forward communication, pair_symmetrix_mace_kokkos.cpp:606-727. -/
noncomputable def mpiK1 (V : PEnv) (zbl : Option ZBLModel.ZBL) (P : Params ℝ) (rc : ℝ) (mt : List ℕ) (A : Atoms) (L : NList) (q : ProcK) :
    Option ProcK := do
  let (w, e) ← graphViews V A L (rc * rc) mt L.inum (fun ii => L.ilist[ii]?) some q.w
  let g := w.graph L.inum e
  let s0 ← startPair V.toEnv zbl P g q.s
  let s ← firstLayer V.toEnv P g s0
  sortStep V P L { q with w := w, edges := e, s := s, own := ownNext P q.own s0.H1 s.M0 s.H1 (L.inum + A.nghost) }

/-- Delivery of one forward message. -/
noncomputable def sendForwardK (V : ℕ → PEnv) (P : Params ℝ) (m : Msg) (st : ℕ → ProcK) : Option (ℕ → ProcK) := do
  let n := m.list.length
  let b ← packForward (V m.src).toEnv P.LM P.C n m.list (st m.src).H1 (View.new [n * P.LM * P.C] 0)
  let G ← unpackForward (V m.dst).toEnv P.LM P.C n m.first b.2 (st m.dst).H1
  some (Function.update st m.dst ((st m.dst).setH1 G))

/-- `comm->forward_comm(this)` on all processes, pair_symmetrix_mace_kokkos.cpp:729. -/
noncomputable def forwardCommK (V : ℕ → PEnv) (P : Params ℝ) (ms : List Msg) (st : ℕ → ProcK) : Option (ℕ → ProcK) :=
  ms.foldlM (fun st m => sendForwardK V P m st) st

/-- Between the communications, pair_symmetrix_mace_kokkos.cpp:731-746. -/
noncomputable def mpiK2 (V : PEnv) (P : Params ℝ) (L : NList) (q : ProcK) : Option ProcK := do
  let s ← secondLayer V.toEnv P (q.w.graph L.inum q.edges) { q.s with H1 := q.H1 }
  some { q with s := s, own := none }

/-- Delivery of the answer to one forward message during the reverse communication. -/
noncomputable def sendReverseK (V : ℕ → PEnv) (P : Params ℝ) (m : Msg) (st : ℕ → ProcK) : Option (ℕ → ProcK) := do
  let n := m.list.length
  let b ← packReverse (V m.dst).toEnv P.LM P.C n m.first (st m.dst).s.H1a (View.new [n * P.LM * P.C] 0)
  let G ← unpackReverse (V m.src).toEnv P.LM P.C n m.list b.2 (st m.src).s.H1a
  some (Function.update st m.src { st m.src with s := { (st m.src).s with H1a := G } })

/-- `comm->reverse_comm(this)` on all processes, pair_symmetrix_mace_kokkos.cpp:748-750. -/
noncomputable def reverseCommK (V : ℕ → PEnv) (P : Params ℝ) (ms : List Msg) (st : ℕ → ProcK) : Option (ℕ → ProcK) :=
  ms.reverse.foldlM (fun st m => sendReverseK V P m st) st

/-- After the reverse communication, pair_symmetrix_mace_kokkos.cpp:753-850. -/
noncomputable def mpiK3 (V : PEnv) (P : Params ℝ) (fl : Flags) (L : NList) (q : ProcK) : Option ProcK := do
  let s ← firstLayerBack V.toEnv P (q.w.graph L.inum q.edges) q.s
  let t ← finish V fl L.inum L.inum q.w s.energies s.forces q.t
  some { q with s := s, t := t }

/-- `compute_mpi_message_passing` on all processes. -/
noncomputable def computeMpiK (V : ℕ → PEnv) (zbl : Option ZBLModel.ZBL) (P : Params ℝ) (rc : ℝ) (mt : List ℕ) (fl : Flags) (np : ℕ)
    (A : ℕ → Atoms) (L : ℕ → NList) (ms : List Msg) (st : ℕ → ProcK) : Option (ℕ → ProcK) := do
  let st ← eachProc np (fun p => mpiK1 (V p) zbl P rc mt (A p) (L p)) st
  let st ← forwardCommK V P ms st
  let st ← eachProc np (fun p => mpiK2 (V p) P (L p)) st
  let st ← reverseCommK V P ms st
  eachProc np (fun p => mpiK3 (V p) P fl (L p)) st

end Verif.Kokkos.Pair
