import Verif.Model.Kokkos.PairNoMpi
import Verif.Model.Kokkos.PairMpi

/-!
# Kokkos pair style: LAMMPS' arrays on the device and on the host

LAMMPS keeps the arrays of the atoms twice, with a note which of the two was modified last (`Kokkos::DualView`); `sync` copies, `modified`
makes the note.  Modelled: pair_symmetrix_mace_kokkos.cpp:85-86, 390-399 (604-607, 871-874), around the three `compute` functions.
`Side` is the template parameter `DeviceType`: `symmetrix/mace/kk` and `/kk/device` are `LMPDeviceType`, `/kk/host` is `LMPHostType`, a class of
its own only if there is a GPU (pair_symmetrix_mace_kokkos.h:22-27, .cpp:1185-1188).  The kernels run where Kokkos runs by default
(`Kokkos::TeamPolicy<>`, ranges without a space), on the device.

`shared`: device and host have one memory.  Assumed of LAMMPS: the neighbour list is where `init_style` asked for it, communication of features
leaves the arrays alone; `ENERGY_MASK` and `VIRIAL_MASK` stand for no array of the atoms.  `k_eatom` is in `PairEatom.lean`.
-/

namespace Verif.Kokkos.Pair
open Verif.Lammps

inductive Side where
  | device
  | host
  deriving DecidableEq

def Side.other : Side → Side
  | .device => .host
  | .host => .device

/-- The two arrays, and which was modified since the last copy. -/
structure Dual (α : Type) where
  arr : Side → α
  mod : Side → Bool

variable {α : Type}

/-- `sync` -/
def Dual.sync (s : Side) (d : Dual α) : Dual α :=
  if d.mod s.other then ⟨fun r => if r = s then d.arr s.other else d.arr r, fun _ => false⟩ else d

/-- `modify` -/
def Dual.modify (s : Side) (d : Dual α) : Dual α := ⟨d.arr, fun r => if r = s then true else d.mod r⟩

/-- What kernels leave in `view<DeviceType>()`. -/
def Dual.write (shared : Bool) (s : Side) (a : α) (d : Dual α) : Dual α := ⟨fun r => if shared ∨ r = s then a else d.arr r, d.mod⟩

/-- `AtomKokkos`; `hash`: `map_style` is `MAP_HASH`, otherwise `MAP_ARRAY`. -/
structure AtomsK where
  nlocal : ℕ
  nghost : ℕ
  x : Dual (List ℝ)
  f : Dual (List ℝ)
  type : Dual (List ℕ)
  tag : Dual (List ℕ)
  hash : Bool
  mapArray : Dual (ℕ → Option ℕ)
  mapHash : Dual (ℕ → Option ℕ)

/-- `X_MASK`, `F_MASK`, `TYPE_MASK`, `TAG_MASK`. -/
structure Mask where
  x : Bool
  f : Bool
  type : Bool
  tag : Bool

/-- `atomKK->sync(execution_space, mask)` -/
def AtomsK.sync (s : Side) (m : Mask) (a : AtomsK) : AtomsK :=
  { a with
    x := if m.x then a.x.sync s else a.x
    f := if m.f then a.f.sync s else a.f
    type := if m.type then a.type.sync s else a.type
    tag := if m.tag then a.tag.sync s else a.tag }

/-- `atomKK->modified(execution_space, mask)` -/
def AtomsK.modified (s : Side) (m : Mask) (a : AtomsK) : AtomsK :=
  { a with
    x := if m.x then a.x.modify s else a.x
    f := if m.f then a.f.modify s else a.f
    type := if m.type then a.type.modify s else a.type
    tag := if m.tag then a.tag.modify s else a.tag }

/-- What `view<DeviceType>()` and `map_kokkos<DeviceType>` give. -/
def AtomsK.view (s : Side) (a : AtomsK) : Atoms :=
  ⟨a.nlocal, a.nghost, a.x.arr s, a.type.arr s, a.tag.arr s, if a.hash then a.mapHash.arr s else a.mapArray.arr s⟩

/-- The kernels can use the arrays of this side. -/
def reach (shared : Bool) (s : Side) : Bool := shared ∨ s = .device

/-- `datamask_modify` (with energy or virial) or `F_MASK`, pair_symmetrix_mace_kokkos.cpp:57, 85-86. -/
def modMask (ev : Bool) : Mask := if ev then ⟨false, true, false, false⟩ else ⟨false, true, false, false⟩

/-- The end of `compute`: the kernels added to `f`, then lines 85-86; `ev`: `eflag || vflag`. -/
def AtomsK.finish (shared : Bool) (s : Side) (ev : Bool) (f : List ℝ) (a : AtomsK) : AtomsK :=
  { a with f := a.f.write shared s f }.modified s (modMask ev)

/-- `compute` without domain decomposition, pair_symmetrix_mace_kokkos.cpp:78-79, 85-86, 390-399. -/
noncomputable def singleDual (shared : Bool) (s : Side) (ev : Bool) (V : PEnv) (zbl : Option ZBLModel.ZBL) (P : Params ℝ) (rc : ℝ) (mt : List ℕ)
    (fl : Flags) (a : AtomsK) (L : NList) (w : Mem) (st : State ℝ) (t : Tally) : Option ((Mem × State ℝ × Tally) × AtomsK) :=
  let a := a.sync s ⟨true, true, true, true⟩
  let a := { a with mapArray := a.mapArray.sync s }
  if reach shared s then do
    let r ← computeSingle V zbl P rc mt fl (a.view s) L w st { t with f := a.f.arr s }
    some (r, a.finish shared s ev r.2.2.f)
  else none

/-- `compute` with ghost nodes, pair_symmetrix_mace_kokkos.cpp:82-83, 85-86, 871-874. -/
noncomputable def noMpiDual (shared : Bool) (s : Side) (ev : Bool) (V : PEnv) (zbl : Option ZBLModel.ZBL) (P : Params ℝ) (rc : ℝ) (mt : List ℕ)
    (fl : Flags) (a : AtomsK) (L : NList) (w : Mem) (nii : List ℕ) (st : State ℝ) (t : Tally) :
    Option ((Mem × List ℕ × State ℝ × Tally) × AtomsK) :=
  let a := a.sync s ⟨true, true, true, false⟩
  if reach shared s then do
    let r ← computeNoMpiK V zbl P rc mt fl (a.view s) L w nii st { t with f := a.f.arr s }
    some (r, a.finish shared s ev r.2.2.2.f)
  else none

/-- `compute` with message passing on all processes, pair_symmetrix_mace_kokkos.cpp:80-81, 85-86, 604-607. -/
noncomputable def mpiDual (shared : Bool) (s : Side) (ev : Bool) (V : ℕ → PEnv) (zbl : Option ZBLModel.ZBL) (P : Params ℝ) (rc : ℝ) (mt : List ℕ)
    (fl : Flags) (np : ℕ) (a : ℕ → AtomsK) (L : ℕ → NList) (ms : List Msg) (st : ℕ → ProcK) : Option ((ℕ → ProcK) × (ℕ → AtomsK)) :=
  let a := fun p => (a p).sync s ⟨true, true, true, false⟩
  if reach shared s then do
    let r ← computeMpiK V zbl P rc mt fl np (fun p => (a p).view s) L ms (fun p => { st p with t := { (st p).t with f := (a p).f.arr s } })
    some (r, fun p => (a p).finish shared s ev (r p).t.f)
  else none

end Verif.Kokkos.Pair
