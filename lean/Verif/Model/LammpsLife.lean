import Verif.Model.Lammps

/-!
# LAMMPS pair styles: construction, commands, memory

Constructors, destructors, and the attributes that `settings` and `coeff` change, also when they end with `error->all` (an exception when
LAMMPS is used as a library, which leaves the object as it is then): pair_symmetrix_mace.cpp:34-60, 64-73, 79-153 and
pair_symmetrix_mace_kokkos.cpp:40-71, 76-87, 94-173.  `kk`: the Kokkos pair style.  LAMMPS itself is not in the repository; what is assumed of
it is marked as such.
-/

namespace Verif.Lammps.Life

/-! ## Mode and message size -/

/-- `mode`; `comm_forward` and `comm_reverse` (always set to the same value); `num_LM*num_channels` of `*mace` (`none`: no model). -/
structure Obj where
  mode : String
  comm : ℕ
  model : Option ℕ
deriving DecidableEq

/-- The constructors, pair_symmetrix_mace.cpp:34-50, pair_symmetrix_mace_kokkos.cpp:40-58. -/
def construct (kk : Bool) : Obj := ⟨"", if kk then 0 else 1024, none⟩

/-- Last check of `settings`, pair_symmetrix_mace.cpp:107-108. -/
def checkMode (nprocs : ℕ) (p : Obj) : Obj × Bool :=
  if p.mode = "no_domain_decomposition" ∧ nprocs ≠ 1 then (p, false) else (p, true)

/-- `settings`, pair_symmetrix_mace.cpp:95-109 (kokkos 111-125): the object afterwards, and whether there was no error. -/
def settingsCmd (nprocs : ℕ) : List String → Obj → Obj × Bool
  | [], p => checkMode nprocs { p with mode := if nprocs = 1 then "no_domain_decomposition" else "mpi_message_passing" }
  | [m], p =>
    if m ≠ "no_domain_decomposition" ∧ m ≠ "mpi_message_passing" ∧ m ≠ "no_mpi_message_passing" then ({ p with mode := m }, false)
    else checkMode nprocs { p with mode := m }
  | _ :: _ :: _, p => (p, false)

/-- `coeff`, pair_symmetrix_mace.cpp:115-153 (kokkos 132-173).  `file`: the product `num_LM*num_channels` and the atomic numbers of the model,
`none` if it cannot be loaded (`mace` then keeps the old model); `syms`: the elements. -/
def coeffCmd (kk : Bool) (file : Option (ℕ × List ℕ)) (syms : List String) (p : Obj) : Obj × Bool :=
  match file with
  | none => (p, false)
  | some (n, an) =>
    let p := { p with model := some n }
    if (if kk then (coeffKokkos an syms).isSome else (coeff an syms).isSome) then ({ p with comm := commSize p.mode n }, true) else (p, false)

/-- Commands. Assumed of LAMMPS: `pair_style` with the style already in use calls `settings` of the same object. -/
inductive Cmd where
  | style (args : List String)
  | coeff (file : Option (ℕ × List ℕ)) (syms : List String)

/-- One command. -/
def exec (kk : Bool) (nprocs : ℕ) : Cmd → Obj → Obj × Bool
  | .style args => settingsCmd nprocs args
  | .coeff file syms => coeffCmd kk file syms

/-- Several commands; `none` as soon as there is an error. -/
def script (kk : Bool) (nprocs : ℕ) : List Cmd → Obj → Option Obj
  | [], p => some p
  | c :: cs, p => if (exec kk nprocs c p).2 then script kk nprocs cs (exec kk nprocs c p).1 else none

/-- Several commands of a program that catches the errors. -/
def session (kk : Bool) (nprocs : ℕ) (cs : List Cmd) (p : Obj) : Obj := cs.foldl (fun p c => (exec kk nprocs c p).1) p

/-- The three functions of `compute`, pair_symmetrix_mace.cpp:64-73 (kokkos 76-87); `none`: nothing is called. -/
inductive Mode where
  | single
  | mpi
  | noMpi
deriving DecidableEq

def dispatch (mode : String) : Option Mode :=
  if mode = "no_domain_decomposition" then some .single
  else if mode = "mpi_message_passing" then some .mpi
  else if mode = "no_mpi_message_passing" then some .noMpi
  else none

/-- Assumed of LAMMPS: `pair_style hybrid` and `hybrid/overlay` construct the styles, call their `settings`, and then set their own
`comm_forward` to the largest of those of the styles; `pair_coeff` for a style does not change it any more, and the buffers are
dimensioned by it.  `others`: the largest of the other styles. -/
def hybrid (kk : Bool) (nprocs : ℕ) (args : List String) (others : ℕ) (file : Option (ℕ × List ℕ)) (syms : List String) : Option (Obj × ℕ) :=
  let s := settingsCmd nprocs args (construct kk)
  if s.2 then
    let c := coeffCmd kk file syms s.1
    if c.2 then some (c.1, max s.1.comm others) else none
  else none

/-! ## Memory -/

/-- Blocks in use: of LAMMPS' `memory->create`, of Kokkos; `next` is the next address. -/
structure Heap where
  mal : Multiset ℕ
  kok : Multiset ℕ
  next : ℕ

/-- `memory->create`. -/
def create (h : Heap) : ℕ × Heap := (h.next, { h with mal := h.next ::ₘ h.mal, next := h.next + 1 })

/-- Allocation of a view. -/
def createK (h : Heap) : ℕ × Heap := (h.next, { h with kok := h.next ::ₘ h.kok, next := h.next + 1 })

/-- `memory->destroy`: nothing for a null pointer; `none` (undefined behaviour) for what is no block of `memory->create` in use. -/
def destroy : Option ℕ → Heap → Option Heap
  | none, h => some h
  | some a, h => if a ∈ h.mal then some { h with mal := h.mal.erase a } else none

/-- The last reference to a view disappears. -/
def dropK : Option ℕ → Heap → Option Heap
  | none, h => some h
  | some a, h => if a ∈ h.kok then some { h with kok := h.kok.erase a } else none

/-- `allocated`, the pointers `setflag`, `cutsq`, `eatom`, the view `k_eatom` and its extent, `maxeatom`, and whether `mace` is set. -/
structure Ptrs where
  allocated : Bool
  setflag : Option ℕ
  cutsq : Option ℕ
  eatom : Option ℕ
  kEatom : Option ℕ
  extent : ℕ
  maxEatom : ℕ
  model : Bool

/-- Assumed of LAMMPS: the constructor of `Pair` sets these members to zero. -/
def noPtrs : Ptrs := ⟨false, none, none, none, none, 0, 0, false⟩

/-- `coeff`, as far as memory is concerned (`allocate`: pair_symmetrix_mace.cpp:79-89, 117); `ok`: the model was loaded. -/
def coeffMem (ok : Bool) (p : Ptrs) (h : Heap) : Ptrs × Heap :=
  let (p, h) :=
    if p.allocated then (p, h)
    else
      let (a, h) := create h
      let (b, h) := create h
      ({ p with allocated := true, setflag := some a, cutsq := some b }, h)
  ({ p with model := p.model || ok }, h)

/-- `memoryKK->destroy_kokkos(k_eatom,eatom)`. Assumed of LAMMPS: nothing if `eatom` is null; otherwise both are reset. -/
def destroyKokkos (p : Ptrs) (h : Heap) : Option (Ptrs × Heap) :=
  match p.eatom with
  | none => some (p, h)
  | some _ => (dropK p.kEatom h).map (fun h => ({ p with eatom := none, kEatom := none, extent := 0 }, h))

/-- Memory in `compute` with per-atom energies.  Assumed of LAMMPS: `ev_init` raises `maxeatom` to `atom->nmax` and, unless its third
argument is 0, then replaces `eatom`.  Kokkos: pair_symmetrix_mace_kokkos.cpp:376-381 (592-597, 859-864).  Without a model: a null pointer
is dereferenced. -/
def computeMem (kk : Bool) (nmax : ℕ) (p : Ptrs) (h : Heap) : Option (Ptrs × Heap) :=
  if !p.model then none
  else if kk then do
    let p := { p with maxEatom := max p.maxEatom nmax }
    if p.extent < p.maxEatom then do
      let (p, h) ← destroyKokkos p h
      let (a, h) := createK h
      -- the assignment to `k_eatom` releases the view it was
      let h ← dropK p.kEatom h
      some ({ p with eatom := some a, kEatom := some a, extent := p.maxEatom }, h)
    else some (p, h)
  else if p.maxEatom < nmax then do
    let h ← destroy p.eatom h
    let (a, h) := create h
    some ({ p with eatom := some a, maxEatom := nmax }, h)
  else some (p, h)

/-- The destructors, pair_symmetrix_mace.cpp:54-60, pair_symmetrix_mace_kokkos.cpp:63-71; then the members, then (assumed of LAMMPS) `Pair`
releases `eatom`. -/
def destruct (kk : Bool) (p : Ptrs) (h : Heap) : Option Heap := do
  let (p, h) ←
    if p.allocated then do
      let h ← destroy p.setflag h
      let h ← destroy p.cutsq h
      if kk then destroyKokkos p h else some (p, h)
    else some (p, h)
  let h ← dropK p.kEatom h
  destroy p.eatom h

/-- What happens to an object: `pair_coeff` (`ok`: the model could be loaded), a step with per-atom energies for `nmax` atoms, a step
without. -/
inductive Use where
  | coeff (ok : Bool)
  | step (nmax : ℕ)
  | stepNoAtom

def use (kk : Bool) (u : Use) (p : Ptrs) (h : Heap) : Option (Ptrs × Heap) :=
  match u with
  | .coeff ok => some (coeffMem ok p h)
  | .step nmax => computeMem kk nmax p h
  | .stepNoAtom => if p.model then some (p, h) else none

def uses (kk : Bool) : List Use → Ptrs → Heap → Option (Ptrs × Heap)
  | [], p, h => some (p, h)
  | u :: us, p, h => (use kk u p h).bind (fun q => uses kk us q.1 q.2)

end Verif.Lammps.Life
