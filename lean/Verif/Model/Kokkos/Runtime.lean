import Verif.Base.Kernel

/-!
# Model of `libsymmetrix/source/tools_kokkos.cpp` and of the life of the Kokkos runtime in Python

Contract of Kokkos: `initialize` once, never after `finalize`; views are allocated and released while Kokkos runs; otherwise the program is
aborted (`none`).  Views that hold no memory and the output to `std::cerr` are left out.
-/

namespace Verif.Kokkos.Runtime

inductive Phase where
  | before
  | running
  | ended
  deriving DecidableEq

/-- `live`: the objects that hold views (numbered in order of creation, `made` so far); `inits`: calls of `Kokkos::initialize`. -/
structure St where
  phase : Phase
  made : ℕ
  live : List ℕ
  inits : ℕ
  deriving DecidableEq

def start : St := ⟨.before, 0, [], 0⟩

/-- `_init_kokkos`, tools_kokkos.cpp:10-17. -/
def init (s : St) : Option St := if s.phase = .before then some { s with phase := .running, inits := s.inits + 1 } else none

/-- `_finalize_kokkos`, tools_kokkos.cpp:19-22. -/
def finalize (s : St) : Option St := if s.phase = .running then some { s with phase := .ended } else none

/-- `_kokkos_is_initialized`, tools_kokkos.cpp:24-27: false also after `finalize`. -/
def isInit (s : St) : Bool := s.phase = .running

/-- An object with views. -/
def new (s : St) : Option St :=
  if s.phase = .running then some { s with made := s.made + 1, live := s.made :: s.live } else none

/-- The object is released. -/
def drop (s : St) (i : ℕ) : Option St :=
  if i ∈ s.live then if s.phase = .running then some { s with live := s.live.erase i } else none else some s

inductive Op where
  /-- `Symmetrix(file, use_kokkos)`; `ok`: the file could be loaded or converted -/
  | calculator (kokkos ok : Bool)
  /-- `generate_view` -/
  | generate
  /-- `if not symmetrix._kokkos_is_initialized(): symmetrix._init_kokkos()`, e.g. symmetrix/test/test_mace.py:32-33 -/
  | guarded
  /-- Python releases object `i` -/
  | release (i : ℕ)
  /-- `symmetrix._init_kokkos()` by the user -/
  | init
  /-- `symmetrix._finalize_kokkos()` by the user -/
  | finalize

/-- "if not initialised, initialise": symmetrix_calc.py:47-48, tools_kokkos.cpp:58-61. -/
def ensure (s : St) : Option St := if isInit s then some s else init s

/-- One operation.  `calculator`: symmetrix_calc.py:45-70 (a constructor that throws releases what it allocated); `generate`:
tools_kokkos.cpp:56-68. -/
def step (s : St) : Op → Option St
  | .calculator kokkos ok => if kokkos then do
      let s ← ensure s
      let t ← new s
      if ok then some t else drop t s.made
    else some s
  | .generate => do
      let s ← ensure s
      new s
  | .guarded => ensure s
  | .release i => drop s i
  | .init => init s
  | .finalize => finalize s

def run : List Op → St → Option St
  | [], s => some s
  | o :: os, s => (step s o).bind (run os)

section
open Verif.Par Verif.Par.Prog
variable {K : Type} [Ring K]

/-- `generate_view`, tools_kokkos.cpp:29-40, 56-68: the kernel on the new view; `-(i+1)` is an `int` (`n` is one). -/
def generateView (L : Launcher K) (n : ℕ) : Option (View K) :=
  L.launch1 (parFor n (fun i => put (fun _ => [n]) () [i] (((-((i : ℤ) + 1) : ℤ) : K)))) (View.new [n] 0)

/-- `modify_view`, tools_kokkos.cpp:42-52, 70-75. -/
def modifyView (L : Launcher K) (v : View K) : Option (View K) :=
  L.launch1 (parFor (v.extent 0) (fun i => upd (fun _ => v.ext) () [i] (fun x => x * 2))) v

end

end Verif.Kokkos.Runtime
