import Verif.Model.Kokkos.IntIndex
import Verif.Model.LammpsInts

/-!
# `int` arithmetic for sizes and offsets in `PairSymmetrixMACEKokkos`

The expressions of type `int` of pair_symmetrix_mace_kokkos.cpp:221-1175 together with those of the functions of the evaluator they call
(`Verif.IntIndex.Kok`).  A graph `T : Sys` stands for the views the pair style fills (only pairs inside the cutoff).  The features are a
view with three indices, addressed by Kokkos with `size_t`.  Reductions and scans are loops: each partial sum of counts is at most the
sum of all.  Left out: the insides of Kokkos (`MDRangePolicy`, `Bitset`) and LAMMPS.
-/

namespace Verif.LammpsInts.Kok
open Verif.MACE Verif.Spec Verif.IntIndex Verif.IntIndex.Kok

/-- Populating the views, e.g. pair_symmetrix_mace_kokkos.cpp:463-488: `3*ij`, `3*ij+1`, `3*ij+2`, then `ij += 1`. -/
def fill (T : Sys) : Option Unit :=
  each T.N (fun i => each (nthN T.nn i) (fun j => do
    xyz (first T i + j)
    ev (((first T i + j : ℕ) : Ex) + 1)))

/-- Number of neighbours, number of pairs, first pairs, sizes, then the views, pair_symmetrix_mace_kokkos.cpp:411-488 (620-695). -/
def build (T : Sys) : Option Unit := do
  each T.N (countNeigh T)
  sumNeigh T 0 T.N
  scan T
  ev (3 * (T.E : Ex))
  fill T

/-- The kernels for the forces and, with `vflag_global`, for the virial, pair_symmetrix_mace_kokkos.cpp:513-536, 541-573
(779-802, 807-839; 1107-1130, 1135-1167). -/
def scatter (T : Sys) (vflag : Bool) : Option Unit := do
  edges T (fun _ ij => xyz ij)
  (if vflag then edges T (fun _ ij => xyz ij) else some ())

section
variable (f : File)

/-- `compute_no_domain_decomposition`, pair_symmetrix_mace_kokkos.cpp:374-585. -/
def single (P0 : ℕ → ℕ) (P1 : ℕ) (T : Sys) (cell : Cells) (vflag : Bool) : Option Unit := do
  build T
  computeInts f P0 P1 T cell
  scatter T vflag

/-- Offsets `i*num_LM*num_channels+LM*num_channels+k` into the buffer for the atoms `i < n`. -/
def buffer (n : ℕ) (g : ℕ → Option Unit) : Option Unit :=
  each n (fun i => each (LM f) (fun m => each (C f) (fun k => do
    ev ((i : Ex) * (LM f : Ex) * (C f : Ex) + (m : Ex) * (C f : Ex) + (k : Ex))
    g i)))

/-- `pack_forward_comm(_kokkos)`, pair_symmetrix_mace_kokkos.cpp:223-257; `unpack_reverse_comm(_kokkos)`, 334-369, without the value
returned. -/
def listed (n : ℕ) : Option Unit := buffer f n (fun _ => some ())

/-- `unpack_forward_comm(_kokkos)`, pair_symmetrix_mace_kokkos.cpp:262-292; `pack_reverse_comm(_kokkos)`, 297-329, without the value
returned: `first+i`. -/
def consecutive (n first : ℕ) : Option Unit := buffer f n (fun i => ev ((first : Ex) + (i : Ex)))

/-- What one process does in `comm->forward_comm(this)`: `sent` are the lists it packs, `got` the messages it unpacks (length, first
atom). -/
def forward (sent : List (List ℕ)) (got : List (ℕ × ℕ)) : Option Unit := do
  each sent.length (fun s => do
    listed f (sent.getD s []).length
    returned f (sent.getD s []).length)
  each got.length (fun s => consecutive f (got.getD s (0, 0)).1 (got.getD s (0, 0)).2)

/-- What one process does in `comm->reverse_comm(this)`. -/
def reverse (sent : List (List ℕ)) (got : List (ℕ × ℕ)) : Option Unit := do
  each got.length (fun s => do
    consecutive f (got.getD s (0, 0)).1 (got.getD s (0, 0)).2
    returned f (got.getD s (0, 0)).1)
  each sent.length (fun s => listed f (sent.getD s []).length)

/-- Number of types from the number of tables (`RadialFunctionSetKokkos::evaluate`). -/
def unique (n : ℕ) : ℕ := (Nat.sqrt (8 * n + 1) - 1) / 2

/-- First layer and features, pair_symmetrix_mace_kokkos.cpp:707-713 (1058-1064). -/
def layer0 (P0 : ℕ → ℕ) (T : Sys) (cell : Cells) : Option Unit := do
  Kok.computeY f T
  Kok.computeR0 f cell.r0 T
  Kok.computeA0 f T
  Kok.computeScaled f f.A0scaled f.A0vals.length (unique f.A0vals.length) cell.a0 T
  M0ints f P0 T
  Kok.H1ints f T

/-- Second layer forward and backward, pair_symmetrix_mace_kokkos.cpp:733-746 (1066-1079); `more tables cell`: what `evaluate` does for
lengths beyond the pairs of the graph. -/
def layer1 (P1 : ℕ) (T : Sys) (cell : Cells) (more : ℕ → (ℕ → ℕ) → Option Unit) : Option Unit := do
  evaluate f.vals1.length (unique f.vals1.length) cell.r1 T
  more f.vals1.length cell.r1
  Kok.computePhi1 f T
  Kok.A1ints f T
  Kok.computeScaled f f.A1scaled f.A1vals.length (unique f.A1vals.length) cell.a1 T
  (if f.A1scaled then more f.A1vals.length cell.a1 else some ())
  M1ints f P1 T
  H2ints f T
  H2ints f T
  M1ints f P1 T
  Kok.reverseScaled f f.A1scaled T
  Kok.A1ints f T
  Kok.reversePhi1 f T

/-- First layer backward, pair_symmetrix_mace_kokkos.cpp:753-756 (1081-1084). -/
def back0 (P0 : ℕ → ℕ) (T : Sys) : Option Unit := do
  Kok.H1ints f T
  M0ints f P0 T
  Kok.reverseScaled f f.A0scaled T
  Kok.reverseA0 f T

/-- `compute_mpi_message_passing` of one process, pair_symmetrix_mace_kokkos.cpp:590-851; `T.N` is `inum`. -/
def mpi (P0 : ℕ → ℕ) (P1 : ℕ) (T : Sys) (cell : Cells) (nghost : ℕ) (sent : List (List ℕ)) (got : List (ℕ × ℕ)) (vflag : Bool) :
    Option Unit := do
  build T
  (if f.zbl.isSome then Kok.zbl T else some ())
  layer0 f P0 T cell
  ev ((T.N : Ex) + (nghost : Ex))
  forward f sent got
  layer1 f P1 T cell (fun _ _ => some ())
  reverse f sent got
  back0 f P0 T
  scatter T vflag

/-- `RadialFunctionSetKokkos::evaluate` for local nodes but with the lengths of all pairs, radial_function_set_kokkos.cpp:164-180: for
the pairs of ghost nodes `i_list` still holds 0. -/
def evalGhost (T : Sys) (n tables : ℕ) (cell : ℕ → ℕ) : Option Unit := do
  narrow T.E
  each (T.E - (loc T n).E) (fun e => do
    (if nthN T.types 0 ≤ nthN T.ntypes ((loc T n).E + e) then pairType (unique tables) (nthN T.types 0) (nthN T.ntypes ((loc T n).E + e))
      else pairType (unique tables) (nthN T.ntypes ((loc T n).E + e)) (nthN T.types 0))
    narrow (cell ((loc T n).E + e)))

/-- `compute_no_mpi_message_passing`, pair_symmetrix_mace_kokkos.cpp:857-1179.  `T` has the local and the ghost nodes, the first `n` are
local.  `update += is_ghost.test(i)` counts to the number of ghost nodes. -/
def noMpi (P0 : ℕ → ℕ) (P1 : ℕ) (T : Sys) (n : ℕ) (cell : Cells) (nlocal nghost : ℕ) (vflag : Bool) : Option Unit := do
  ev ((nlocal : Ex) + (nghost : Ex))
  narrow (T.N - n)
  each (T.N - n) (fun i => ev ((i : Ex) + 1))
  ev ((n : Ex) + ((T.N - n : ℕ) : Ex))
  each T.N (countNeigh T)
  sumNeigh T 0 n
  sumNeigh T n (T.N - n)
  scan T
  ev (3 * (((loc T n).E : Ex) + ((T.E - (loc T n).E : ℕ) : Ex)))
  fill T
  (if f.zbl.isSome then Kok.zbl (loc T n) else some ())
  layer0 f P0 T cell
  layer1 f P1 (loc T n) cell (evalGhost T n)
  back0 f P0 T
  scatter T vflag

end

end Verif.LammpsInts.Kok
