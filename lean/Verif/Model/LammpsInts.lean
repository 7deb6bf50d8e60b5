import Verif.Model.IntIndex

/-!
# `int` arithmetic for sizes and offsets in `PairSymmetrixMACE`

The expressions of type `int` of pair_symmetrix_mace.cpp:194-744 in the order in which the functions evaluate them, together with those
of the functions of the evaluator they call (`Verif.IntIndex`).  A graph `T : Sys` stands for the vectors the pair style fills: only
pairs inside the cutoff count.  Loops over the neighbours that skip pairs outside the cutoff have no `int` expression for those.
`atom->nlocal`, `atom->nghost`, `list->inum`, the lists and `first` are `int` values provided by LAMMPS.
-/

namespace Verif.LammpsInts
open Verif.MACE Verif.Spec Verif.IntIndex

/-- `num_edges += 1` for every pair, pair_symmetrix_mace.cpp:249-265 (383-399). -/
def countEdges (T : Sys) : Option Unit := edges T (fun _ => some ()) (fun _ _ => some ()) (fun _ => some ())

/-- `num_neigh[ii] += 1` for every neighbour of node `i`, pair_symmetrix_mace.cpp:303 (430, 616). -/
def countNeigh (T : Sys) (i : ℕ) : Option Unit := each (nthN T.nn i) (fun k => ev ((k : Ex) + 1))

/-- `3*ij`, `3*ij+1`, `3*ij+2`. -/
def triple (ij : ℕ) : Option Unit := do
  ev (3 * (ij : Ex))
  ev (3 * (ij : Ex) + 1)
  ev (3 * (ij : Ex) + 2)

/-- Populating the vectors, pair_symmetrix_mace.cpp:286-315 (413-440). -/
def fill (T : Sys) : Option Unit := edges T (countNeigh T) (fun _ ij => triple ij) (fun _ => some ())

/-- Populating the vectors in `compute_no_mpi_message_passing`, pair_symmetrix_mace.cpp:634-658, and the loops for forces and virial,
pair_symmetrix_mace.cpp:334-347, 349-368 (509-522, 524-543; 710-723, 725-744). -/
def visit (T : Sys) : Option Unit := edges T (fun _ => some ()) (fun _ ij => triple ij) (fun _ => some ())

/-- The loops for forces and, with `vflag_global`, for the virial. -/
def scatter (T : Sys) (vflag : Bool) : Option Unit := do
  visit T
  (if vflag then visit T else some ())

/-- Lengths `num_edges` and `3*num_edges`, then the vectors, pair_symmetrix_mace.cpp:249-315 (383-440). -/
def build (T : Sys) : Option Unit := do
  countEdges T
  ev (3 * (T.E : Ex))
  fill T

section
variable (f : File)

/-- `compute_no_domain_decomposition`, pair_symmetrix_mace.cpp:242-372. -/
def single (T : Sys) (cell : ℕ → ℕ) (vflag : Bool) : Option Unit := do
  build T
  computeInts f T cell
  scatter T vflag

/-- One element of `H1[i*num_LM*num_channels+k]`. -/
def feat (i k : ℕ) : Option Unit := ev ((i : Ex) * (LM f : Ex) * (C f : Ex) + (k : Ex))

/-- `H1[(first+i)*num_LM*num_channels+k]`. -/
def featFrom (first i k : ℕ) : Option Unit := ev (((first : Ex) + (i : Ex)) * (LM f : Ex) * (C f : Ex) + (k : Ex))

/-- The condition `k<num_LM*num_channels` and the body for every `k`. -/
def feats (g : ℕ → Option Unit) : Option Unit := do
  ev ((LM f : Ex) * (C f : Ex))
  each (LM f * C f) g

/-- `pack_forward_comm`, pair_symmetrix_mace.cpp:194-203; `unpack_reverse_comm`, 230-238, without the value returned. -/
def listed (list : List ℕ) : Option Unit :=
  each list.length (fun ii => feats f (fun k => do
    feat f ii k
    feat f (nthN list ii) k))

/-- `unpack_forward_comm`, pair_symmetrix_mace.cpp:207-214; `pack_reverse_comm`, 218-226, without the value returned. -/
def consecutive (n first : ℕ) : Option Unit :=
  each n (fun i => feats f (fun k => do
    featFrom f first i k
    feat f i k))

/-- `n*num_LM*num_channels`, the value returned by the two functions that pack. -/
def returned (n : ℕ) : Option Unit := ev ((n : Ex) * (LM f : Ex) * (C f : Ex))

/-- What one process does in `comm->forward_comm(this)`: it packs the lists `sent` and unpacks the messages `got`
(length, first atom). -/
def forward (sent : List (List ℕ)) (got : List (ℕ × ℕ)) : Option Unit := do
  each sent.length (fun s => do
    listed f (sent.getD s [])
    returned f (sent.getD s []).length)
  each got.length (fun s => consecutive f (got.getD s (0, 0)).1 (got.getD s (0, 0)).2)

/-- What one process does in `comm->reverse_comm(this)`: the messages go the other way. -/
def reverse (sent : List (List ℕ)) (got : List (ℕ × ℕ)) : Option Unit := do
  each got.length (fun s => do
    consecutive f (got.getD s (0, 0)).1 (got.getD s (0, 0)).2
    returned f (got.getD s (0, 0)).1)
  each sent.length (fun s => listed f (sent.getD s []))

/-- Size of `H1` and sorting by `i`, pair_symmetrix_mace.cpp:463-469. -/
def sortH1 (nlocal nghost : ℕ) (ilist : List ℕ) (n : ℕ) : Option Unit := do
  ev (((nlocal : Ex) + (nghost : Ex)) * (LM f : Ex) * (C f : Ex))
  each n (fun ii => feats f (fun k => do
    feat f (nthN ilist ii) k
    feat f ii k))

/-- First layer and features, pair_symmetrix_mace.cpp:454-460 (672-678). -/
def layer0 (T : Sys) (cell : ℕ → ℕ) : Option Unit := do
  computeY f T
  computeR (spl0 f) cell T
  computeA0 f T
  computeScaled f f.A0scaled T
  computeM0 f T
  H1ints f T

/-- Second layer forward and backward, pair_symmetrix_mace.cpp:473-486 (680-693). -/
def layer1 (T : Sys) (cell : ℕ → ℕ) : Option Unit := do
  computeR (spl1 f) cell T
  computePhi1 f T
  computeA1 f T
  computeScaled f f.A1scaled T
  computeM1 f T
  computeH2 f T
  computeReadouts f T
  reverseH2 f T
  reverseM1 f T
  reverseScaled f f.A1scaled T
  A1ints f T
  reversePhi1 f T

/-- First layer backward, pair_symmetrix_mace.cpp:492-495 (695-698). -/
def back0 (T : Sys) : Option Unit := do
  H1ints f T
  reverseM0 f T
  reverseScaled f f.A0scaled T
  reverseA0 f T

/-- `compute_mpi_message_passing` of one process, pair_symmetrix_mace.cpp:376-547.  `T.idx` is `neigh_j`. -/
def mpi (T : Sys) (cell : ℕ → ℕ) (nlocal nghost : ℕ) (ilist : List ℕ) (sent : List (List ℕ)) (got : List (ℕ × ℕ)) (vflag : Bool) :
    Option Unit := do
  build T
  (if f.zbl.isSome then zbl T else some ())
  layer0 f T cell
  sortH1 f nlocal nghost ilist T.N
  forward f sent got
  layer1 f T cell
  reverse f sent got
  back0 f T
  scatter T vflag

/-- Sum of `num_neigh` over the `n` nodes from `a`, pair_symmetrix_mace.cpp:621-626. -/
def sumNeigh (T : Sys) (a n : ℕ) : Option Unit :=
  (loop n (fun i (s : ℕ) => do
    ev ((s : Ex) + (nthN T.nn (a + i) : Ex))
    pure (s + nthN T.nn (a + i))) 0).map (fun _ => ())

/-- The graph of the local nodes. -/
def loc (T : Sys) (n : ℕ) : Sys := { T with N := n }

/-- `compute_no_mpi_message_passing`, pair_symmetrix_mace.cpp:551-748.  `T` has the local and the ghost nodes, the first `n` are local.
`ghost_indices[i++]` and `std::reduce` count to the number of ghost nodes. -/
def noMpi (T : Sys) (n : ℕ) (cell : ℕ → ℕ) (nlocal nghost : ℕ) (vflag : Bool) : Option Unit := do
  ev ((nlocal : Ex) + (nghost : Ex))
  each (T.N - n) (fun i => ev ((i : Ex) + 1))
  ev ((n : Ex) + ((T.N - n : ℕ) : Ex))
  each T.N (countNeigh T)
  sumNeigh T 0 n
  sumNeigh T n (T.N - n)
  ev (3 * (((loc T n).E : Ex) + ((T.E - (loc T n).E : ℕ) : Ex)))
  visit T
  (if f.zbl.isSome then zbl (loc T n) else some ())
  layer0 f T cell
  layer1 f (loc T n) cell
  back0 f T
  scatter T vflag

end

end Verif.LammpsInts
