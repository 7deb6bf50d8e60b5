import Verif.Model.IntIndex

/-!
# `int` arithmetic for sizes and offsets in `MACEKokkos::compute_node_energies_forces`

As `Model/IntIndex.lean`, for mace_kokkos.cpp:48-1542, `RadialFunctionSetKokkos::evaluate` (radial_function_set_kokkos.cpp:124-203) and
`ZBLKokkos::compute_ZBL` (zbl_kokkos.cpp:106-153).  Elements of views with several indices are addressed by Kokkos with `size_t`
(not an `int` expression of this code); league sizes of `TeamPolicy` and iteration counts are `int`.  Left out: the insides of
KokkosBatched, sphericart and the perceptron, expressions with a `size_t` operand, and the copy of `compute_Y` for CUDA (same expressions).
The kernels are loops here: whether some expression overflows does not depend on the order of the threads.
-/

namespace Verif.IntIndex.Kok
open Verif.MACE Verif.Spec

section
variable (f : File)

/-- `first_neigh(i)` -/
def first (T : Sys) (i : ℕ) : ℕ := (T.nn.take i).sum

/-- `parallel_scan`: `update += num_neigh(i)` (e.g. mace_kokkos.cpp:115-123). -/
def scan (T : Sys) : Option Unit := each T.N (fun i => ev ((first T i : Ex) + (nthN T.nn i : Ex)))

/-- `for (int j=0; j<num_neigh(i); ++j) { const int ij = first_neigh(i) + j; … }` for all `i`. -/
def edges (T : Sys) (g : ℕ → ℕ → Option Unit) : Option Unit :=
  each T.N (fun i => each (nthN T.nn i) (fun j => do
    ev ((first T i : Ex) + (j : Ex))
    g i (first T i + j)))

/-- `i_list`: `ij += 1` (mace_kokkos.cpp:126-134). -/
def ijLists (T : Sys) : Option Unit := each T.N (fun i => each (nthN T.nn i) (fun j => ev (((first T i + j : ℕ) : Ex) + 1)))

/-- The three components `3*ij`, `3*ij+1`, `3*ij+2`. -/
def xyz (ij : ℕ) : Option Unit := do
  ev (3 * (ij : Ex))
  ev (3 * (ij : Ex) + 1)
  ev (3 * (ij : Ex) + 2)

/-- `ZBLKokkos::compute_ZBL`, zbl_kokkos.cpp:117-151. -/
def zbl (T : Sys) : Option Unit := do
  scan T
  edges T (fun _ ij => xyz ij)

/-- `compute_R0`, mace_kokkos.cpp:100-173; `cell ij = static_cast<int>(r(ij)/h)`. -/
def computeR0 (cell : ℕ → ℕ) (T : Sys) : Option Unit := do
  scan T
  ijLists T
  narrow T.E
  edges T (fun i ij => do
    narrow (nthN T.types i * f.nT + nthN T.ntypes ij)
    narrow (cell ij)
    ev (((f.lmax : Ex) + 1) * (C f : Ex)))

/-- `type_i*(2*num_unique_types-type_i-1)/2 + type_j` for `type_i <= type_j`, radial_function_set_kokkos.cpp:176-178. -/
def pairType (n a b : ℕ) : Option Unit := do
  ev (2 * (n : Ex))
  ev ((a : Ex) * ((2 * n - a - 1 : ℕ) : Ex))
  ev (((a * (2 * n - a - 1) / 2 : ℕ) : Ex) + (b : Ex))

/-- `RadialFunctionSetKokkos::evaluate`, radial_function_set_kokkos.cpp:138-180; `tables` is `num_edge_types`, `n` is `num_unique_types`. -/
def evaluate (tables n : ℕ) (cell : ℕ → ℕ) (T : Sys) : Option Unit := do
  scan T
  ijLists T
  ev (8 * (tables : Ex) + 1)
  narrow T.E
  edges T (fun i ij => do
    (if nthN T.types i ≤ nthN T.ntypes ij then pairType n (nthN T.types i) (nthN T.ntypes ij)
      else pairType n (nthN T.ntypes ij) (nthN T.types i))
    narrow (cell ij))

/-- `compute_Y`, mace_kokkos.cpp:191-251; `xyz.extent(0)/3 = E`. -/
def computeY (T : Sys) : Option Unit := do
  narrow T.E
  ev ((T.E : Ex) * (M f : Ex))
  ev (3 * (T.E : Ex) * (M f : Ex))
  ev (3 * (T.E : Ex))
  each T.E xyz
  each T.E (fun i => each (M f) (fun lm => do
    ev (3 * (i : Ex) * (M f : Ex) + 0 * (M f : Ex) + (lm : Ex))
    ev (3 * (i : Ex) * (M f : Ex) + 1 * (M f : Ex) + (lm : Ex))
    ev (3 * (i : Ex) * (M f : Ex) + 2 * (M f : Ex) + (lm : Ex))))

/-- `compute_A0`, mace_kokkos.cpp:305-351. -/
def computeA0 (T : Sys) : Option Unit := do
  scan T
  ev ((T.N : Ex) * (M f : Ex))
  each (M f) (fun lm => edges T (fun _ ij => do
    ev ((ij : Ex) * (M f : Ex) + (lm : Ex))
    each (C f) (fun k => ev ((Nat.sqrt lm : Ex) * (C f : Ex) + (k : Ex)))))

/-- `reverse_A0`, mace_kokkos.cpp:353-419. -/
def reverseA0 (T : Sys) : Option Unit := do
  scan T
  edges T (fun _ ij => do
    xyz ij
    ev ((ij : Ex) * (M f : Ex))
    ev (3 * (ij : Ex) * (M f : Ex))
    each (M f) (fun lm => do
      each (C f) (fun k => ev ((Nat.sqrt lm : Ex) * (C f : Ex) + (k : Ex)))
      ev ((M f : Ex) + (lm : Ex))
      ev (2 * (M f : Ex) + (lm : Ex))))

/-- `compute_A0_scaled`, mace_kokkos.cpp:421-475, and `compute_A1_scaled`, 1109-1165. -/
def computeScaled (scaled : Bool) (tables n : ℕ) (cell : ℕ → ℕ) (T : Sys) : Option Unit :=
  if scaled then do
    evaluate tables n cell T
    scan T
    edges T (fun _ _ => some ())
    each T.N (fun _ => ev ((M f : Ex) * (C f : Ex)))
  else some ()

/-- `reverse_A0_scaled`, mace_kokkos.cpp:477-548, and `reverse_A1_scaled`, 1167-1239. -/
def reverseScaled (scaled : Bool) (T : Sys) : Option Unit :=
  if scaled then do
    scan T
    each T.N (fun _ => ev ((M f : Ex) * (C f : Ex)))
    edges T (fun _ ij => do
      ev (3 * (ij : Ex) + 0)
      xyz ij)
  else some ()

/-- `compute_M0` and `reverse_M0`, mace_kokkos.cpp:587-638, 684-744: the league and `num_lm+p`; `P0 LM` is `M0_poly_spec(LM).extent(0)`. -/
def M0ints (P0 : ℕ → ℕ) (T : Sys) : Option Unit := do
  ev ((T.N : Ex) * (LM f : Ex))
  each T.N (fun _ => each (LM f) (fun lm => do
    narrow (P0 lm)
    each (P0 lm) (fun p => ev ((M f : Ex) + (p : Ex)))))

/-- `compute_M1` and `reverse_M1`, mace_kokkos.cpp:1274-1320, 1361-1417; `P1` is `M1_poly_spec.extent(0)`. -/
def M1ints (P1 : ℕ) (T : Sys) : Option Unit :=
  each T.N (fun _ => do
    narrow P1
    each P1 (fun p => ev ((M f : Ex) + (p : Ex))))

/-- `make_pair(l*l, l*(l+2)+1)`. -/
def rows (l : ℕ) : Option Unit := do
  ev ((l : Ex) * (l : Ex))
  ev ((l : Ex) * ((l : Ex) + 2) + 1)

/-- `compute_H1` and `reverse_H1`, mace_kokkos.cpp:747-803. -/
def H1ints (T : Sys) : Option Unit := do
  ev ((f.Lmax : Ex) + 1)
  ev ((T.N : Ex) * ((f.Lmax : Ex) + 1))
  each T.N (fun _ => each (f.Lmax + 1) rows)

/-- Entries of `Phi1_lel1l2`, `Phi1_lm1`. -/
def path (q : ℕ) : ℕ := (f.couplings[q]?.getD (0, 0, 0)).1
def lm1 (q : ℕ) : ℕ := (f.couplings[q]?.getD (0, 0, 0)).2.1

/-- `compute_Phi1`, mace_kokkos.cpp:805-919. -/
def computePhi1 (T : Sys) : Option Unit := do
  scan T
  ev ((T.N : Ex) * (numLelm f : Ex))
  each (numLelm f) (fun q => edges T (fun _ ij => each (C f) (fun k => do
    ev ((path f q : Ex) * (C f : Ex) + (k : Ex))
    ev ((ij : Ex) * (M f : Ex) + (lm1 f q : Ex)))))
  each T.N (fun _ => narrow f.cg.length)

/-- `reverse_Phi1`, mace_kokkos.cpp:921-1025. -/
def reversePhi1 (T : Sys) : Option Unit := do
  each T.N (fun _ => narrow f.cg.length)
  scan T
  edges T (fun _ ij => do
    each (numLelm f) (fun q => do
      each (C f) (fun k => do
        ev ((path f q : Ex) * (C f : Ex) + (k : Ex))
        ev ((ij : Ex) * (M f : Ex) + (lm1 f q : Ex)))
      xyz ij
      ev ((ij : Ex) * (M f : Ex) + (lm1 f q : Ex))
      ev (3 * (ij : Ex) * (M f : Ex) + (lm1 f q : Ex))
      ev ((3 * (ij : Ex) + 1) * (M f : Ex) + (lm1 f q : Ex))
      ev ((3 * (ij : Ex) + 2) * (M f : Ex) + (lm1 f q : Ex)))
    xyz ij)

/-- `lme`, `num_eta`, mace_kokkos.cpp:1047-1055 and 1088-1096. -/
def countEta (l : ℕ) : Option Unit :=
  (loop f.phil.length (fun p (n : ℕ × ℕ) => do
    let ll : ℕ := nthN f.phil p
    let n ← (if ll < l then do
        ev ((n.1 : Ex) + (2 * (ll : Ex) + 1))
        pure (n.1 + (2 * ll + 1), n.2)
      else pure n : Option (ℕ × ℕ))
    if ll = l then do
        ev ((n.2 : Ex) + 1)
        pure (n.1, n.2 + 1)
      else pure n) (0, 0)).map (fun _ => ())

/-- `compute_A1`, mace_kokkos.cpp:1027-1066; `reverse_A1`, 1068-1107, has `l*l+2*l+1` instead of `l*(l+2)+1`. -/
def A1ints (T : Sys) : Option Unit := do
  ev ((f.lmax : Ex) + 1)
  ev ((T.N : Ex) * ((f.lmax : Ex) + 1))
  each T.N (fun _ => each (f.lmax + 1) (fun l => do
    countEta f l
    ev (2 * (l : Ex) + 1)
    ev ((f.phil.count l : Ex) * (C f : Ex))
    rows l
    ev ((l : Ex) * (l : Ex) + 2 * (l : Ex) + 1)))

/-- `compute_H2` and `reverse_H2`, mace_kokkos.cpp:1419-1488. -/
def H2ints (T : Sys) : Option Unit := do
  ev ((T.N : Ex) * (C f : Ex))
  each T.N (fun _ => each (C f) (fun k => each (C f) (fun kp => do
    ev ((kp : Ex) * (C f : Ex) + (k : Ex))
    ev ((k : Ex) * (C f : Ex) + (kp : Ex)))))

/-- Intervals of the lengths in the four sets of tables. -/
structure Cells where
  r0 : ℕ → ℕ
  r1 : ℕ → ℕ
  a0 : ℕ → ℕ
  a1 : ℕ → ℕ

/-- `compute_node_energies_forces`, mace_kokkos.cpp:49-98; `num_unique_types` from the number of tables. -/
def computeInts (P0 : ℕ → ℕ) (P1 : ℕ) (T : Sys) (cell : Cells) : Option Unit := do
  let unique := fun n : ℕ => (Nat.sqrt (8 * n + 1) - 1) / 2
  (if f.zbl.isSome then zbl T else some ())
  computeR0 f cell.r0 T
  evaluate f.vals1.length (unique f.vals1.length) cell.r1 T
  computeY f T
  computeA0 f T
  computeScaled f f.A0scaled f.A0vals.length (unique f.A0vals.length) cell.a0 T
  M0ints f P0 T
  H1ints f T
  computePhi1 f T
  A1ints f T
  computeScaled f f.A1scaled f.A1vals.length (unique f.A1vals.length) cell.a1 T
  M1ints f P1 T
  H2ints f T
  H2ints f T
  M1ints f P1 T
  reverseScaled f f.A1scaled T
  A1ints f T
  reversePhi1 f T
  H1ints f T
  M0ints f P0 T
  reverseScaled f f.A0scaled T
  reverseA0 f T

end

end Verif.IntIndex.Kok
