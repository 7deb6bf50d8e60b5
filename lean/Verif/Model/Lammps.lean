import Verif.Model.MACE
import Mathlib.Analysis.SpecialFunctions.Sqrt

/-!
# The LAMMPS pair style `symmetrix/mace`: settings, type mapping, neighbour lists, communication, results

/repo/pair_symmetrix/pair_symmetrix_mace.cpp (and pair_symmetrix_mace_kokkos.cpp for `coeffKokkos`).

LAMMPS itself is not modelled: atoms, neighbour list, process count, the `atom->map` function and the order of messages are
inputs.  `error->all` (which does not return) and undefined behaviour are `none`.  `double` is `ℝ`, `int` is `ℕ`; arrays
`x[i][c]`, `f[i][c]` are flat lists with index `3*i+c`.
-/

namespace Verif.Lammps
open Verif.MACE

/-! ## Input script -/

/-- `periodic_table`, pair_symmetrix_mace.h:74-83. -/
def periodicTable : List String :=
  ["H", "He",
   "Li", "Be", "B", "C", "N", "O", "F", "Ne",
   "Na", "Mg", "Al", "Si", "P", "S", "Cl", "Ar",
   "K", "Ca", "Sc", "Ti", "V", "Cr", "Mn", "Fe", "Co", "Ni", "Cu", "Zn", "Ga", "Ge", "As", "Se", "Br", "Kr",
   "Rb", "Sr", "Y", "Zr", "Nb", "Mo", "Tc", "Ru", "Rh", "Pd", "Ag", "Cd", "In", "Sn", "Sb", "Te", "I", "Xe",
   "Cs", "Ba", "La", "Ce", "Pr", "Nd", "Pm", "Sm", "Eu", "Gd", "Tb", "Dy", "Ho", "Er", "Tm", "Yb", "Lu",
   "Hf", "Ta", "W", "Re", "Os", "Ir", "Pt", "Au", "Hg", "Tl", "Pb", "Bi", "Po", "At", "Rn",
   "Fr", "Ra", "Ac", "Th", "Pa", "U", "Np", "Pu", "Am", "Cm", "Bk", "Cf", "Es", "Fm", "Md", "No", "Lr",
   "Rf", "Db", "Sg", "Bh", "Hs", "Mt", "Ds", "Rg", "Cn", "Nh", "Fl", "Mc", "Lv", "Ts", "Og"]

/-- `settings`, pair_symmetrix_mace.cpp:95-109 (same text in pair_symmetrix_mace_kokkos.cpp:111-125). -/
def settings (nprocs : ℕ) (args : List String) : Option String := do
  let mode ←
    if args.length = 0 then
      some (if nprocs = 1 then "no_domain_decomposition" else "mpi_message_passing")
    else if args.length = 1 then do
      let m ← args[0]?
      if m ≠ "no_domain_decomposition" ∧ m ≠ "mpi_message_passing" ∧ m ≠ "no_mpi_message_passing" then none
      else some m
    else none
  if mode = "no_domain_decomposition" ∧ nprocs ≠ 1 then none else some mode

/-- `std::find` followed by `std::distance`: index of the first equal element. -/
def findIdx? {α : Type} [DecidableEq α] (a : α) : List α → Option ℕ
  | [] => none
  | b :: l => if b = a then some 0 else (findIdx? a l).map (· + 1)

/-- One element symbol of `pair_coeff`, pair_symmetrix_mace.cpp:126-135. -/
def coeffOne (atomicNumbers : List ℕ) (sym : String) : Option ℕ := do
  let p ← findIdx? sym periodicTable
  let Z := p + 1
  findIdx? Z atomicNumbers

/-- `mace_types` after `coeff`, pair_symmetrix_mace.cpp:123-139; `syms` are `arg[3..narg-1]`. -/
def coeff (atomicNumbers : List ℕ) (syms : List String) : Option (List ℕ) :=
  loop syms.length (fun i mt => do
    let sym ← syms[i]?
    let m ← coeffOne atomicNumbers sym
    pure (mt ++ [m])) []

/-- `comm_forward`, `comm_reverse`, pair_symmetrix_mace.cpp:142-148. -/
def commSize (mode : String) (LMC : ℕ) : ℕ := if mode = "mpi_message_passing" then LMC else 0

/-- `mace_types` after the Kokkos `coeff`, pair_symmetrix_mace_kokkos.cpp:141-159: a view of `atomic_numbers.size()` ints
(initially 0); entry `-1` for elements the model lacks; the last match wins.  A write outside the view is `none`. -/
def coeffKokkos (atomicNumbers : List ℕ) (syms : List String) : Option (List ℤ) :=
  loop syms.length (fun i mt => do
    let sym ← syms[i]?
    let p ← findIdx? sym periodicTable
    let Z := p + 1
    let m ← loop atomicNumbers.length (fun j (m : ℤ) => do
      let Zj ← atomicNumbers[j]?
      pure (if Z = Zj then (j : ℤ) else m)) (-1)
    wr mt i m) (List.replicate atomicNumbers.length 0)

/-! ## Atoms and neighbour lists -/

/-- What the pair style reads from LAMMPS' `Atom`.  `map tag` is `atom->map`; `none` where it returns `-1`. -/
structure Atoms where
  nlocal : ℕ
  nghost : ℕ
  x : List ℝ
  type : List ℕ
  tag : List ℕ
  map : ℕ → Option ℕ

/-- LAMMPS' `NeighList`; `num` and `first` are indexed by atom. -/
structure NList where
  inum : ℕ
  ilist : List ℕ
  num : List ℕ
  first : List (List ℕ)

/-- `jlist[jj] & NEIGHMASK`. -/
def neighMask (raw : ℕ) : ℕ := raw &&& 0x1FFFFFFF

open Classical in
/-- The loop over the neighbours of atom `i` closer than the cutoff, e.g. pair_symmetrix_mace.cpp:252-264 (repeated at 291-314,
386-398, 418-439, 568-580, 605-617, 637-657). -/
noncomputable def neighLoop {σ : Type} (A : Atoms) (L : NList) (rc2 : ℝ) (i : ℕ) (body : ℕ → ℝ → ℝ → ℝ → ℝ → σ → Option σ)
    (s : σ) : Option σ := do
  let xi ← A.x[3 * i]?
  let yi ← A.x[3 * i + 1]?
  let zi ← A.x[3 * i + 2]?
  let jl ← L.first[i]?
  let n ← L.num[i]?
  loop n (fun jj s => do
    let raw ← jl[jj]?
    let j := neighMask raw
    let xj ← A.x[3 * j]?
    let yj ← A.x[3 * j + 1]?
    let zj ← A.x[3 * j + 2]?
    let dx := xj - xi
    let dy := yj - yi
    let dz := zj - zi
    let r2 := dx * dx + dy * dy + dz * dz
    if r2 < rc2 then body j dx dy dz r2 s else some s) s

/-- `mace_types[atom->type[i]-1]`. -/
def maceType (mt : List ℕ) (A : Atoms) (i : ℕ) : Option ℕ := do
  let t ← A.type[i]?
  if t = 0 then none else mt[t - 1]?

/-- The vectors of pair_symmetrix_mace.h:57-68 which describe the graph. -/
structure Work where
  types : List ℕ
  nn : List ℕ
  idx : List ℕ
  ntypes : List ℕ
  xyz : List ℝ
  r : List ℝ
  nodeI : List ℕ
  neighJ : List ℕ

/-- Counting loop, pair_symmetrix_mace.cpp:248-265 (382-399). -/
noncomputable def countEdges (A : Atoms) (L : NList) (rc2 : ℝ) : Option ℕ :=
  loop L.inum (fun ii c => do
    let i ← L.ilist[ii]?
    neighLoop A L rc2 i (fun _ _ _ _ _ c => some (c + 1)) c) 0

/-- The resizes of pair_symmetrix_mace.cpp:267-276 (401-410). -/
def Work.resize (w : Work) (n e : ℕ) : Work where
  types := Verif.resize w.types n
  nn := Verif.resize w.nn n
  idx := Verif.resize w.idx e
  ntypes := Verif.resize w.ntypes e
  xyz := Verif.resize w.xyz (3 * e)
  r := Verif.resize w.r e
  nodeI := Verif.resize w.nodeI n
  neighJ := Verif.resize w.neighJ e

/-- Writes of one edge, pair_symmetrix_mace.cpp:304-312 (431-437, 648-655).  `look j` is what is stored in `neigh_j` and, unless
`none`, in `neigh_indices`. -/
noncomputable def fillEdge (A : Atoms) (mt : List ℕ) (look : ℕ → Option (ℕ × Option ℕ)) (j : ℕ) (dx dy dz r2 : ℝ) (q : ℕ × Work) :
    Option (ℕ × Work) := do
  let ij := q.1
  let w := q.2
  let v ← look j
  let neighJ ← wr w.neighJ ij v.1
  let idx ← (match v.2 with
    | some ix => wr w.idx ij ix
    | none => some w.idx : Option (List ℕ))
  let tj ← maceType mt A j
  let ntypes ← wr w.ntypes ij tj
  let xyz ← wr w.xyz (3 * ij) dx
  let xyz ← wr xyz (3 * ij + 1) dy
  let xyz ← wr xyz (3 * ij + 2) dz
  let r ← wr w.r ij (Real.sqrt r2)
  pure (ij + 1, { w with neighJ := neighJ, idx := idx, ntypes := ntypes, xyz := xyz, r := r })

/-- Populating loop, pair_symmetrix_mace.cpp:286-315 (413-440). -/
noncomputable def populate (A : Atoms) (L : NList) (rc2 : ℝ) (mt : List ℕ) (look : ℕ → Option (ℕ × Option ℕ)) (w : Work) :
    Option Work := do
  let q ← loop L.inum (fun ii (q : ℕ × Work) => do
    let i ← L.ilist[ii]?
    let nodeI ← wr q.2.nodeI ii i
    let ti ← maceType mt A i
    let types ← wr q.2.types ii ti
    let nn ← wr q.2.nn ii 0
    neighLoop A L rc2 i (fun j dx dy dz r2 q => do
      let nn ← ad q.2.nn ii 1
      fillEdge A mt look j dx dy dz r2 (q.1, { q.2 with nn := nn })) (q.1, { q.2 with nodeI := nodeI, types := types, nn := nn }))
    (0, w)
  pure q.2

/-- `ii_from_i`, pair_symmetrix_mace.cpp:278-283 (also filled at 599-603). -/
def iiFromI (n : ℕ) (nodes : List ℕ) : Option (ℕ → Option ℕ) :=
  loop n (fun ii m => do
    let i ← nodes[ii]?
    pure (Function.update m i (some ii))) (fun _ => none)

/-- `ii_from_i[k]`: `std::unordered_map::operator[]` inserts and returns 0 when the key is missing (later reads then also give
0, so the insertion itself is not recorded). -/
def iiGet (m : ℕ → Option ℕ) (k : ℕ) : ℕ := (m k).getD 0

/-- `atom->map(atom->tag[j])`. -/
def mapTag (A : Atoms) (j : ℕ) : Option ℕ := do
  let t ← A.tag[j]?
  A.map t

/-- Graph building in `compute_no_domain_decomposition`, pair_symmetrix_mace.cpp:246-315. -/
noncomputable def buildSingle (rc : ℝ) (mt : List ℕ) (A : Atoms) (L : NList) (w : Work) : Option Work := do
  let e ← countEdges A L (rc * rc)
  let w := w.resize L.inum e
  let m ← iiFromI L.inum L.ilist
  populate A L (rc * rc) mt (fun j => do
    let jl ← mapTag A j
    pure (jl, some (iiGet m jl))) w

/-- Graph building in `compute_mpi_message_passing`, pair_symmetrix_mace.cpp:380-440; `neigh_indices` is not written. -/
noncomputable def buildMpi (rc : ℝ) (mt : List ℕ) (A : Atoms) (L : NList) (w : Work) : Option Work := do
  let e ← countEdges A L (rc * rc)
  let w := w.resize L.inum e
  populate A L (rc * rc) mt (fun j => some (j, none)) w

/-! ### `compute_no_mpi_message_passing` -/

/-- Marking ghosts, pair_symmetrix_mace.cpp:557-581. -/
noncomputable def markGhosts (A : Atoms) (L : NList) (rc2 : ℝ) : Option (List Bool) := do
  let isLocal ← loop L.inum (fun ii l => do
    let i ← L.ilist[ii]?
    wr l i true) (List.replicate (A.nlocal + A.nghost) false)
  loop L.inum (fun ii g => do
    let i ← L.ilist[ii]?
    neighLoop A L rc2 i (fun j _ _ _ _ g => do
      let b ← isLocal[j]?
      if b = false then wr g j true else some g) g) (List.replicate (A.nlocal + A.nghost) false)

/-- `ghost_indices`, pair_symmetrix_mace.cpp:583-592 (`std::reduce` counts the `true` entries). -/
def ghostIndices (isGhost : List Bool) (old : List ℕ) : Option (ℕ × List ℕ) := do
  let n := isGhost.count true
  let q ← loop isGhost.length (fun ii (q : ℕ × List ℕ) => do
    let b ← isGhost[ii]?
    if b then do
      let l ← wr q.2 q.1 ii
      pure (q.1 + 1, l)
    else some q) (0, resize old n)
  pure (n, q.2)

/-- pair_symmetrix_mace.cpp:594-618: `node_i`, `node_types`, `num_neigh` and `ii_from_i`. -/
noncomputable def nodesNoMpi (A : Atoms) (L : NList) (rc2 : ℝ) (mt : List ℕ) (nG : ℕ) (ghosts : List ℕ) (w : Work) :
    Option (Work × (ℕ → Option ℕ)) := do
  let n := L.inum + nG
  loop n (fun ii (q : Work × (ℕ → Option ℕ)) => do
    let i ← (if ii < L.inum then L.ilist[ii]? else ghosts[ii - L.inum]? : Option ℕ)
    let nodeI ← wr q.1.nodeI ii i
    let ti ← maceType mt A i
    let types ← wr q.1.types ii ti
    let nn ← neighLoop A L rc2 i (fun _ _ _ _ _ nn => ad nn ii 1) q.1.nn
    pure ({ q.1 with nodeI := nodeI, types := types, nn := nn }, Function.update q.2 i (some ii)))
    ({ w with nodeI := resize w.nodeI n, types := resize w.types n, nn := List.replicate n 0 }, fun _ => none)

/-- pair_symmetrix_mace.cpp:620-658: edge counts, resizes and the edges. -/
noncomputable def edgesNoMpi (A : Atoms) (L : NList) (rc2 : ℝ) (mt : List ℕ) (nG : ℕ) (w : Work) (m : ℕ → Option ℕ) :
    Option Work := do
  let eL ← sumO L.inum (fun ii => w.nn[ii]?)
  let eG ← sumO nG (fun ii => w.nn[L.inum + ii]?)
  let e := eL + eG
  let w := { w with neighJ := resize w.neighJ e, idx := resize w.idx e, ntypes := resize w.ntypes e, xyz := resize w.xyz (3 * e),
                    r := resize w.r e }
  let q ← loop (L.inum + nG) (fun ii (q : ℕ × Work) => do
    let i ← q.2.nodeI[ii]?
    neighLoop A L rc2 i (fillEdge A mt (fun j => some (j, some (iiGet m j)))) q) (0, w)
  pure q.2

/-- Graph building in `compute_no_mpi_message_passing`, pair_symmetrix_mace.cpp:555-658; also returns `num_ghost_nodes`. -/
noncomputable def buildNoMpi (rc : ℝ) (mt : List ℕ) (A : Atoms) (L : NList) (old : List ℕ) (w : Work) : Option (ℕ × Work) := do
  let g ← markGhosts A L (rc * rc)
  let q ← ghostIndices g old
  let v ← nodesNoMpi A L (rc * rc) mt q.1 q.2 w
  let w ← edgesNoMpi A L (rc * rc) mt q.1 v.1 v.2
  pure (q.1, w)

/-! ## Results -/

/-- Flags set by `ev_init`. -/
structure Flags where
  eGlobal : Bool
  eAtom : Bool
  vGlobal : Bool
  vAtom : Bool

/-- What the pair style adds to or sets in LAMMPS: `eng_vdwl`, `eatom`, `atom->f`, `virial`. -/
structure Tally where
  eng : ℝ
  eatom : List ℝ
  f : List ℝ
  virial : List ℝ

/-- `eng_vdwl`, pair_symmetrix_mace.cpp:324-327 (499-502, 702-704). -/
noncomputable def addEnergy (n : ℕ) (E : List ℝ) (eng : ℝ) : Option ℝ :=
  loop n (fun ii e => do
    let v ← E[ii]?
    pure (e + v)) eng

/-- `eatom`, pair_symmetrix_mace.cpp:329-332 (504-507, 706-708). -/
def putEatom (n : ℕ) (E eatom : List ℝ) : Option (List ℝ) :=
  loop n (fun ii ea => do
    let v ← E[ii]?
    wr ea ii v) eatom

/-- Forces of edge `ij` on its two atoms, pair_symmetrix_mace.cpp:338-345 (513-520, 714-721). -/
noncomputable def scatterEdge (neighJ : List ℕ) (F : List ℝ) (i ij : ℕ) (f : List ℝ) : Option (List ℝ) := do
  let j ← neighJ[ij]?
  let f0 ← F[3 * ij]?
  let f1 ← F[3 * ij + 1]?
  let f2 ← F[3 * ij + 2]?
  let f ← ad f (3 * i) (-f0)
  let f ← ad f (3 * i + 1) (-f1)
  let f ← ad f (3 * i + 2) (-f2)
  let f ← ad f (3 * j) f0
  let f ← ad f (3 * j + 1) f1
  ad f (3 * j + 2) f2

/-- Force loop, pair_symmetrix_mace.cpp:334-347 (509-522, 710-723). -/
noncomputable def scatter (n : ℕ) (w : Work) (F f : List ℝ) : Option (List ℝ) := do
  let q ← loop n (fun ii (q : ℕ × List ℝ) => do
    let i ← w.nodeI[ii]?
    let m ← w.nn[ii]?
    edgesFrom m (scatterEdge w.neighJ F i) q) (0, f)
  pure q.2

/-- Virial of edge `ij`, pair_symmetrix_mace.cpp:353-365 (528-540, 729-741). -/
noncomputable def virialEdge (xyz F : List ℝ) (ij : ℕ) (v : List ℝ) : Option (List ℝ) := do
  let x ← xyz[3 * ij]?
  let y ← xyz[3 * ij + 1]?
  let z ← xyz[3 * ij + 2]?
  let fx ← F[3 * ij]?
  let fy ← F[3 * ij + 1]?
  let fz ← F[3 * ij + 2]?
  let v ← ad v 0 (x * fx)
  let v ← ad v 1 (y * fy)
  let v ← ad v 2 (z * fz)
  let v ← ad v 3 (1 / 2 * (x * fy + y * fx))
  let v ← ad v 4 (1 / 2 * (x * fz + z * fx))
  ad v 5 (1 / 2 * (y * fz + z * fy))

/-- Virial loop, pair_symmetrix_mace.cpp:349-368 (524-543, 725-744). -/
noncomputable def virialLoop (n : ℕ) (w : Work) (F v : List ℝ) : Option (List ℝ) := do
  let q ← loop n (fun ii (q : ℕ × List ℝ) => do
    let m ← w.nn[ii]?
    edgesFrom m (virialEdge w.xyz F) q) (0, v)
  pure q.2

/-- Everything after the MACE evaluation; `nE` nodes have energies, `nF` nodes have edges. -/
noncomputable def finish (fl : Flags) (nE nF : ℕ) (w : Work) (E F : List ℝ) (t : Tally) : Option Tally := do
  let eng ← (if fl.eGlobal then addEnergy nE E t.eng else some t.eng : Option ℝ)
  let eatom ← (if fl.eAtom then putEatom nE E t.eatom else some t.eatom : Option (List ℝ))
  let f ← scatter nF w F t.f
  let virial ← (if fl.vGlobal then virialLoop nF w F t.virial else some t.virial : Option (List ℝ))
  if fl.vAtom then none else some { eng := eng, eatom := eatom, f := f, virial := virial }

/-- The arguments `num_nodes, node_types, num_neigh, neigh_indices, neigh_types, xyz, r`. -/
def Work.graph (w : Work) (n : ℕ) : Graph ℝ where
  N := n
  types := w.types
  nn := w.nn
  idx := w.idx
  ntypes := w.ntypes
  xyz := w.xyz
  r := w.r

/-- `compute_no_domain_decomposition`, pair_symmetrix_mace.cpp:242-372.  `t` holds the accumulators after `ev_init`. -/
noncomputable def computeSingle (zbl : Option ZBLModel.ZBL) (P : Params ℝ) (rc : ℝ) (mt : List ℕ) (fl : Flags) (A : Atoms) (L : NList)
    (w : Work) (s : State ℝ) (t : Tally) : Option (Work × State ℝ × Tally) := do
  let w ← buildSingle rc mt A L w
  let s ← computeNodeEnergiesForces zbl P (w.graph L.inum) s
  let t ← finish fl L.inum L.inum w s.nodeEnergies s.nodeForces t
  pure (w, s, t)

/-! ## Communication of the first-layer features -/

/-- `pack_forward_comm`, pair_symmetrix_mace.cpp:194-203; `C = num_LM*num_channels`; `buf` has room for the message. -/
def packForward (C n : ℕ) (list : List ℕ) (H1 buf : List ℝ) : Option (ℕ × List ℝ) := do
  let buf ← loop n (fun ii buf => do
    let i ← list[ii]?
    loop C (fun k buf => do
      let v ← H1[i * C + k]?
      wr buf (ii * C + k) v) buf) buf
  pure (n * C, buf)

/-- `unpack_forward_comm`, pair_symmetrix_mace.cpp:207-214. -/
def unpackForward (C n first : ℕ) (buf H1 : List ℝ) : Option (List ℝ) :=
  loop n (fun i => loop C (fun k H1 => do
    let v ← buf[i * C + k]?
    wr H1 ((first + i) * C + k) v)) H1

/-- `pack_reverse_comm`, pair_symmetrix_mace.cpp:218-226. -/
def packReverse (C n first : ℕ) (H1adj buf : List ℝ) : Option (ℕ × List ℝ) := do
  let buf ← loop n (fun i => loop C (fun k buf => do
    let v ← H1adj[(first + i) * C + k]?
    wr buf (i * C + k) v)) buf
  pure (n * C, buf)

/-- `unpack_reverse_comm`, pair_symmetrix_mace.cpp:230-238. -/
noncomputable def unpackReverse (C n : ℕ) (list : List ℕ) (buf H1adj : List ℝ) : Option (List ℝ) :=
  loop n (fun ii H => do
    let i ← list[ii]?
    loop C (fun k H => do
      let v ← buf[ii * C + k]?
      ad H (i * C + k) v) H) H1adj

/-! ## Evaluation in `compute_no_mpi_message_passing` -/

/-- Zeroed `node_energies`, `node_forces` and the ZBL contribution, pair_symmetrix_mace.cpp:444-452 (662-670). -/
noncomputable def startMace (zbl : Option ZBLModel.ZBL) (P : Params ℝ) (g : Graph ℝ) (s : State ℝ) : Option (State ℝ) := do
  let E := List.replicate g.N (0 : ℝ)
  let F := List.replicate g.xyz.length (0 : ℝ)
  let st : Bufs Bool ℝ := fun b => if b then F else E
  let st ← match zbl with
    | some z => z.computeZBL g.N g.types g.nn g.ntypes P.atomicNumbers g.r g.xyz st
    | none => some st
  pure { s with nodeEnergies := st false, nodeForces := st true }

/-- `compute_no_mpi_message_passing`, pair_symmetrix_mace.cpp:551-748: the first layer is evaluated for local and ghost nodes,
the second layer for local nodes.  `old` is the previous content of `ghost_indices`. -/
noncomputable def computeNoMpi (zbl : Option ZBLModel.ZBL) (P : Params ℝ) (rc : ℝ) (mt : List ℕ) (fl : Flags) (A : Atoms) (L : NList)
    (old : List ℕ) (w : Work) (s : State ℝ) (t : Tally) : Option (Work × State ℝ × Tally) := do
  let q ← buildNoMpi rc mt A L old w
  let w := q.2
  let loc := w.graph L.inum
  let all := w.graph (L.inum + q.1)
  let s ← startMace zbl P loc s
  let s ← computeY P all s
  let s ← computeR0 P all s
  let s ← computeA0 P all s
  let s ← computeA0Scaled P all s
  let s ← computeM0 P all s
  let s ← computeH1 P all s
  let s ← computeR1 P loc s
  let s ← computePhi1 P loc s
  let s ← computeA1 P loc s
  let s ← computeA1Scaled P loc s
  let s ← computeM1 P loc s
  let s ← computeH2 P loc s
  let s ← computeReadouts P loc s
  let s ← reverseH2 P loc false s
  let s ← reverseM1 P loc s
  let s ← reverseA1Scaled P loc false s
  let s ← reverseA1 P loc s
  let s ← reversePhi1 P loc false false s
  let s ← reverseH1 P all s
  let s ← reverseM0 P all s
  let s ← reverseA0Scaled P all s
  let s ← reverseA0 P all s
  let t ← finish fl L.inum (L.inum + q.1) w s.nodeEnergies s.nodeForces t
  pure (w, s, t)

/-! ## Evaluation in `compute_mpi_message_passing`

All processes together.  LAMMPS' `comm->forward_comm(this)` makes every process send and receive the messages of its swaps;
here the messages of all processes are delivered one after the other, in the order given (for `reverse_comm` in the opposite
order and direction). -/

/-- What one process keeps between the phases: graph vectors, evaluator, the member `H1` and the accumulators. -/
structure Proc where
  w : Work
  s : State ℝ
  H1 : List ℝ
  t : Tally

/-- Message of one swap: `list` are the atoms `src` sends, `first` is where `dst` stores them. -/
structure Msg where
  src : ℕ
  dst : ℕ
  list : List ℕ
  first : ℕ

/-- "sort local H1 contributions by i", pair_symmetrix_mace.cpp:462-469; `C = num_LM*num_channels`. -/
def sortH1 (C n : ℕ) (ilist : List ℕ) (Hm H1 : List ℝ) : Option (List ℝ) :=
  loop n (fun ii H1 => do
    let i ← ilist[ii]?
    loop C (fun k H1 => do
      let v ← Hm[ii * C + k]?
      wr H1 (i * C + k) v) H1) H1

/-- Before the forward communication, pair_symmetrix_mace.cpp:378-470. -/
noncomputable def mpi1 (zbl : Option ZBLModel.ZBL) (P : Params ℝ) (rc : ℝ) (mt : List ℕ) (A : Atoms) (L : NList) (q : Proc) :
    Option Proc := do
  let w ← buildMpi rc mt A L q.w
  let g := w.graph L.inum
  let s ← startMace zbl P g q.s
  let s ← computeY P g s
  let s ← computeR0 P g s
  let s ← computeA0 P g s
  let s ← computeA0Scaled P g s
  let s ← computeM0 P g s
  let s ← computeH1 P g s
  let H1 ← sortH1 (P.LM * P.C) L.inum L.ilist s.H1 (resize q.H1 ((A.nlocal + A.nghost) * (P.LM * P.C)))
  pure { q with w := w, s := s, H1 := H1 }

/-- Between the communications, pair_symmetrix_mace.cpp:471-488; `H1` has been completed by the forward communication. -/
noncomputable def mpi2 (P : Params ℝ) (L : NList) (H1 : List ℝ) (q : Proc) : Option Proc := do
  let g := { q.w.graph L.inum with idx := q.w.neighJ }
  let s := { q.s with H1 := H1 }
  let s ← computeR1 P g s
  let s ← computePhi1 P g s
  let s ← computeA1 P g s
  let s ← computeA1Scaled P g s
  let s ← computeM1 P g s
  let s ← computeH2 P g s
  let s ← computeReadouts P g s
  let s ← reverseH2 P g false s
  let s ← reverseM1 P g s
  let s ← reverseA1Scaled P g false s
  let s ← reverseA1 P g s
  let s ← reversePhi1 P g false false s
  pure { q with s := s, H1 := H1 }

/-- After the reverse communication, pair_symmetrix_mace.cpp:490-547. -/
noncomputable def mpi3 (P : Params ℝ) (fl : Flags) (L : NList) (H1adj : List ℝ) (q : Proc) : Option Proc := do
  let g := q.w.graph L.inum
  let s := { q.s with H1a := H1adj }
  let s ← reverseH1 P g s
  let s ← reverseM0 P g s
  let s ← reverseA0Scaled P g s
  let s ← reverseA0 P g s
  let t ← finish fl L.inum L.inum q.w s.nodeEnergies s.nodeForces q.t
  pure { q with s := s, t := t }

/-- Delivery of one forward message. -/
def sendForward (C : ℕ) (m : Msg) (H : ℕ → List ℝ) : Option (ℕ → List ℝ) := do
  let n := m.list.length
  let b ← packForward C n m.list (H m.src) (List.replicate (n * C) 0)
  let G ← unpackForward C n m.first b.2 (H m.dst)
  pure (Function.update H m.dst G)

/-- Delivery of the answer to one forward message during the reverse communication. -/
noncomputable def sendReverse (C : ℕ) (m : Msg) (H : ℕ → List ℝ) : Option (ℕ → List ℝ) := do
  let n := m.list.length
  let b ← packReverse C n m.first (H m.dst) (List.replicate (n * C) 0)
  let G ← unpackReverse C n m.list b.2 (H m.src)
  pure (Function.update H m.src G)

/-- `comm->forward_comm(this)` on all processes. -/
def forwardComm (C : ℕ) (ms : List Msg) (H : ℕ → List ℝ) : Option (ℕ → List ℝ) := ms.foldlM (fun H m => sendForward C m H) H

/-- `comm->reverse_comm(this)` on all processes. -/
noncomputable def reverseComm (C : ℕ) (ms : List Msg) (H : ℕ → List ℝ) : Option (ℕ → List ℝ) :=
  ms.reverse.foldlM (fun H m => sendReverse C m H) H

/-- The same phase on all `np` processes. -/
def eachProc {σ : Type} (np : ℕ) (f : ℕ → σ → Option σ) (st : ℕ → σ) : Option (ℕ → σ) :=
  loop np (fun p st => do
    let q ← f p (st p)
    pure (Function.update st p q)) st

/-- `compute_mpi_message_passing` on all processes. -/
noncomputable def computeMpi (zbl : Option ZBLModel.ZBL) (P : Params ℝ) (rc : ℝ) (mt : List ℕ) (fl : Flags) (np : ℕ)
    (A : ℕ → Atoms) (L : ℕ → NList) (ms : List Msg) (st : ℕ → Proc) : Option (ℕ → Proc) := do
  let st ← eachProc np (fun p => mpi1 zbl P rc mt (A p) (L p)) st
  let H ← forwardComm (P.LM * P.C) ms (fun p => (st p).H1)
  let st ← eachProc np (fun p => mpi2 P (L p) (H p)) st
  let Ha ← reverseComm (P.LM * P.C) ms (fun p => (st p).s.H1a)
  eachProc np (fun p => mpi3 P fl (L p) (Ha p)) st

end Verif.Lammps
