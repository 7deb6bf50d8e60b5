import Verif.Spec.Lammps

/-!
# One system, divided among processes

`A0, L0` describe the system on one process (periodic images are ghost atoms), `A p, L p` the atoms and neighbour list of
process `p`.
-/

namespace Verif.Lammps
open Verif.MACE Verif.Spec

/-- What atom `i` sees: displacement, species and identity `κ j` of every neighbour `j` closer than the cutoff. -/
noncomputable def view (A : Atoms) (L : NList) (rc : ℝ) (mt : List ℕ) (κ : ℕ → ℕ) (i : ℕ) : List ((Fin 3 → ℝ) × ℕ × ℕ) :=
  (nbrs A L rc i).map (fun j => (fun c => disp A i j c, species mt A j, κ j))

/-- The processes hold the system `A0, L0`: atom `i` of process `p` is (an image of) atom `κ p i`.  Every listed atom is listed
by exactly one process; every atom in `nodes p` has the species of, and sees the same as, the atom it is an image of. -/
structure Parts (np : ℕ) (A : ℕ → Atoms) (L : ℕ → NList) (κ : ℕ → ℕ → ℕ) (nodes : ℕ → List ℕ) (A0 : Atoms) (L0 : NList) (rc : ℝ)
    (mt : List ℕ) : Prop where
  once : ((List.range np).flatMap (fun p => (centres (L p)).map (κ p))).Perm (centres L0)
  spec : ∀ p < np, ∀ i ∈ nodes p, species mt (A p) i = species mt A0 (κ p i)
  same : ∀ p < np, ∀ i ∈ nodes p, (view (A p) (L p) rc mt (κ p) i).Perm (view A0 L0 rc mt (original A0) (κ p i))

/-- Valid atoms and neighbour list, with entries for the atoms in `ns`. -/
structure ProcOk (f : File) (mt : List ℕ) (A : Atoms) (L : NList) (ns : List ℕ) : Prop where
  atoms : AtomsOk A mt f.nT
  list : ListOk A L
  entry : ∀ i ∈ ns, EntryOk A L i

/-- After the messages `ms`, process `p` has the data of atom `j`: a local atom, or one received. -/
def Known (A : ℕ → Atoms) (ms : List Msg) (p j : ℕ) : Prop :=
  j < (A p).nlocal ∨ ∃ m ∈ ms, m.dst = p ∧ m.first ≤ j ∧ j < m.first + m.list.length

/-- A valid communication plan: ghosts are filled with the data of an atom they are an image of, each only once, and only
known data are sent. -/
structure PlanOk (np : ℕ) (A : ℕ → Atoms) (κ : ℕ → ℕ → ℕ) (ms : List Msg) : Prop where
  proc : ∀ m ∈ ms, m.src < np ∧ m.dst < np
  range : ∀ m ∈ ms, m.first + m.list.length ≤ (A m.dst).nlocal + (A m.dst).nghost
  image : ∀ m ∈ ms, ∀ k < m.list.length, κ m.dst (m.first + k) = κ m.src (nthN m.list k)
  sent : ∀ pre m post, ms = pre ++ m :: post → ∀ a ∈ m.list, Known A pre m.src a
  new : ∀ pre m post, ms = pre ++ m :: post → ∀ k < m.list.length, ¬ Known A pre m.dst (m.first + k)

end Verif.Lammps
