import Verif.Model.Lammps
import Verif.Spec.MACEFile

/-!
# What the LAMMPS input means

Only the record types `Atoms`, `NList`, `Work` come from the model.
-/

namespace Verif.Lammps
open Verif.MACE Verif.Spec

/-- Position of atom `i`. -/
def pos (A : Atoms) (i c : ℕ) : ℝ := nth A.x (3 * i + c)

/-- Displacement from atom `i` to atom `j`. -/
def disp (A : Atoms) (i j c : ℕ) : ℝ := pos A j c - pos A i c

/-- Neighbours listed for atom `i`: the first `num i` entries, without the two special-bond bits (bits 29, 30). -/
def listed (L : NList) (i : ℕ) : List ℕ := ((L.first[i]?.getD []).take (nthN L.num i)).map (· % 2 ^ 29)

open Classical in
/-- The listed neighbours closer than the cutoff. -/
noncomputable def nbrs (A : Atoms) (L : NList) (rc : ℝ) (i : ℕ) : List ℕ :=
  (listed L i).filter (fun j => ∑ c ∈ Finset.range 3, disp A i j c ^ 2 < rc ^ 2)

/-- The listed atoms. -/
def centres (L : NList) : List ℕ := L.ilist.take L.inum

/-- The edges, atom by atom. -/
noncomputable def bonds (A : Atoms) (L : NList) (rc : ℝ) (ns : List ℕ) : List (ℕ × ℕ) :=
  ns.flatMap (fun i => (nbrs A L rc i).map (fun j => (i, j)))

/-- Model species of atom `i`. -/
def species (mt : List ℕ) (A : Atoms) (i : ℕ) : ℕ := nthN mt (nthN A.type i - 1)

/-- Index of an atom's original (the atom itself, or the local atom of which it is an image). -/
def original (A : Atoms) (i : ℕ) : ℕ := (A.map (nthN A.tag i)).getD 0

/-- Position of `i` in a list. -/
def rank (ns : List ℕ) (i : ℕ) : ℕ := ns.idxOf i

/-- Well-formed atoms: arrays cover all atoms; types are mapped to one of `nT` species. -/
structure AtomsOk (A : Atoms) (mt : List ℕ) (nT : ℕ) : Prop where
  x : 3 * (A.nlocal + A.nghost) ≤ A.x.length
  type : A.nlocal + A.nghost ≤ A.type.length
  typ : ∀ i < A.nlocal + A.nghost, 1 ≤ nthN A.type i ∧ nthN A.type i ≤ mt.length
  mt : ∀ t ∈ mt, t < nT

/-- The neighbour list has a valid entry for atom `i`. -/
structure EntryOk (A : Atoms) (L : NList) (i : ℕ) : Prop where
  lt : i < A.nlocal + A.nghost
  num : i < L.num.length
  first : i < L.first.length
  len : nthN L.num i ≤ (L.first[i]?.getD []).length
  nb : ∀ j ∈ listed L i, j < A.nlocal + A.nghost

/-- A valid list of distinct local atoms. -/
structure ListOk (A : Atoms) (L : NList) : Prop where
  inum : L.inum ≤ L.ilist.length
  nodup : (centres L).Nodup
  loc : ∀ i ∈ centres L, i < A.nlocal
  entry : ∀ i ∈ centres L, EntryOk A L i

/-- Single process: every listed neighbour is a listed local atom or an image of one. -/
structure ImagesOk (A : Atoms) (L : NList) : Prop where
  tag : A.nlocal + A.nghost ≤ A.tag.length
  orig : ∀ i ∈ centres L, ∀ j ∈ listed L i, ∃ o, A.map (nthN A.tag j) = some o ∧ o ∈ centres L
  self : ∀ i ∈ centres L, A.map (nthN A.tag i) = some i

open Classical in
/-- The atoms which are not listed but closer than the cutoff to a listed one, in ascending order. -/
noncomputable def halo (A : Atoms) (L : NList) (rc : ℝ) : List ℕ :=
  (List.range (A.nlocal + A.nghost)).filter (fun j => j ∉ centres L ∧ ∃ i ∈ centres L, j ∈ nbrs A L rc i)

/-- The graph for nodes `ns` whose neighbours are numbered by `ix`. -/
noncomputable def sysOf (A : Atoms) (L : NList) (rc : ℝ) (mt ns : List ℕ) (ix : ℕ → ℕ) : Sys where
  N := ns.length
  types := ns.map (species mt A)
  nn := ns.map (fun i => (nbrs A L rc i).length)
  idx := (bonds A L rc ns).map (fun p => ix p.2)
  ntypes := (bonds A L rc ns).map (fun p => species mt A p.2)

/-- Bond vectors of the edges. -/
noncomputable def vecs (A : Atoms) (ps : List (ℕ × ℕ)) (e c : ℕ) : ℝ :=
  disp A (ps[e]?.getD (0, 0)).1 (ps[e]?.getD (0, 0)).2 c

/-- The periodic system of the listed atoms. -/
noncomputable def periodic (A : Atoms) (L : NList) (rc : ℝ) (mt : List ℕ) : Sys :=
  sysOf A L rc mt (centres L) (fun j => rank (centres L) (original A j))

/-- Its bond vectors. -/
noncomputable def bondVecs (A : Atoms) (L : NList) (rc : ℝ) : ℕ → ℕ → ℝ := vecs A (bonds A L rc (centres L))

/-- Every atom `j` displaced by `τ u_j`. -/
noncomputable def displaced (A : Atoms) (u : ℕ → ℕ → ℝ) (τ : ℝ) : Atoms :=
  { A with x := (List.range A.x.length).map (fun p => nth A.x p + τ * u (p / 3) (p % 3)) }

/-- No listed pair is exactly at the cutoff. -/
def OffCutoff (A : Atoms) (L : NList) (rc : ℝ) : Prop :=
  ∀ i ∈ centres L, ∀ j ∈ listed L i, ∑ c ∈ Finset.range 3, disp A i j c ^ 2 ≠ rc ^ 2

end Verif.Lammps
