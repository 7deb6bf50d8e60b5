import Verif.Spec.Decomp

/-!
# Division of matter in space among processes

What LAMMPS provides, in geometric terms.  Atom `b` has the images `(b, s)`, `s` in a group `ι` of translations (periodic boundaries in
any number of directions; the trivial group for none).  Neighbour lists and ghosts are chosen with the positions at the last rebuild,
the pair style computes with the present positions.
-/

namespace Verif.Lammps
open Verif.MACE Verif.Spec

/-- Atoms `b < N`: types, positions at the last rebuild and now; translation vectors (the cell does not change between rebuilds). -/
structure Matter (ι : Type) [AddCommGroup ι] where
  N : ℕ
  typ : ℕ → ℕ
  built : ℕ → ℕ → ℝ
  now : ℕ → ℕ → ℝ
  T : ι → ℕ → ℝ
  zero : ∀ c, T 0 c = 0
  add : ∀ s t c, T (s + t) c = T s c + T t c

variable {ι : Type} [AddCommGroup ι]

/-- Distance between two images, for positions `x`. -/
noncomputable def Matter.far (M : Matter ι) (x : ℕ → ℕ → ℝ) (b : ℕ) (s : ι) (b' : ℕ) (s' : ι) : ℝ :=
  len (fun c => (x b' c + M.T s' c) - (x b c + M.T s c))

/-- No atom moved by more than half the skin since the rebuild. -/
def Matter.Moved (M : Matter ι) (skin : ℝ) : Prop := ∀ b < M.N, len (fun c => M.now b c - M.built b c) ≤ skin / 2

/-- A process with atoms `A` and list `L`: atom `j` is the image `(id j, sh j)`.  Local atoms are not translated; no image is held twice;
for the atoms in `nodes`, the list has all pairs closer than `rc + skin` at the rebuild (possibly more), each once, without the atom itself;
all local atoms are listed. -/
structure Holder (M : Matter ι) (rc skin : ℝ) (A : Atoms) (L : NList) (id : ℕ → ℕ) (sh : ℕ → ι) (nodes : List ℕ) : Prop where
  atom : ∀ j < A.nlocal + A.nghost, id j < M.N
  loc : ∀ j < A.nlocal, sh j = 0
  pos : ∀ j < A.nlocal + A.nghost, ∀ c < 3, pos A j c = M.now (id j) c + M.T (sh j) c
  type : ∀ j < A.nlocal + A.nghost, nthN A.type j = M.typ (id j)
  inj : ∀ j < A.nlocal + A.nghost, ∀ k < A.nlocal + A.nghost, id j = id k → sh j = sh k → j = k
  all : ∀ j < A.nlocal, j ∈ centres L
  complete : ∀ i ∈ nodes, ∀ j < A.nlocal + A.nghost, j ≠ i → M.far M.built (id i) (sh i) (id j) (sh j) < rc + skin → j ∈ listed L i
  once : ∀ i ∈ nodes, (listed L i).Nodup ∧ i ∉ listed L i

/-- The process holds every image that was closer than `cut` (the communication cutoff) to one of its local atoms. -/
def Covers (M : Matter ι) (cut : ℝ) (A : Atoms) (id : ℕ → ℕ) (sh : ℕ → ι) : Prop :=
  ∀ o < A.nlocal, ∀ b < M.N, ∀ s, M.far M.built (id o) 0 b s < cut → ∃ j < A.nlocal + A.nghost, id j = b ∧ sh j = s

/-- Every atom is local on exactly one process. -/
def Divided (M : Matter ι) (np : ℕ) (A : ℕ → Atoms) (id : ℕ → ℕ → ℕ) : Prop :=
  ((List.range np).flatMap (fun p => (List.range (A p).nlocal).map (id p))).Perm (List.range M.N)

/-- The whole matter on one process: its local atoms are the atoms, `atom->map` finds the original of every image. -/
structure Whole (M : Matter ι) (rc skin : ℝ) (A : Atoms) (L : NList) (id : ℕ → ℕ) (sh : ℕ → ι) : Prop where
  holder : Holder M rc skin A L id sh (centres L)
  covers : Covers M (rc + skin) A id sh
  nlocal : A.nlocal = M.N
  self : ∀ j < M.N, id j = j
  orig : ∀ j < A.nlocal + A.nghost, original A j = id j

end Verif.Lammps
