import Verif.Spec.ASE

/-!
# Crystals and the cells that describe them

A structure (periodic in some, all or no directions) is given by atoms in a cell. The same structure has many such descriptions: atoms
may be moved by lattice vectors, and the cell may be replaced by another one or by a supercell.
-/

namespace Verif.Spec
open Verif.MACE

/-- Atoms in a cell: elements, positions, the three cell vectors, the periodic directions. -/
structure Cell where
  Z : List ℕ
  pos : ℕ → ℕ → ℝ
  vec : Fin 3 → ℕ → ℝ
  pbc : Fin 3 → Bool

/-- Multiples of the cell vectors by which the structure is repeated. -/
def Cell.Shift (c : Cell) (s : Fin 3 → ℤ) : Prop := ∀ k, c.pbc k = false → s k = 0

/-- The vector from atom `a` to the image of atom `b` in cell `s`. -/
noncomputable def Cell.bond (c : Cell) (a b : ℕ) (s : Fin 3 → ℤ) (d : ℕ) : ℝ :=
  c.pos b d + ∑ k, (s k : ℝ) * c.vec k d - c.pos a d

/-- `i`, `j`, `S`: a list of all pairs (atom, other atom, cell of the other atom) closer than `rc`, each once. -/
structure Cell.Neighbours (c : Cell) (rc : ℝ) (i j : List ℕ) (S : ℕ → Fin 3 → ℤ) : Prop where
  lens : i.length = j.length
  atom : ∀ e < i.length, nthN i e < c.Z.length ∧ nthN j e < c.Z.length ∧ c.Shift (S e)
  near : ∀ e < i.length, len (c.bond (nthN i e) (nthN j e) (S e)) < rc ∧ ¬ (nthN i e = nthN j e ∧ S e = 0)
  all : ∀ a < c.Z.length, ∀ b < c.Z.length, ∀ s, c.Shift s → len (c.bond a b s) < rc → ¬ (a = b ∧ s = 0) →
    ∃ e < i.length, nthN i e = a ∧ nthN j e = b ∧ S e = s
  once : ∀ e < i.length, ∀ e' < i.length, nthN i e = nthN i e' → nthN j e = nthN j e' → S e = S e' → e = e'

/-- `c'` describes the same structure as `c`: its cell vectors are the combinations `B` of those of `c`, atom `a` of `c'` is the atom `φ a`
of `c` in cell `τ a`, and every atom of every cell of `c` is in `c'` exactly once. -/
structure SameCrystal (c c' : Cell) (φ : ℕ → ℕ) (τ : ℕ → Fin 3 → ℤ) (B : Fin 3 → Fin 3 → ℤ) : Prop where
  vec : ∀ k d, c'.vec k d = ∑ l, (B k l : ℝ) * c.vec l d
  atom : ∀ a < c'.Z.length, φ a < c.Z.length
  elem : ∀ a < c'.Z.length, nthN c'.Z a = nthN c.Z (φ a)
  pos : ∀ a < c'.Z.length, ∀ d, c'.pos a d = c.pos (φ a) d + ∑ l, (τ a l : ℝ) * c.vec l d
  shift : ∀ a < c'.Z.length, ∀ s, c'.Shift s → c.Shift (fun l => τ a l + ∑ k, s k * B k l)
  all : ∀ b < c.Z.length, ∀ t, c.Shift t → ∃ a s, a < c'.Z.length ∧ c'.Shift s ∧ φ a = b ∧ t = fun l => τ a l + ∑ k, s k * B k l
  once : ∀ a < c'.Z.length, ∀ a' < c'.Z.length, ∀ s s', c'.Shift s → c'.Shift s' → φ a = φ a' →
    (∀ l, τ a l + ∑ k, s k * B k l = τ a' l + ∑ k, s' k * B k l) → a = a' ∧ s = s'

end Verif.Spec
