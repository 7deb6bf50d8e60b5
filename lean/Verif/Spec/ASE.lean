import Verif.Model.ASE
import Verif.Spec.MACEFile
import Mathlib.Data.List.Perm.Basic

/-!
# What an ASE structure and its neighbour list mean

Only the record type `Pairs` comes from the model.
-/

namespace Verif.ASE
open Verif.MACE Verif.Spec

/-- The arrays for pairs `(i, j)` with vectors `X`. -/
noncomputable def pairsOf (i j : List ℕ) (X : ℕ → ℕ → ℝ) : Pairs :=
  ⟨i, j, (List.range i.length).map (fun e => len (X e)), (List.range (i.length * 3)).map (fun p => X (p / 3) (p % 3))⟩

/-- A full neighbour list of `nA` atoms: ordered by the first atom; every pair occurs as often as the reversed pair. -/
structure PairsOk (nA : ℕ) (i j : List ℕ) : Prop where
  len : i.length = j.length
  sorted : i.Pairwise (· ≤ ·)
  symm : (i.zip j).Perm (j.zip i)
  lt : ∀ a ∈ i, a < nA

/-- Number of the element of atom `a` in the model. -/
def elem (mace Z : List ℕ) (a : ℕ) : ℕ := mace.idxOf (nthN Z a)

/-- The graph of the first `N` atoms. -/
def sysOf (mace Z i j : List ℕ) (N : ℕ) : Sys where
  N := N
  types := (List.range N).map (elem mace Z)
  nn := (List.range N).map (fun a => i.count a)
  idx := j
  ntypes := j.map (elem mace Z)

/-- Pair vectors for positions `x` and cell shifts `S`. -/
def vecs (i j : List ℕ) (S x : ℕ → ℕ → ℝ) (e c : ℕ) : ℝ := x (nthN j e) c - x (nthN i e) c + S e c

end Verif.ASE
