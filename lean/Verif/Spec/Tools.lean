import Mathlib.Data.List.Basic
import Mathlib.Algebra.BigOperators.Group.List.Basic

/-! # Specifications for the combinatorial helpers (no reference to the model) -/

namespace Verif.Spec

/-- `P` is the partition of the list `v` into blocks in canonical form: no empty block, every element of `v`
in exactly one block, elements inside a block in the order of `v`, blocks in the order of their first
elements. -/
structure IsPartition {α : Type*} (v : List α) (P : List (List α)) : Prop where
  nonempty : ∀ b ∈ P, b ≠ []
  perm : P.flatten.Perm v
  inOrder : ∀ b ∈ P, b.Sublist v
  heads : (P.filterMap List.head?).Sublist v

/-- Position of the tuple `q` among all tuples with `q i < dims i`, last component fastest. -/
def mixedRadixRank : List ℕ → List ℕ → ℕ
  | _ :: ns, q :: qs => q * ns.prod + mixedRadixRank ns qs
  | _, _ => 0

/-- Choose element `q i` from `inputs i`. -/
def pick {α : Type*} : List (List α) → List ℕ → Option (List α)
  | [], [] => some []
  | l :: ls, q :: qs => do
    let a ← l[q]?
    let t ← pick ls qs
    pure (a :: t)
  | _, _ => none

end Verif.Spec
