import Mathlib.Data.Int.Basic

/-!
# `_binomial_coefficient` and `_sum` with `int` arithmetic

`none` is overflow (undefined behaviour).
-/

namespace Verif.ToolsInt

/-- The value is an `int` of 32 bits. -/
def IsInt (x : ℤ) : Prop := -2147483648 ≤ x ∧ x < 2147483648

instance (x : ℤ) : Decidable (IsInt x) := inferInstanceAs (Decidable (_ ∧ _))

/-- `a + b` -/
def add (a b : ℤ) : Option ℤ := if IsInt (a + b) then some (a + b) else none

/-- `_binomial_coefficient(int n, int k)`, tools.cpp:8-17; `n-1` and `k-1` are only computed for `0 < k < n`. -/
def binomial (n k : ℤ) : Option ℤ :=
  if k < 0 ∨ k > n then some 0
  else if k = 0 ∨ k = n then some 1
  else do
    let a ← binomial (n - 1) (k - 1)
    let b ← binomial (n - 1) k
    add a b
termination_by n.toNat
decreasing_by all_goals omega

/-- A way of adding up: the standard lets `std::reduce` permute and group the elements (libstdc++ adds pairs of pairs). -/
inductive Tree where
  | leaf (x : ℤ)
  | node (l r : Tree)

/-- The numbers added, from left to right. -/
def Tree.leaves : Tree → List ℤ
  | .leaf x => [x]
  | .node l r => l.leaves ++ r.leaves

def Tree.eval : Tree → Option ℤ
  | .leaf x => some x
  | .node l r => do
    let a ← l.eval
    let b ← r.eval
    add a b

/-- `_sum(v)` may add up as `t`, tools.cpp:19-22: the elements and the initial value `int()`. -/
def Sums (v : List ℤ) (t : Tree) : Prop := t.leaves.Perm (0 :: v)

/-- Adding from left to right. -/
def Tree.leftToRight (v : List ℤ) : Tree := v.foldl (fun t x => .node t (.leaf x)) (.leaf 0)

/-- What libstdc++ does: four at a time, `init = init + ((v0 + v1) + (v2 + v3))`, the rest from left to right. -/
def Tree.fours (t : Tree) : List ℤ → Tree
  | a :: b :: c :: d :: v => Tree.fours (.node t (.node (.node (.leaf a) (.leaf b)) (.node (.leaf c) (.leaf d)))) v
  | v => v.foldl (fun t x => .node t (.leaf x)) t

end Verif.ToolsInt
