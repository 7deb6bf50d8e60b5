import Mathlib.Data.List.Sort
import Mathlib.Data.Int.Basic

/-!
# Model of `libsymmetrix/source/tools.hpp` and `tools.cpp`

`int` values are mathematical integers (no overflow).
-/

namespace Verif.Tools

/-- `_binomial_coefficient(int n, int k)`, tools.cpp:8-17. -/
def binomialCoefficient (n k : ℤ) : ℤ :=
  if k < 0 ∨ k > n then 0
  else if k = 0 ∨ k = n then 1
  else binomialCoefficient (n - 1) (k - 1) + binomialCoefficient (n - 1) k
termination_by n.toNat
decreasing_by all_goals omega

/-- `_sum`, tools.cpp:19-22 (`std::reduce` of integers). -/
def sum (v : List ℤ) : ℤ := v.foldl (· + ·) 0

/-- Body of the loop over `prev_partitions` in `_partitions`, tools.cpp:36-47: append the singleton block
`{x}`, then append `x` to each block `j` in turn. -/
def partStep {α : Type*} (x : α) (prev : List (List (List α))) : List (List (List α)) :=
  prev.flatMap fun p => (p ++ [[x]]) :: (List.range p.length).map (fun j => p.modify j (· ++ [x]))

/-- `_partitions` up to the final `std::sort`, tools.cpp:24-48. -/
def partitionsUnsorted {α : Type*} : List α → List (List (List α))
  | [] => []
  | v0 :: vs => vs.foldl (fun ps x => partStep x ps) [[[v0]]]

/-- `std::sort` with a comparison of sizes (tools.cpp:59-64, 101-107): some permutation of the input in which
sizes never decrease; which one is unspecified because `std::sort` is not stable. -/
def SortedBySize {α : Type*} (inp out : List (List α)) : Prop :=
  out.Perm inp ∧ out.Pairwise (fun a b => a.length ≤ b.length)

/-- `_partitions(v)` may return `out`, tools.cpp:24-67. -/
def Partitions {α : Type*} (v : List α) (out : List (List (List α))) : Prop :=
  SortedBySize (partitionsUnsorted v) out

/-- Body of the loop over `prev_partitions` in `_two_part_partitions`, tools.cpp:81-95. -/
def twoPartStep {α : Type*} (x : α) (prev : List (List (List α))) : List (List (List α)) :=
  prev.flatMap fun p =>
    (if p.length = 1 then [p ++ [[x]]] else []) ++
    (if p.length ≤ 2 then (List.range p.length).map (fun j => p.modify j (· ++ [x])) else [])

/-- `_two_part_partitions` up to the final `std::sort` (including the `std::erase_if`), tools.cpp:69-98. -/
def twoPartUnsorted {α : Type*} : List α → List (List (List α))
  | [] => []
  | v0 :: vs => (vs.foldl (fun ps x => twoPartStep x ps) [[[v0]]]).filter (fun p => p.length ≠ 1)

/-- `_two_part_partitions(v)` may return `out`, tools.cpp:69-109. -/
def TwoPartPartitions {α : Type*} (v : List α) (out : List (List (List α))) : Prop :=
  SortedBySize (twoPartUnsorted v) out

/-- Replace the last element of `s` that is `> a` by `a`; returns that element and the new list.
This is the search `while (!(*i < *--j))` and `std::iter_swap` of `std::next_permutation`. -/
def swapLast (a : ℕ) : List ℕ → Option (ℕ × List ℕ)
  | [] => none
  | b :: s =>
    match swapLast a s with
    | some (c, s') => some (c, b :: s')
    | none => if a < b then some (b, a :: s) else none

/-- `std::next_permutation` (standard algorithm, written as a recursion from the back of the list): find the
rightmost ascent, swap its left element with the last larger one, reverse the tail.
`none` is the return value `false` (the list was the last permutation). -/
def nextPermutation : List ℕ → Option (List ℕ)
  | [] => none
  | a :: s =>
    match nextPermutation s with
    | some s' => some (a :: s')
    | none =>
      match swapLast a s with
      | some (b, s') => some (b :: s'.reverse)
      | none => none

/-- The `while (std::next_permutation(...)) push_back` loop, tools.cpp:117-118, cut off after `fuel` rounds
(`none` = not finished within `fuel` rounds). -/
def permLoop : ℕ → List ℕ → Option (List (List ℕ))
  | 0, _ => none
  | fuel + 1, v =>
    match nextPermutation v with
    | none => some []
    | some v' => (permLoop fuel v').map (v' :: ·)

/-- `_permutations(size)`, tools.cpp:111-120, with the loop cut off after `fuel` rounds. -/
def permutations (fuel size : ℕ) : Option (List (List ℕ)) :=
  (permLoop fuel (List.range size)).map (List.range size :: ·)

/-- `_combinations(set, k)`, tools.cpp:122-130; `none` is the `std::invalid_argument` exception.
Indices come from the two loops, so `set[i]` and `set[j]` are in range. -/
def combinations {α : Type*} (set : List α) (k : ℤ) : Option (List (List α)) :=
  if k ≠ 2 then none
  else
    some ((List.range set.length).flatMap fun i =>
      ((List.range set.length).drop (i + 1)).filterMap fun j =>
        match set[i]?, set[j]? with
        | some a, some b => some [a, b]
        | _, _ => none)

/-- `_product(inputs)`, tools.hpp:17-32. -/
def product {α : Type*} (inputs : List (List α)) : List (List α) :=
  inputs.foldl (fun outputs input => outputs.flatMap fun output => input.map fun i => output ++ [i]) [[]]

/-- `_product_repeat(input, repeat)`, tools.cpp:132-137. -/
def productRepeat {α : Type*} (input : List α) (rep : ℕ) : List (List α) :=
  product (List.replicate rep input)

/-- `_generate_indices(dim, max)`, tools.cpp:139-147. -/
def generateIndices (dim max : ℕ) : List (List ℕ) :=
  product (List.replicate dim (List.range max))

end Verif.Tools
