import Mathlib.Data.List.Basic

/-! # Specification of the order of species pairs -/

namespace Verif.Spec

/-- Pairs `(a, b)` with `a ≤ b < n`, in the order of the loops `for a in range(n): for b in range(a, n)` with which
`extract_mace_data.py` writes the tables. -/
def pairList (n : ℕ) : List (ℕ × ℕ) := (List.range n).flatMap (fun a => (List.range' a (n - a)).map (fun b => (a, b)))

/-- Position of the unordered pair `{a, b}` in that list. -/
def pairPos (n a b : ℕ) : ℕ := (pairList n).idxOf (min a b, max a b)

end Verif.Spec
