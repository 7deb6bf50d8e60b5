import Mathlib.Data.List.Basic
import Mathlib.Algebra.BigOperators.Group.List.Basic

/-!
# Specification: rectangular arrays and their row-major element order
-/

namespace Verif.Spec

/-- All elements of a nested vector, row by row. -/
def rows2 {K : Type} (x : List (List K)) : List K := x.flatten
def rows3 {K : Type} (x : List (List (List K))) : List K := (x.map List.flatten).flatten

/-- Every row has the same length. -/
def Rect2 {K : Type} (x : List (List K)) (n m : ℕ) : Prop := x.length = n ∧ ∀ r ∈ x, r.length = m
def Rect3 {K : Type} (x : List (List (List K))) (n m l : ℕ) : Prop := x.length = n ∧ ∀ r ∈ x, Rect2 r m l

end Verif.Spec
