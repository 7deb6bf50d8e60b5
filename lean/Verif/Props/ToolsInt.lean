import Verif.Model.ToolsInt
import Mathlib.Data.Nat.Choose.Basic
import Mathlib.Algebra.BigOperators.Group.List.Basic
import Mathlib.Algebra.Order.BigOperators.Group.List
import Mathlib.Tactic.Linarith

/-! # C122: `_binomial_coefficient` and `_sum` when the value fits an `int` -/

namespace Verif.ToolsInt

theorem isInt_zero : IsInt 0 := ⟨by norm_num, by norm_num⟩

theorem isInt_one : IsInt 1 := ⟨by norm_num, by norm_num⟩

theorem isInt_add_left {a b : ℤ} (ha : 0 ≤ a) (hb : 0 ≤ b) (h : IsInt (a + b)) : IsInt a := by unfold IsInt at *; omega

theorem isInt_add_right {a b : ℤ} (ha : 0 ≤ a) (hb : 0 ≤ b) (h : IsInt (a + b)) : IsInt b := by unfold IsInt at *; omega

theorem binomial_out {n k : ℤ} (h : k < 0 ∨ k > n) : binomial n k = some 0 := by
  unfold binomial; rw [if_pos h]

theorem binomial_edge {n k : ℤ} (h : ¬ (k < 0 ∨ k > n)) (h' : k = 0 ∨ k = n) : binomial n k = some 1 := by
  unfold binomial; rw [if_neg h, if_pos h']

theorem binomial_in {n k : ℤ} (h : ¬ (k < 0 ∨ k > n)) (h' : ¬ (k = 0 ∨ k = n)) :
    binomial n k = (binomial (n - 1) (k - 1)).bind fun a => (binomial (n - 1) k).bind fun b => add a b := by
  conv_lhs => unfold binomial
  rw [if_neg h, if_neg h']
  rfl

theorem binomial_choose (n k : ℕ) : binomial n k = if IsInt (n.choose k) then some (n.choose k : ℤ) else none := by
  induction n generalizing k with
  | zero =>
    cases k with
    | zero => rw [binomial_edge (by omega) (Or.inl Nat.cast_zero), Nat.choose_self, Nat.cast_one, if_pos isInt_one]
    | succ k => rw [binomial_out (Or.inr (by push_cast; omega)), Nat.choose_zero_succ, Nat.cast_zero, if_pos isInt_zero]
  | succ n ih =>
    rcases Nat.lt_trichotomy k (n + 1) with h | rfl | h
    · cases k with
      | zero => rw [binomial_edge (by omega) (Or.inl Nat.cast_zero), Nat.choose_zero_right, Nat.cast_one, if_pos isInt_one]
      | succ k =>
        have hk : ((k + 1 : ℕ) : ℤ) - 1 = (k : ℤ) := by push_cast; omega
        have hn : ((n + 1 : ℕ) : ℤ) - 1 = (n : ℤ) := by push_cast; omega
        rw [binomial_in (by push_cast; omega) (by push_cast; omega), hk, hn, ih, ih, Nat.choose_succ_succ, Nat.cast_add]
        have p1 : (0 : ℤ) ≤ n.choose k := Int.natCast_nonneg _
        have p2 : (0 : ℤ) ≤ n.choose (k + 1) := Int.natCast_nonneg _
        by_cases h3 : IsInt ((n.choose k : ℤ) + (n.choose (k + 1) : ℤ))
        · rw [if_pos (isInt_add_left p1 p2 h3), if_pos (isInt_add_right p1 p2 h3), if_pos h3, Option.bind_some, Option.bind_some, add, if_pos h3]
        · rw [if_neg h3]
          split
          · rw [Option.bind_some]
            split
            · rw [Option.bind_some, add, if_neg h3]
            · rfl
          · rfl
    · rw [binomial_edge (by omega) (Or.inr rfl), Nat.choose_self, Nat.cast_one, if_pos isInt_one]
    · rw [binomial_out (Or.inr (by push_cast; omega)), Nat.choose_eq_zero_of_lt h, Nat.cast_zero, if_pos isInt_zero]

theorem add_some {a b x : ℤ} (h : add a b = some x) : x = a + b := by
  unfold add at h
  split at h
  · exact (Option.some.inj h).symm
  · cases h

theorem eval_sum {t : Tree} {x : ℤ} (h : t.eval = some x) : x = t.leaves.sum := by
  induction t generalizing x with
  | leaf y => simpa [Tree.eval, Tree.leaves] using h.symm
  | node l r hl hr =>
    simp only [Tree.eval, Option.bind_eq_bind, Option.bind_eq_some_iff] at h
    obtain ⟨a, ha, b, hb, hx⟩ := h
    rw [add_some hx, hl ha, hr hb]
    simp [Tree.leaves]

/-- Every partial sum fits if the sum of the absolute values does. -/
theorem eval_abs {t : Tree} (h : (t.leaves.map (|·|)).sum < 2147483648) :
    t.eval = some t.leaves.sum ∧ |t.leaves.sum| ≤ (t.leaves.map (|·|)).sum := by
  induction t with
  | leaf y => simp [Tree.eval, Tree.leaves]
  | node l r hl hr =>
    have nn : ∀ v : List ℤ, 0 ≤ (v.map (|·|)).sum := fun v => List.sum_nonneg fun x hx => by
      obtain ⟨y, -, rfl⟩ := List.mem_map.1 hx
      exact abs_nonneg y
    simp only [Tree.leaves, List.map_append, List.sum_append] at h ⊢
    have h1 := nn l.leaves
    have h2 := nn r.leaves
    obtain ⟨e1, b1⟩ := hl (by omega)
    obtain ⟨e2, b2⟩ := hr (by omega)
    have b : |l.leaves.sum + r.leaves.sum| ≤ (l.leaves.map (|·|)).sum + (r.leaves.map (|·|)).sum := (abs_add_le _ _).trans (by omega)
    refine ⟨?_, b⟩
    have := abs_le.1 b
    simp only [Tree.eval, e1, e2, Option.bind_eq_bind, Option.bind_some, add]
    rw [if_pos (by unfold IsInt; omega)]

theorem perm_leftToRight (v : List ℤ) : (Tree.leftToRight v).leaves = 0 :: v := by
  have : ∀ (v : List ℤ) (t : Tree), (v.foldl (fun t x => Tree.node t (.leaf x)) t).leaves = t.leaves ++ v := by
    intro v
    induction v with
    | nil => simp
    | cons a v ih => intro t; rw [List.foldl_cons, ih]; simp [Tree.leaves]
  unfold Tree.leftToRight
  simpa [Tree.leaves] using this v (.leaf 0)

theorem fours_leaves (v : List ℤ) (t : Tree) : (t.fours v).leaves = t.leaves ++ v := by
  have : ∀ (v : List ℤ) (t : Tree), (v.foldl (fun t x => Tree.node t (.leaf x)) t).leaves = t.leaves ++ v := by
    intro v
    induction v with
    | nil => simp
    | cons a v ih => intro t; rw [List.foldl_cons, ih]; simp [Tree.leaves]
  fun_induction Tree.fours t v with
  | case1 t a b c d v ih => rw [ih]; simp [Tree.leaves]
  | case2 t v _ => exact this v t

end Verif.ToolsInt

namespace Verif.Props
open Verif.ToolsInt

/-- C122, `_binomial_coefficient`: the exact value if it is an `int`, overflow otherwise; intermediate results add no limit. -/
theorem C122_binomial (n k : ℕ) : binomial n k = if n.choose k < 2 ^ 31 then some (n.choose k : ℤ) else none := by
  rw [binomial_choose]
  have : IsInt (n.choose k) ↔ n.choose k < 2 ^ 31 := by unfold IsInt; omega
  simp only [this]

/-- C122, `_binomial_coefficient` outside `0 ≤ k ≤ n`. -/
theorem C122_binomial_outside (n k : ℤ) (h : k < 0 ∨ n < k) : binomial n k = some 0 := by
  unfold binomial
  rw [if_pos (by omega)]

/-- C122, `_sum`: whatever the order and grouping, a sum without overflow is the sum. -/
theorem C122_sum_value {v : List ℤ} {t : Tree} (ht : Sums v t) {x : ℤ} (h : t.eval = some x) : x = v.sum := by
  rw [eval_sum h, ht.sum_eq, List.sum_cons, zero_add]

/-- C122, `_sum`, when the absolute values add up to less than `2^31`.  (Missing: other lists whose sum is an `int`, for which the claim is
false.) -/
theorem C122_sum_partial {v : List ℤ} {t : Tree} (ht : Sums v t) (h : (v.map (|·|)).sum < 2 ^ 31) : t.eval = some v.sum := by
  have e := ht.map (|·|)
  have := (eval_abs (t := t) (by rw [e.sum_eq]; simpa using h)).1
  rw [this, ht.sum_eq, List.sum_cons, zero_add]

/-- C122, `_sum` of numbers that are not negative: exact value if it is an `int`, overflow otherwise. -/
theorem C122_sum_nonneg {v : List ℤ} {t : Tree} (ht : Sums v t) (hv : ∀ x ∈ v, 0 ≤ x) :
    t.eval = if v.sum < 2 ^ 31 then some v.sum else none := by
  have hm : v.map (|·|) = v := by
    conv_rhs => rw [← List.map_id v]
    exact List.map_congr_left fun x hx => abs_of_nonneg (hv x hx)
  split
  · rename_i h
    exact C122_sum_partial ht (by rwa [hm])
  · rename_i h
    cases e : t.eval with
    | none => rfl
    | some x =>
      exfalso
      have hx := C122_sum_value ht e
      cases t with
      | leaf y =>
        have := ht.length_eq
        simp only [Tree.leaves, List.length_cons, List.length_nil] at this
        have hv0 : v = [] := List.length_eq_zero_iff.1 (by omega)
        subst hv0
        simp at h
      | node l r =>
        simp only [Tree.eval, Option.bind_eq_bind, Option.bind_eq_some_iff] at e
        obtain ⟨a, -, b, -, e⟩ := e
        have hs := add_some e
        unfold add at e
        split at e
        · rename_i hi
          unfold IsInt at hi
          omega
        · cases e

/-- The orders of addition considered include adding from left to right and what libstdc++ does. -/
theorem C122_orders (v : List ℤ) : Sums v (Tree.leftToRight v) ∧ Sums v ((Tree.leaf 0).fours v) := by
  unfold Sums
  rw [perm_leftToRight, fours_leaves]
  exact ⟨.refl _, .refl _⟩

/-- C122 is violated by `_sum`: the sum is an `int`, the additions overflow, from left to right and as in libstdc++. -/
theorem C122_sum_violated : IsInt ([2147483647, 1, -1].sum) ∧ (Tree.leftToRight [2147483647, 1, -1]).eval = none ∧
    ((Tree.leaf 0).fours [2147483647, 1, -1, -1]).eval = none := by
  refine ⟨by decide, by decide, by decide⟩

/-- The smallest argument for which `_binomial_coefficient` overflows in the middle of its row. -/
theorem C122_binomial_34 : binomial 33 16 = some 1166803110 ∧ binomial 34 17 = none := by
  have h1 := C122_binomial 33 16
  have h2 := C122_binomial 34 17
  rw [show Nat.choose 33 16 = 1166803110 by decide +kernel] at h1
  rw [show Nat.choose 34 17 = 2333606220 by decide +kernel] at h2
  exact ⟨by simpa using h1, by simpa using h2⟩

/-- Non-trivial instance: negative numbers, grouping of libstdc++. -/
example : ((Tree.leaf 0).fours [3, -4, 5, 6, -7]).eval = some 3 := C122_sum_partial (v := [3, -4, 5, 6, -7]) (C122_orders _).2 (by decide)

/-- Non-trivial instance for numbers that are not negative and whose sum is too large. -/
example : ((Tree.leaf 0).fours [2147483647, 1]).eval = none :=
  (C122_sum_nonneg (v := [2147483647, 1]) (C122_orders _).2 (by decide)).trans (by decide)

/-- Non-trivial instance outside the triangle. -/
example : binomial 3 7 = some 0 := C122_binomial_outside 3 7 (by decide)

end Verif.Props
