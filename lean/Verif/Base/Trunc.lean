import Mathlib.Algebra.Order.Floor.Ring
import Mathlib.Algebra.Order.Floor.Defs
import Mathlib.Algebra.Order.Field.Basic
import Mathlib.Tactic.Linarith

/-! # `static_cast<int>(double)` -/

namespace Verif

variable {K : Type*} [Field K] [LinearOrder K] [IsStrictOrderedRing K] [FloorRing K]

/-- `static_cast<int>(x)`: truncation toward zero (values outside `int` are not modelled). -/
def truncInt (x : K) : ℤ := if 0 ≤ x then ⌊x⌋ else ⌈x⌉

theorem truncInt_of_nonneg {x : K} (h : 0 ≤ x) : truncInt x = ⌊x⌋ := if_pos h

theorem truncInt_of_neg {x : K} (h : x < 0) : truncInt x = ⌈x⌉ := if_neg (not_le.mpr h)

theorem truncInt_neg_iff {x : K} : truncInt x < 0 ↔ x ≤ -1 := by
  by_cases h : 0 ≤ x
  · rw [truncInt_of_nonneg h]
    have : 0 ≤ ⌊x⌋ := Int.floor_nonneg.mpr h
    constructor
    · intro h'; omega
    · intro h'; linarith
  · rw [truncInt_of_neg (not_le.mp h)]
    constructor
    · intro h'
      have : ⌈x⌉ ≤ -1 := by omega
      have := Int.ceil_le.mp this
      simpa using this
    · intro h'
      have : ⌈x⌉ ≤ -1 := Int.ceil_le.mpr (by simpa using h')
      omega

/-- For `r` in the `i`-th interval of width `h`, the computed index is `i`. -/
theorem truncInt_div {r h : K} (hh : 0 < h) (i : ℕ) (h1 : h * i ≤ r) (h2 : r < h * (i + 1)) :
    truncInt (r / h) = i := by
  have hr : 0 ≤ r := le_trans (by positivity) h1
  rw [truncInt_of_nonneg (div_nonneg hr hh.le), Int.floor_eq_iff]
  constructor
  · rw [le_div_iff₀ hh]; push_cast; linarith
  · rw [div_lt_iff₀ hh]; push_cast; linarith

/-- `truncInt (r/h) < m` for a natural number `m ≥ 1`. -/
theorem truncInt_div_lt_iff {r h : K} (hh : 0 < h) {m : ℕ} (hm : 1 ≤ m) :
    truncInt (r / h) < m ↔ r < h * m := by
  by_cases hr : 0 ≤ r
  · rw [truncInt_of_nonneg (div_nonneg hr hh.le), Int.floor_lt, div_lt_iff₀ hh]
    push_cast; rw [mul_comm]
  · have hr' := not_le.mp hr
    have : r / h < 0 := div_neg_of_neg_of_pos hr' hh
    rw [truncInt_of_neg this]
    constructor
    · intro _
      have : 0 ≤ h * m := by positivity
      linarith
    · intro _
      have : ⌈r / h⌉ ≤ 0 := Int.ceil_le.mpr (by push_cast; linarith)
      omega

end Verif
