import Verif.Spec.Rounding
import Mathlib.Tactic.Linarith
import Mathlib.Tactic.NormNum
import Mathlib.Tactic.FieldSimp
import Mathlib.Tactic.Positivity
import Mathlib.Tactic.Ring

/-! # Rounding to nearest has a small relative error -/

namespace Verif.Rounding
open Verif.Spec

theorem nearestEven_err (x : ℝ) : |(nearestEven x : ℝ) - x| ≤ 1 / 2 := by
  have h1 := Int.floor_le x
  have h2 := Int.lt_floor_add_one x
  unfold nearestEven
  split_ifs <;> rw [abs_le] <;> push_cast <;> constructor <;> linarith

theorem roundTo_err (p : ℕ) : IsRounding (roundTo p) (1 / 2 ^ p) := by
  refine ⟨by positivity, fun x => ?_⟩
  unfold roundTo
  have hs : (0 : ℝ) < 2 ^ (Int.log 2 |x| + 1 - p) := zpow_pos (by norm_num) _
  have h1 := nearestEven_err (x / 2 ^ (Int.log 2 |x| + 1 - p))
  by_cases hx : x = 0
  · subst hx
    have : nearestEven 0 = 0 := by simp [nearestEven]
    simp [this]
  · have hp := Int.zpow_log_le_self (b := 2) (by norm_num) (abs_pos.mpr hx)
    push_cast at hp
    have e : ∀ y : ℝ, y * 2 ^ (Int.log 2 |x| + 1 - p) - x = (y - x / 2 ^ (Int.log 2 |x| + 1 - p)) * 2 ^ (Int.log 2 |x| + 1 - p) := by
      intro y; field_simp
    rw [e, abs_mul, abs_of_pos hs]
    refine (mul_le_mul_of_nonneg_right h1 hs.le).trans ?_
    rw [zpow_sub₀ (by norm_num), zpow_add₀ (by norm_num), zpow_one, zpow_natCast]
    have : (1 : ℝ) / 2 * (2 ^ Int.log 2 |x| * 2 / 2 ^ p) = 1 / 2 ^ p * 2 ^ Int.log 2 |x| := by ring
    rw [this]
    exact mul_le_mul_of_nonneg_left hp (by positivity)

/-- The `double` nearest to `1/10`. -/
noncomputable def tenth : ℝ := 3602879701896397 / 36028797018963968

/-- In `double` arithmetic `1.0/0.1` is `10`, although `1 < 10 * 0.1` for the stored value of `0.1`. -/
theorem quotient : roundTo 53 (1 / tenth) = 10 ∧ 1 < tenth * 10 := by
  constructor
  · have hf : ⌊(1 : ℝ) / tenth⌋₊ = 9 := by
      rw [Nat.floor_eq_iff (by unfold tenth; positivity)]
      unfold tenth
      constructor <;> norm_num
    have hl : Int.log 2 |(1 : ℝ) / tenth| = 3 := by
      rw [abs_of_pos (by unfold tenth; positivity), Int.log_of_one_le_right _ (by unfold tenth; norm_num), hf]
      decide
    unfold roundTo
    rw [hl]
    have hv : (1 : ℝ) / tenth / 2 ^ ((3 : ℤ) + 1 - (53 : ℕ)) = 20282409603651670423947251286016 / 3602879701896397 := by
      unfold tenth; norm_num
    rw [hv]
    have hfl : ⌊(20282409603651670423947251286016 / 3602879701896397 : ℝ)⌋ = 5629499534213119 := by
      rw [Int.floor_eq_iff]; constructor <;> norm_num
    unfold nearestEven
    rw [hfl, if_neg (by norm_num), if_pos (by norm_num)]
    norm_num
  · unfold tenth; norm_num

end Verif.Rounding
