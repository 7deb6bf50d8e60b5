import Verif.Spec.Rounding
import Mathlib.Tactic.Linarith
import Mathlib.Tactic.Positivity
import Mathlib.Tactic.FieldSimp
import Mathlib.Tactic.Ring
import Mathlib.Tactic.GCongr
import Mathlib.Tactic.NormNum

/-! # Error bounds of rounded expressions -/

namespace Verif.Rounding
open Verif.Spec

/-- `y` is an approximation of `x` with error at most `k ε A`, and `x` is at most `m A`. -/
structure Near (ε A k m y x : ℝ) : Prop where
  e0 : 0 ≤ ε
  A0 : 0 ≤ A
  k0 : 0 ≤ k
  m0 : 0 ≤ m
  small : k * ε ≤ 1 / 8
  err : |y - x| ≤ k * ε * A
  size : |x| ≤ m * A

variable {ε A B k m k' m' l x y x' y' u : ℝ} {fl : ℝ → ℝ}

theorem Near.exact (e0 : 0 ≤ ε) (A0 : 0 ≤ A) (m0 : 0 ≤ m) (h : |x| ≤ m * A) : Near ε A 0 m x x :=
  ⟨e0, A0, le_rfl, m0, by linarith, by simp, h⟩

theorem Near.bound (h : Near ε A k m y x) : |y| ≤ (m + 1 / 8) * A := by
  have h1 : |y| ≤ |y - x| + |x| := by have := abs_add_le (y - x) x; simpa using this
  have h2 : k * ε * A ≤ 1 / 8 * A := mul_le_mul_of_nonneg_right h.small h.A0
  have := h.err
  have := h.size
  linarith [add_mul m (1 / 8) A]

theorem Near.round (h : Near ε A k m y x) (hf : IsRounding fl u) (hu : u ≤ ε) (hk : k + m + 1 / 8 ≤ l) (hs : l * ε ≤ 1 / 8) :
    Near ε A l m (fl y) x := by
  have h1 : |fl y - x| ≤ |fl y - y| + |y - x| := abs_sub_le _ _ _
  have h2 : |fl y - y| ≤ ε * ((m + 1 / 8) * A) :=
    (hf.err y).trans (mul_le_mul hu h.bound (abs_nonneg _) h.e0)
  have h3 := h.err
  have h4 : (k + m + 1 / 8) * (ε * A) ≤ l * (ε * A) := mul_le_mul_of_nonneg_right hk (mul_nonneg h.e0 h.A0)
  exact ⟨h.e0, h.A0, by linarith [h.k0, h.m0], h.m0, hs, by nlinarith, h.size⟩

theorem Near.add (h : Near ε A k m y x) (h' : Near ε A k' m' y' x') (hs : (k + k') * ε ≤ 1 / 8) :
    Near ε A (k + k') (m + m') (y + y') (x + x') := by
  refine ⟨h.e0, h.A0, add_nonneg h.k0 h'.k0, add_nonneg h.m0 h'.m0, hs, ?_, ?_⟩
  · rw [show y + y' - (x + x') = (y - x) + (y' - x') by ring]
    have := abs_add_le (y - x) (y' - x')
    linarith [h.err, h'.err, add_mul k k' (ε * A)]
  · have := abs_add_le x x'
    linarith [h.size, h'.size, add_mul m m' A]

theorem Near.neg (h : Near ε A k m y x) : Near ε A k m (-y) (-x) := by
  refine ⟨h.e0, h.A0, h.k0, h.m0, h.small, ?_, by rw [abs_neg]; exact h.size⟩
  rw [show -y - -x = -(y - x) by ring, abs_neg]
  exact h.err

theorem Near.sub (h : Near ε A k m y x) (h' : Near ε A k' m' y' x') (hs : (k + k') * ε ≤ 1 / 8) :
    Near ε A (k + k') (m + m') (y - y') (x - x') := by
  rw [sub_eq_add_neg, sub_eq_add_neg]
  exact h.add h'.neg hs

theorem Near.mul (h : Near ε A k m y x) (h' : Near ε B k' m' y' x') (hk : k * (m' + 1 / 8) + m * k' ≤ l) (hs : l * ε ≤ 1 / 8) :
    Near ε (A * B) l (m * m') (y * y') (x * x') := by
  have k0 := h.k0
  have m0 := h.m0
  have e0 := h.e0
  have A0 := h.A0
  have B0 := h'.A0
  refine ⟨e0, mul_nonneg A0 B0, ?_, mul_nonneg m0 h'.m0, hs, ?_, ?_⟩
  · have := mul_nonneg k0 (by linarith [h'.m0] : 0 ≤ m' + 1 / 8)
    have := mul_nonneg m0 h'.k0
    linarith
  · rw [show y * y' - x * x' = (y - x) * y' + x * (y' - x') by ring]
    have h1 := abs_add_le ((y - x) * y') (x * (y' - x'))
    rw [abs_mul, abs_mul] at h1
    have h2 : |y - x| * |y'| ≤ (k * ε * A) * ((m' + 1 / 8) * B) :=
      mul_le_mul h.err h'.bound (abs_nonneg _) (by positivity)
    have h3 : |x| * |y' - x'| ≤ (m * A) * (k' * ε * B) := mul_le_mul h.size h'.err (abs_nonneg _) (by positivity)
    have h4 : (k * (m' + 1 / 8) + m * k') * (ε * (A * B)) ≤ l * (ε * (A * B)) :=
      mul_le_mul_of_nonneg_right hk (by positivity)
    nlinarith
  · rw [abs_mul]
    have : |x| * |x'| ≤ (m * A) * (m' * B) := mul_le_mul h.size h'.size (abs_nonneg _) (by positivity)
    linarith [show (m * A) * (m' * B) = m * m' * (A * B) by ring]

/-- Division by an approximation of `B` itself. -/
theorem Near.div (h : Near ε A k m y x) (h' : Near ε B k' 1 y' B) (hB : 0 < B) (hk : 8 / 7 * (k + m * k') ≤ l) (hs : l * ε ≤ 1 / 8) :
    Near ε (A / B) l m (y / y') (x / B) := by
  have k0 := h.k0
  have m0 := h.m0
  have e0 := h.e0
  have A0 := h.A0
  have l0 : 0 ≤ l := by
    have := mul_nonneg m0 h'.k0
    linarith
  have hy : 7 / 8 * B ≤ y' := by
    have h1 : k' * ε * B ≤ 1 / 8 * B := mul_le_mul_of_nonneg_right h'.small hB.le
    have := (abs_le.mp h'.err).1
    linarith
  have hy0 : 0 < y' := by linarith
  refine ⟨e0, by positivity, l0, m0, hs, ?_, ?_⟩
  · have e1 : y / y' - x / B = ((y - x) * B + x * (B - y')) / (y' * B) := by field_simp; ring
    rw [e1, abs_div, abs_of_pos (by positivity : 0 < y' * B), div_le_iff₀ (by positivity)]
    have h1 := abs_add_le ((y - x) * B) (x * (B - y'))
    rw [abs_mul, abs_mul, abs_of_pos hB, abs_sub_comm B y'] at h1
    have h2 : |y - x| * B ≤ (k * ε * A) * B := mul_le_mul_of_nonneg_right h.err hB.le
    have h3 : |x| * |y' - B| ≤ (m * A) * (k' * ε * B) := mul_le_mul h.size h'.err (abs_nonneg _) (by positivity)
    have h4 : l * ε * (A / B) * (y' * B) = l * ε * A * y' := by field_simp
    rw [h4]
    have h5 : l * ε * A * (7 / 8 * B) ≤ l * ε * A * y' := mul_le_mul_of_nonneg_left hy (by positivity)
    have h6 : (8 / 7 * (k + m * k')) * (ε * A * B) ≤ l * (ε * A * B) := mul_le_mul_of_nonneg_right hk (by positivity)
    nlinarith
  · rw [abs_div, abs_of_pos hB, ← mul_div_assoc]
    exact div_le_div_of_nonneg_right h.size hB.le

theorem Near.sized (h : Near ε A k m y x) (e : m = m') : Near ε A k m' y x := e ▸ h

theorem Near.scale (h : Near ε A k m y x) (e : A = B) : Near ε B k m y x := e ▸ h

end Verif.Rounding
