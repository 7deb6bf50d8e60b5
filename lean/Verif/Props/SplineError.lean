import Verif.Lemmas.HermiteError
import Verif.Lemmas.Slopes
import Verif.Lemmas.Hermite
import Verif.Lemmas.Extract.Layers
import Mathlib.Tactic.IntervalCases
import Mathlib.Tactic.NormNum

/-! # Property theorems: accuracy of the splines (C95) -/

namespace Verif.Props
open Verif.Spline Verif.Spec Verif.Extract Verif.MACE Set

/-- C95: a spline made of values with error at most `ε` and slopes with error at most `δ` of a function with fourth derivative at most `B`
is, with its derivative, as close to the function as classical Hermite interpolation. -/
theorem C95_spline_error (h : ℝ) (hh : 0 < h) (vals derivs : List ℝ) (hlen : vals.length = derivs.length) (s : CubicSpline ℝ)
    (hs : CubicSpline.mk? h vals derivs = some s) (f f' : ℝ → ℝ) (B ε δ : ℝ) (hf : Smooth4 f f' 0 (h * (vals.length - 1 : ℕ)) B)
    (hv : ∀ i (hi : i < vals.length), |vals[i] - f (h * i)| ≤ ε) (hd : ∀ i (hi : i < derivs.length), |derivs[i] - f' (h * i)| ≤ δ)
    (r : ℝ) (h0 : 0 ≤ r) (h1 : r < h * (vals.length - 1 : ℕ)) :
    ∃ v w, s.evaluate r = .ret v ∧ s.evaluateDeriv r = .ret (v, w) ∧
      |v - f r| ≤ B * h ^ 4 / 384 + ε + δ * h / 4 ∧ |w - f' r| ≤ B * h ^ 3 / 24 + 3 * ε / h + δ := by
  obtain ⟨i, hi, hl, hr⟩ := exists_interval hh h0 h1
  have hi' : i + 1 < vals.length := by omega
  obtain ⟨e1, e2, _⟩ := eval_on hh (by omega) hlen.le hs hi' hl hr
  refine ⟨_, _, e1, e2, ?_⟩
  obtain ⟨f2, f3, f4, hf⟩ := hf
  have c1 : h * ((i + 1 : ℕ) : ℝ) = h * i + h := by push_cast; ring
  have c2 : h * i + h ≤ h * (vals.length - 1 : ℕ) := by
    rw [← c1]
    have : ((i + 1 : ℕ) : ℝ) ≤ (vals.length - 1 : ℕ) := by exact_mod_cast (by omega : i + 1 ≤ vals.length - 1)
    gcongr
  have c0 : 0 ≤ h * (i : ℝ) := by positivity
  have sub : ∀ t ∈ Icc (h * i) (h * i + h), 0 ≤ t ∧ t ≤ h * (vals.length - 1 : ℕ) := fun t ht => ⟨c0.trans ht.1, ht.2.trans c2⟩
  have hx : r - h * i ∈ Icc 0 h := ⟨by linarith, by linarith⟩
  obtain ⟨a1, a2⟩ := seg_error hh (fun t ht => (hf t (sub t ht).1 (sub t ht).2).1) (fun t ht => (hf t (sub t ht).1 (sub t ht).2).2.1)
    (fun t ht => (hf t (sub t ht).1 (sub t ht).2).2.2.1) (fun t ht => (hf t (sub t ht).1 (sub t ht).2).2.2.2.1)
    (fun t ht => (hf t (sub t ht).1 (sub t ht).2).2.2.2.2) hx
  have v1 := hv (i + 1) hi'
  have d1 := hd (i + 1) (by omega)
  rw [c1] at v1 d1
  obtain ⟨b1, b2⟩ := seg_small hh (hv i (by omega)) v1 (hd i (by omega)) d1 hx
  rw [← seg_sub] at b1
  rw [← segD_sub] at b2
  rw [show h * i + (r - h * i) = r by ring] at a1 a2
  constructor
  · have := (abs_sub_le _ _ _).trans (add_le_add b1 a1)
    linarith
  · have := (abs_sub_le _ _ _).trans (add_le_add b2 a2)
    linarith

/-- C95: the slopes the script stores exist and are unique for every table, and are accurate to third order if the function has zero
slope at the last node. -/
theorem C95_slopes {h : ℝ} (hh : 0 < h) {n : ℕ} (hn : 3 ≤ n) (y : ℕ → ℝ) :
    (∃ d, ScipySlopes h n y d) ∧ (∀ d d', ScipySlopes h n y d → ScipySlopes h n y d' → ∀ k < n, d k = d' k) ∧
    ∀ d, ScipySlopes h n y d → ∀ (f f' : ℝ → ℝ) (a B : ℝ), Smooth4 f f' a (a + (n - 1 : ℕ) * h) B → (∀ k < n, y k = f (a + k * h)) →
      f' (a + (n - 1 : ℕ) * h) = 0 → ∀ k < n, |d k - f' (a + k * h)| ≤ 7 / 24 * B * h ^ 3 := by
  obtain ⟨h1, h2⟩ := slopes_exist hh hn y
  refine ⟨h1, h2, ?_⟩
  rintro d hd f f' a B ⟨f2, f3, f4, hf⟩ hy he
  exact slopes_error hh hn hd (fun t ht => (hf t ht.1 ht.2).1) (fun t ht => (hf t ht.1 ht.2).2.1) (fun t ht => (hf t ht.1 ht.2).2.2.1)
    (fun t ht => (hf t ht.1 ht.2).2.2.2.1) (fun t ht => (hf t ht.1 ht.2).2.2.2.2) hy he

theorem step_pos {rcut : ℝ} (hr : 1e-12 < rcut) {n : ℕ} (hn : 2 ≤ n) : 0 < gridStep rcut n := by
  have : (0 : ℝ) < (n - 1 : ℕ) := by exact_mod_cast (by omega : 0 < n - 1)
  unfold gridStep
  exact div_pos (by linarith) this

theorem gridStep_end {rcut : ℝ} {n : ℕ} (hn : 2 ≤ n) : (n - 1 : ℕ) * gridStep rcut n = rcut - 1e-12 := by
  have : ((n - 1 : ℕ) : ℝ) ≠ 0 := by exact_mod_cast (by omega : n - 1 ≠ 0)
  unfold gridStep
  field_simp

/-- C95: what the evaluators use instead of a radial function `R` that has zero slope at the cutoff is `R (r + 1e-12)` up to the fourth power of
the step, and its derivative up to the third. -/
theorem C95_extracted {rcut : ℝ} (hr : 1e-12 < rcut) {n : ℕ} (hn : 3 ≤ n) {der : List ℝ → List ℝ} {R R' : ℝ → ℝ} {B : ℝ}
    (hs : ScipySlopes (gridStep rcut n) n (nth (tableOf rcut n R)) (nth (der (tableOf rcut n R))))
    (hR : Smooth4 R R' 1e-12 rcut B) (hend : R' rcut = 0) {r : ℝ} (h0 : 0 ≤ r) (h1 : r < rcut - 1e-12) :
    |splineOf rcut n der R r - R (r + 1e-12)| ≤ 29 / 384 * B * gridStep rcut n ^ 4 ∧
    |hermite' (gridStep rcut n) (nth (tableOf rcut n R)) (nth (der (tableOf rcut n R))) r - R' (r + 1e-12)| ≤ B * gridStep rcut n ^ 3 / 3 := by
  set h := gridStep rcut n with hdef
  have hh : 0 < h := step_pos hr (by omega)
  have hE : (n - 1 : ℕ) * h = rcut - 1e-12 := gridStep_end (by omega)
  have hlast : 1e-12 + (n - 1 : ℕ) * h = rcut := by linarith
  have hval : ∀ k < n, nth (tableOf rcut n R) k = R (1e-12 + k * h) := fun k hk => nth_map_range _ hk
  obtain ⟨i, hi, hl, hu⟩ := exists_interval hh (m := n - 1) h0 (by rw [mul_comm, hE]; exact h1)
  have key := (C95_slopes hh hn _).2.2 _ hs R R' 1e-12 B (by rw [hlast]; exact hR) hval (by rw [hlast]; exact hend)
  obtain ⟨f2, f3, f4, hf⟩ := hR
  have c1 : (1e-12 : ℝ) + ((i + 1 : ℕ) : ℝ) * h = 1e-12 + i * h + h := by push_cast; ring
  have c2 : 1e-12 + i * h + h ≤ rcut := by
    rw [← c1, ← hlast]
    have : ((i + 1 : ℕ) : ℝ) ≤ (n - 1 : ℕ) := by exact_mod_cast (by omega : i + 1 ≤ n - 1)
    gcongr
  have c0 : 0 ≤ (i : ℝ) * h := by positivity
  have sub : ∀ t ∈ Icc (1e-12 + i * h) (1e-12 + i * h + h), 1e-12 ≤ t ∧ t ≤ rcut := fun t ht => ⟨by linarith [ht.1], ht.2.trans c2⟩
  have hx : r - h * i ∈ Icc 0 h := ⟨by linarith, by linarith⟩
  obtain ⟨a1, a2⟩ := seg_error hh (fun t ht => (hf t (sub t ht).1 (sub t ht).2).1) (fun t ht => (hf t (sub t ht).1 (sub t ht).2).2.1)
    (fun t ht => (hf t (sub t ht).1 (sub t ht).2).2.2.1) (fun t ht => (hf t (sub t ht).1 (sub t ht).2).2.2.2.1)
    (fun t ht => (hf t (sub t ht).1 (sub t ht).2).2.2.2.2) hx
  have z : ∀ k, k < n → |nth (tableOf rcut n R) k - R (1e-12 + k * h)| ≤ 0 := fun k hk => by rw [hval k hk, sub_self, abs_zero]
  have v1 := z (i + 1) (by omega)
  have d1 := key (i + 1) (by omega)
  rw [c1] at v1 d1
  obtain ⟨b1, b2⟩ := seg_small hh (z i (by omega)) v1 (key i (by omega)) d1 hx
  rw [← seg_sub] at b1
  rw [← segD_sub] at b2
  rw [show 1e-12 + i * h + (r - h * i) = r + 1e-12 by ring] at a1 a2
  obtain ⟨s1, s2⟩ := hermite_eq_seg hh (v := nth (tableOf rcut n R)) (d := nth (der (tableOf rcut n R))) hl hu
  rw [s2]
  unfold splineOf
  rw [← hdef, s1]
  constructor
  · have := (abs_sub_le _ _ _).trans (add_le_add b1 a1)
    linarith
  · have := (abs_sub_le _ _ _).trans (add_le_add b2 a2)
    rw [mul_zero, zero_div] at this
    linarith

/-- The slopes of scipy's spline as a list, for `n` nodes with distance `h`. -/
noncomputable def scipyDer (h : ℝ) (n : ℕ) (v : List ℝ) : List ℝ :=
  open Classical in if hd : ∃ d, ScipySlopes h n (nth v) d then (List.range v.length).map hd.choose else v

theorem scipyDer_length (h : ℝ) (n : ℕ) (v : List ℝ) : (scipyDer h n v).length = v.length := by
  unfold scipyDer
  split_ifs <;> simp

theorem scipyDer_ok {h : ℝ} (hh : 0 < h) {n : ℕ} (hn : 3 ≤ n) {v : List ℝ} (hv : v.length = n) : ScipySlopes h n (nth v) (nth (scipyDer h n v)) := by
  have hd := (slopes_exist hh hn (nth v)).1
  unfold scipyDer
  rw [dif_pos hd]
  refine slopes_congr (by omega) hd.choose_spec fun k hk => ?_
  rw [hv]
  exact nth_map_range _ hk

theorem quartic_smooth (c a b : ℝ) : Smooth4 (fun r => (c - r) ^ 4) (fun r => -4 * (c - r) ^ 3) a b 24 := by
  refine ⟨fun r => 12 * (c - r) ^ 2, fun r => -24 * (c - r), fun _ => 24, fun t _ _ => ?_⟩
  have d := (hasDerivAt_id' t).const_sub c
  refine ⟨(d.pow 4).congr_deriv (by norm_num), ((d.pow 3).const_mul (-4)).congr_deriv (by norm_num; ring),
    ((d.pow 2).const_mul 12).congr_deriv (by norm_num; ring), (d.const_mul (-24)).congr_deriv (by norm_num), by norm_num⟩

/-- `(5 - r)⁴` with cutoff 5 and 200 nodes: the bound at `r = 1`. -/
example : |splineOf 5 200 (scipyDer (gridStep 5 200) 200) (fun r => (5 - r) ^ 4) 1 - (5 - (1 + 1e-12)) ^ 4|
    ≤ 29 / 384 * 24 * gridStep 5 200 ^ 4 :=
  (C95_extracted (by norm_num) (by norm_num) (scipyDer_ok (step_pos (by norm_num) (by norm_num)) (by norm_num) (tableOf_length _ _ _))
    (quartic_smooth 5 _ _) (by norm_num) (by norm_num) (by norm_num)).1

/-- Exact values and slopes of `(2 - r)⁴` at three nodes. -/
example : ∃ s v w, CubicSpline.mk? (1 : ℝ) [16, 1, 0] [-32, -4, 0] = some s ∧ s.evaluateDeriv (1 / 2) = .ret (v, w) ∧
    |v - (2 - 1 / 2) ^ 4| ≤ 1 / 16 := by
  obtain ⟨s, hs, _⟩ := mk?_spec (1 : ℝ) [16, 1, 0] [-32, -4, 0] (by simp) (by simp)
  obtain ⟨v, w, -, h2, h3, -⟩ := C95_spline_error (1 : ℝ) one_pos [16, 1, 0] [-32, -4, 0] rfl s hs (fun r => (2 - r) ^ 4) (fun r => -4 * (2 - r) ^ 3)
    24 0 0 (quartic_smooth 2 _ _) (by intro i hi; simp at hi; interval_cases i <;> norm_num) (by intro i hi; simp at hi; interval_cases i <;> norm_num)
    (1 / 2) (by norm_num) (by norm_num)
  exact ⟨s, v, w, hs, h2, h3.trans (by norm_num)⟩

end Verif.Props
