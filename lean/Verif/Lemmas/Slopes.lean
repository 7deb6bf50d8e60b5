import Verif.Spec.Slopes
import Mathlib.Analysis.Calculus.MeanValue
import Mathlib.Analysis.Calculus.Deriv.Shift
import Mathlib.Analysis.Calculus.Deriv.Pow
import Mathlib.Tactic.LinearCombination
import Mathlib.LinearAlgebra.FiniteDimensional.Basic
import Mathlib.LinearAlgebra.FiniteDimensional.Lemmas

/-! # Accuracy of the stored slopes -/

namespace Verif.Spline
open Set Verif.Spec

theorem slopes_interior {h : ℝ} {n : ℕ} {y d : ℕ → ℝ} (hs : ScipySlopes h n y d) {k : ℕ} (hk : k + 2 < n) :
    h * (d k + 4 * d (k + 1) + d (k + 2)) = 3 * (y (k + 2) - y k) := by
  obtain ⟨c2, c3, h1, h2, -, -⟩ := hs
  obtain ⟨e1, e2⟩ := h1 k (by omega)
  obtain ⟨e3, e4⟩ := h1 (k + 1) (by omega)
  have e5 := h2 k hk
  linear_combination -3 * e1 - 3 * e3 + 2 * h * e2 + h * e4 - h ^ 2 * e5

theorem slopes_first {h : ℝ} {n : ℕ} {y d : ℕ → ℝ} (hs : ScipySlopes h n y d) (hn : 2 < n) :
    h * (d 0 - d 2) = -2 * (y 0 - 2 * y 1 + y 2) := by
  obtain ⟨c2, c3, h1, -, e5, -⟩ := hs
  obtain ⟨e1, e2⟩ := h1 0 (by omega)
  obtain ⟨e3, e4⟩ := h1 1 (by omega)
  linear_combination 2 * e3 - 2 * e1 + h * e2 - h * e4 + h ^ 3 * e5

/-- Diagonal dominance of the equations for the slopes. -/
theorem dominance {n : ℕ} {e : ℕ → ℝ} {τ σ : ℝ} (hn : 3 ≤ n) (r1 : ∀ k, k + 2 < n → |e k + 4 * e (k + 1) + e (k + 2)| ≤ τ)
    (r2 : |e 0 - e 2| ≤ σ) (r3 : e (n - 1) = 0) (hτ : 0 ≤ τ) (hσ : 0 ≤ σ) : ∀ k < n, |e k| ≤ (τ + 3 * σ) / 2 := by
  have inner : ∀ k, 1 ≤ k → k < n → |e k| ≤ (τ + σ) / 2 := by
    obtain ⟨m, hm, hmax⟩ := Finset.exists_max_image (Finset.Ico 1 n) (fun k => |e k|) ⟨1, by simp; omega⟩
    have hm' := Finset.mem_Ico.mp hm
    intro k hk1 hk2
    refine (hmax k (Finset.mem_Ico.mpr ⟨hk1, hk2⟩)).trans ?_
    by_cases hl : m = n - 1
    · rw [hl, r3, abs_zero]; linarith
    have a2 := hmax (m + 1) (Finset.mem_Ico.mpr ⟨by omega, by omega⟩)
    by_cases h1 : m = 1
    · have s1 := r1 0 (by omega)
      subst h1
      simp only [zero_add, Nat.reduceAdd] at s1 a2
      rw [abs_le] at s1 r2
      rcases abs_cases (e 1) with ⟨c1, c2⟩ | ⟨c1, c2⟩ <;> rcases abs_cases (e 2) with ⟨c3, c4⟩ | ⟨c3, c4⟩ <;> rw [c1] at a2 ⊢ <;> rw [c3] at a2 <;>
        linarith [s1.1, s1.2, r2.1, r2.2]
    · obtain ⟨j, rfl⟩ : ∃ j, m = j + 1 := ⟨m - 1, by omega⟩
      have a1 := hmax j (Finset.mem_Ico.mpr ⟨by omega, by omega⟩)
      have s1 := r1 j (by omega)
      have t1 : |4 * e (j + 1)| ≤ |e j + 4 * e (j + 1) + e (j + 2)| + |e j| + |e (j + 2)| := by
        have := abs_add_three (e j + 4 * e (j + 1) + e (j + 2)) (-e j) (-e (j + 2))
        rw [abs_neg, abs_neg] at this
        refine le_trans (le_of_eq ?_) this
        congr 1
        ring
      rw [abs_mul, abs_of_pos (by norm_num : (0 : ℝ) < 4)] at t1
      have a2' : |e (j + 2)| ≤ |e (j + 1)| := a2
      have a1' : |e j| ≤ |e (j + 1)| := a1
      change |e (j + 1)| ≤ _
      linarith
  intro k hk
  by_cases h0k : k = 0
  · subst h0k
    have := inner 2 (by omega) (by omega)
    have t1 : |e 0| ≤ |e 0 - e 2| + |e 2| := by
      have := abs_add_le (e 0 - e 2) (e 2)
      rwa [sub_add_cancel] at this
    linarith
  · have := inner k (by omega) hk
    linarith

/-- The slopes are those solving the linear equations. -/
theorem slopes_of_eqs {h : ℝ} (hh : h ≠ 0) {n : ℕ} {y d : ℕ → ℝ}
    (h1 : ∀ k, k + 2 < n → h * (d k + 4 * d (k + 1) + d (k + 2)) = 3 * (y (k + 2) - y k))
    (h2 : h * (d 0 - d 2) = -2 * (y 0 - 2 * y 1 + y 2)) (h3 : d (n - 1) = 0) : ScipySlopes h n y d := by
  refine ⟨fun k => (-3 * y k - 2 * h * d k + 3 * y (k + 1) - h * d (k + 1)) / (h * h),
    fun k => (2 * y k + h * d k - 2 * y (k + 1) + h * d (k + 1)) / (h * h * h), fun k _ => ⟨?_, ?_⟩, fun k hk => ?_, ?_, h3⟩
  · field_simp; ring
  · field_simp; ring
  · have := h1 k hk
    simp only [show k + 1 + 1 = k + 2 from rfl]
    field_simp
    linear_combination -this
  · field_simp
    linear_combination h2

/-- There is exactly one such spline. -/
theorem slopes_exist {h : ℝ} (hh : 0 < h) {n : ℕ} (hn : 3 ≤ n) (y : ℕ → ℝ) :
    (∃ d, ScipySlopes h n y d) ∧ ∀ d d', ScipySlopes h n y d → ScipySlopes h n y d' → ∀ k < n, d k = d' k := by
  have uniq : ∀ e : ℕ → ℝ, (∀ k, k + 2 < n → e k + 4 * e (k + 1) + e (k + 2) = 0) → e 0 - e 2 = 0 → e (n - 1) = 0 → ∀ k < n, e k = 0 := by
    intro e a1 a2 a3 k hk
    have := dominance (τ := 0) (σ := 0) hn (fun k hk => by rw [a1 k hk, abs_zero]) (by rw [a2, abs_zero]) a3 le_rfl le_rfl k hk
    rw [← abs_nonpos_iff]
    linarith
  constructor
  · let ext : (Fin n → ℝ) → ℕ → ℝ := fun d k => if hk : k < n then d ⟨k, hk⟩ else 0
    let row : (ℕ → ℝ) → ℕ → ℝ := fun d k => if k = 0 then d 0 - d 2 else if k = n - 1 then d (n - 1) else d (k - 1) + 4 * d k + d (k + 1)
    let L : (Fin n → ℝ) →ₗ[ℝ] (Fin n → ℝ) :=
      { toFun := fun d k => row (ext d) k
        map_add' := fun d d' => by
          have he : ∀ k, ext (d + d') k = ext d k + ext d' k := fun k => by simp only [ext]; split_ifs <;> simp
          funext k
          simp only [row, he, Pi.add_apply]
          split_ifs <;> ring
        map_smul' := fun c d => by
          have he : ∀ k, ext (c • d) k = c * ext d k := fun k => by simp only [ext]; split_ifs <;> simp
          funext k
          simp only [row, he, Pi.smul_apply, RingHom.id_apply, smul_eq_mul]
          split_ifs <;> ring }
    have hL : ∀ d k, L d k = row (ext d) k := fun d k => rfl
    have inj : Function.Injective L := by
      rw [injective_iff_map_eq_zero]
      intro d hd
      have hr : ∀ k, k < n → row (ext d) k = 0 := fun k hk => by rw [← hL d ⟨k, hk⟩, hd]; rfl
      have := uniq (ext d) (fun k hk => by
        have := hr (k + 1) (by omega)
        simp only [row] at this
        rw [if_neg (by omega), if_neg (by omega)] at this
        exact this) (by simpa [row] using hr 0 (by omega)) (by
        have := hr (n - 1) (by omega)
        simp only [row] at this
        rw [if_neg (by omega)] at this
        simpa using this)
      funext k
      have := this k k.2
      simpa [ext] using this
    obtain ⟨d, hd⟩ := LinearMap.injective_iff_surjective.mp inj (fun k : Fin n =>
      if (k : ℕ) = 0 then -2 * (y 0 - 2 * y 1 + y 2) / h else if (k : ℕ) = n - 1 then 0 else 3 * (y ((k : ℕ) + 1) - y ((k : ℕ) - 1)) / h)
    have hr : ∀ k, k < n → row (ext d) k = if k = 0 then -2 * (y 0 - 2 * y 1 + y 2) / h else if k = n - 1 then 0
        else 3 * (y (k + 1) - y (k - 1)) / h := fun k hk => by rw [← hL d ⟨k, hk⟩, hd]
    refine ⟨ext d, slopes_of_eqs hh.ne' (fun k hk => ?_) ?_ ?_⟩
    · have := hr (k + 1) (by omega)
      simp only [row] at this
      rw [if_neg (by omega), if_neg (by omega), if_neg (by omega), if_neg (by omega)] at this
      simp only [Nat.add_sub_cancel] at this
      rw [this]
      field_simp
    · have := hr 0 (by omega)
      simp only [row, if_true] at this
      rw [this]
      field_simp
    · have := hr (n - 1) (by omega)
      simp only [row] at this
      rw [if_neg (show ¬n - 1 = 0 by omega), if_neg (show ¬n - 1 = 0 by omega)] at this
      simpa using this
  · intro d d' hd hd' k hk
    have := uniq (fun k => d k - d' k) (fun k hk => by
      have e1 := slopes_interior hd hk
      have e2 := slopes_interior hd' hk
      refine mul_left_cancel₀ hh.ne' ?_
      linear_combination e1 - e2) (by
      have e1 := slopes_first hd (by omega)
      have e2 := slopes_first hd' (by omega)
      refine mul_left_cancel₀ hh.ne' ?_
      linear_combination e1 - e2) (by
      obtain ⟨_, _, _, _, _, e1⟩ := hd
      obtain ⟨_, _, _, _, _, e2⟩ := hd'
      simp [e1, e2]) k hk
    exact sub_eq_zero.mp this

theorem slopes_congr {h : ℝ} {n : ℕ} (hn : 0 < n) {y d d' : ℕ → ℝ} (hs : ScipySlopes h n y d) (he : ∀ k < n, d' k = d k) :
    ScipySlopes h n y d' := by
  obtain ⟨c2, c3, h1, h2, h3, h4⟩ := hs
  refine ⟨c2, c3, fun k hk => ?_, h2, h3, ?_⟩
  · rw [he k (by omega), he (k + 1) hk]
    exact h1 k hk
  · rw [he _ (by omega), h4]

/-- A function that starts at zero and grows at most like `c t^m`. -/
theorem grow {g g' : ℝ → ℝ} {h c : ℝ} (m : ℕ) (hg : ∀ t ∈ Icc 0 h, HasDerivAt g (g' t) t) (h0 : g 0 = 0)
    (hb : ∀ t ∈ Icc 0 h, |g' t| ≤ c * t ^ m) {t : ℝ} (ht : t ∈ Icc 0 h) : |g t| ≤ c / (m + 1) * t ^ (m + 1) := by
  have hm : (m : ℝ) + 1 ≠ 0 := by positivity
  refine image_norm_le_of_norm_deriv_right_le_deriv_boundary (f := g) (f' := g') (B := fun t => c / (m + 1) * t ^ (m + 1))
    (B' := fun t => c * t ^ m) (fun t ht => (hg t ht).continuousAt.continuousWithinAt)
    (fun t ht => (hg t ⟨ht.1, ht.2.le⟩).hasDerivWithinAt) (by simp [h0]) (fun t => ?_) (fun t ht => hb t ⟨ht.1, ht.2.le⟩) ht
  refine (((hasDerivAt_id' t).pow (m + 1)).const_mul (c / (m + 1))).congr_deriv ?_
  simp only [Nat.add_sub_cancel]
  push_cast
  field_simp

section
variable {f f1 f2 f3 f4 : ℝ → ℝ} {x h B : ℝ}

theorem shift_add {f f' : ℝ → ℝ} (hf : ∀ t ∈ Icc (x - h) (x + h), HasDerivAt f (f' t) t) {t : ℝ} (ht : t ∈ Icc 0 h) :
    HasDerivAt (fun t => f (x + t)) (f' (x + t)) t :=
  (hf (x + t) ⟨by linarith [ht.1, ht.2], by linarith [ht.2]⟩).comp_const_add x t

theorem shift_sub {f f' : ℝ → ℝ} (hf : ∀ t ∈ Icc (x - h) (x + h), HasDerivAt f (f' t) t) {t : ℝ} (ht : t ∈ Icc 0 h) :
    HasDerivAt (fun t => f (x - t)) (-f' (x - t)) t :=
  (hf (x - t) ⟨by linarith [ht.2], by linarith [ht.1, ht.2]⟩).comp_const_sub x t

theorem simpson (hh : 0 ≤ h) (h0 : ∀ t ∈ Icc (x - h) (x + h), HasDerivAt f (f1 t) t) (h1 : ∀ t ∈ Icc (x - h) (x + h), HasDerivAt f1 (f2 t) t)
    (h2 : ∀ t ∈ Icc (x - h) (x + h), HasDerivAt f2 (f3 t) t) (h3 : ∀ t ∈ Icc (x - h) (x + h), HasDerivAt f3 (f4 t) t)
    (hB : ∀ t ∈ Icc (x - h) (x + h), |f4 t| ≤ B) :
    |h * (f1 (x - h) + 4 * f1 x + f1 (x + h)) - 3 * (f (x + h) - f (x - h))| ≤ B / 12 * h ^ 4 := by
  have m1 : ∀ t ∈ Icc (0 : ℝ) h, x + t ∈ Icc (x - h) (x + h) := fun t ht => ⟨by linarith [ht.1, ht.2], by linarith [ht.2]⟩
  have m2 : ∀ t ∈ Icc (0 : ℝ) h, x - t ∈ Icc (x - h) (x + h) := fun t ht => ⟨by linarith [ht.2], by linarith [ht.1, ht.2]⟩
  have q2 : ∀ t ∈ Icc 0 h, |t * (f3 (x + t) + f3 (x - t)) - (f2 (x + t) - f2 (x - t))| ≤ B * t ^ 2 := fun t ht => by
    have := grow (g := fun t => t * (f3 (x + t) + f3 (x - t)) - (f2 (x + t) - f2 (x - t)))
      (g' := fun t => t * (f4 (x + t) - f4 (x - t))) (c := 2 * B) 1 (fun t ht => by
        refine (((hasDerivAt_id' t).mul ((shift_add h3 ht).add (shift_sub h3 ht))).sub
          ((shift_add h2 ht).sub (shift_sub h2 ht))).congr_deriv ?_
        simp only [Pi.add_apply]
        ring) (by simp) (fun t ht => by
        rw [abs_mul, abs_of_nonneg ht.1]
        have := abs_sub (f4 (x + t)) (f4 (x - t))
        have e1 := hB _ (m1 t ht)
        have e2 := hB _ (m2 t ht)
        nlinarith [ht.1]) ht
    norm_num at this
    linarith
  have q1 : ∀ t ∈ Icc 0 h, |4 * f1 x - 2 * (f1 (x + t) + f1 (x - t)) + t * (f2 (x + t) - f2 (x - t))| ≤ B / 3 * t ^ 3 := fun t ht => by
    have := grow (g := fun t => 4 * f1 x - 2 * (f1 (x + t) + f1 (x - t)) + t * (f2 (x + t) - f2 (x - t)))
      (g' := fun t => t * (f3 (x + t) + f3 (x - t)) - (f2 (x + t) - f2 (x - t))) (c := B) 2 (fun t ht => by
        refine (((((shift_add h1 ht).add (shift_sub h1 ht)).const_mul 2).const_sub (4 * f1 x)).add
          ((hasDerivAt_id' t).mul ((shift_add h2 ht).sub (shift_sub h2 ht)))).congr_deriv ?_
        simp only [Pi.sub_apply]
        ring) (by simp; ring) q2 ht
    norm_num at this
    exact this
  have := grow (g := fun t => t * (f1 (x - t) + 4 * f1 x + f1 (x + t)) - 3 * (f (x + t) - f (x - t)))
    (g' := fun t => 4 * f1 x - 2 * (f1 (x + t) + f1 (x - t)) + t * (f2 (x + t) - f2 (x - t))) (c := B / 3) 3 (fun t ht => by
      refine (((hasDerivAt_id' t).mul (((shift_sub h1 ht).add_const (4 * f1 x)).add (shift_add h1 ht))).sub
        (((shift_add h0 ht).sub (shift_sub h0 ht)).const_mul 3)).congr_deriv ?_
      simp only [Pi.add_apply]
      ring) (by simp) q1 (t := h) ⟨hh, le_rfl⟩
  norm_num at this
  refine this.trans (le_of_eq (by ring))

theorem second (hh : 0 ≤ h) (h0 : ∀ t ∈ Icc (x - h) (x + h), HasDerivAt f (f1 t) t) (h1 : ∀ t ∈ Icc (x - h) (x + h), HasDerivAt f1 (f2 t) t)
    (h2 : ∀ t ∈ Icc (x - h) (x + h), HasDerivAt f2 (f3 t) t) (h3 : ∀ t ∈ Icc (x - h) (x + h), HasDerivAt f3 (f4 t) t)
    (hB : ∀ t ∈ Icc (x - h) (x + h), |f4 t| ≤ B) :
    |h * (f1 (x - h) - f1 (x + h)) + 2 * (f (x - h) - 2 * f x + f (x + h))| ≤ B / 6 * h ^ 4 := by
  have m1 : ∀ t ∈ Icc (0 : ℝ) h, x + t ∈ Icc (x - h) (x + h) := fun t ht => ⟨by linarith [ht.1, ht.2], by linarith [ht.2]⟩
  have m2 : ∀ t ∈ Icc (0 : ℝ) h, x - t ∈ Icc (x - h) (x + h) := fun t ht => ⟨by linarith [ht.2], by linarith [ht.1, ht.2]⟩
  have q3 : ∀ t ∈ Icc 0 h, |f3 (x + t) - f3 (x - t)| ≤ 2 * B * t := fun t ht => by
    have := grow (g := fun t => f3 (x + t) - f3 (x - t)) (g' := fun t => f4 (x + t) + f4 (x - t)) (c := 2 * B) 0 (fun t ht => by
        refine ((shift_add h3 ht).sub (shift_sub h3 ht)).congr_deriv ?_
        ring) (by simp) (fun t ht => by
        have := abs_add_le (f4 (x + t)) (f4 (x - t))
        have e1 := hB _ (m1 t ht)
        have e2 := hB _ (m2 t ht)
        linarith) ht
    norm_num at this
    exact this
  have q2 : ∀ t ∈ Icc 0 h, |f1 (x + t) - f1 (x - t) - t * (f2 (x - t) + f2 (x + t))| ≤ 2 * B / 3 * t ^ 3 := fun t ht => by
    have := grow (g := fun t => f1 (x + t) - f1 (x - t) - t * (f2 (x - t) + f2 (x + t))) (g' := fun t => -(t * (f3 (x + t) - f3 (x - t))))
      (c := 2 * B) 2 (fun t ht => by
        refine (((shift_add h1 ht).sub (shift_sub h1 ht)).sub ((hasDerivAt_id' t).mul ((shift_sub h2 ht).add (shift_add h2 ht)))).congr_deriv ?_
        simp only [Pi.add_apply]
        ring) (by simp) (fun t ht => by
        rw [abs_neg, abs_mul, abs_of_nonneg ht.1]
        nlinarith [q3 t ht, ht.1]) ht
    norm_num at this
    exact this
  have := grow (g := fun t => t * (f1 (x - t) - f1 (x + t)) + 2 * (f (x - t) - 2 * f x + f (x + t)))
    (g' := fun t => f1 (x + t) - f1 (x - t) - t * (f2 (x - t) + f2 (x + t))) (c := 2 * B / 3) 3 (fun t ht => by
      refine (((hasDerivAt_id' t).mul ((shift_sub h1 ht).sub (shift_add h1 ht))).add
        ((((shift_sub h0 ht).sub_const (2 * f x)).add (shift_add h0 ht)).const_mul 2)).congr_deriv ?_
      simp only [Pi.sub_apply]
      ring) (by simp; ring) q2 (t := h) ⟨hh, le_rfl⟩
  norm_num at this
  refine this.trans (le_of_eq (by ring))

/-- The stored slopes of a function of zero slope at the last node. -/
theorem slopes_error {n : ℕ} {y d : ℕ → ℝ} {a : ℝ} (hh : 0 < h) (hn : 3 ≤ n) (hs : ScipySlopes h n y d)
    (h0 : ∀ t ∈ Icc a (a + (n - 1 : ℕ) * h), HasDerivAt f (f1 t) t) (h1 : ∀ t ∈ Icc a (a + (n - 1 : ℕ) * h), HasDerivAt f1 (f2 t) t)
    (h2 : ∀ t ∈ Icc a (a + (n - 1 : ℕ) * h), HasDerivAt f2 (f3 t) t) (h3 : ∀ t ∈ Icc a (a + (n - 1 : ℕ) * h), HasDerivAt f3 (f4 t) t)
    (hB : ∀ t ∈ Icc a (a + (n - 1 : ℕ) * h), |f4 t| ≤ B) (hy : ∀ k < n, y k = f (a + k * h)) (hend : f1 (a + (n - 1 : ℕ) * h) = 0) :
    ∀ k < n, |d k - f1 (a + k * h)| ≤ 7 / 24 * B * h ^ 3 := by
  have hB0 : 0 ≤ B := (abs_nonneg _).trans (hB a ⟨le_rfl, by nlinarith [(n - 1 : ℕ).cast_nonneg (α := ℝ)]⟩)
  set e : ℕ → ℝ := fun k => d k - f1 (a + k * h) with he
  have sub : ∀ k, k + 2 < n → Icc (a + (k + 1 : ℕ) * h - h) (a + (k + 1 : ℕ) * h + h) ⊆ Icc a (a + (n - 1 : ℕ) * h) := by
    intro k hk
    have hk' : ((k + 2 : ℕ) : ℝ) ≤ (n - 1 : ℕ) := by exact_mod_cast (by omega : k + 2 ≤ n - 1)
    refine Icc_subset_Icc ?_ ?_
    · push_cast; nlinarith [(k : ℕ).cast_nonneg (α := ℝ)]
    · push_cast at *; nlinarith
  have node : ∀ k : ℕ, a + (k + 1 : ℕ) * h - h = a + k * h ∧ a + (k + 1 : ℕ) * h + h = a + (k + 2 : ℕ) * h := fun k => by
    constructor <;> (push_cast; ring)
  have r1 : ∀ k, k + 2 < n → |e k + 4 * e (k + 1) + e (k + 2)| ≤ B / 12 * h ^ 3 := by
    intro k hk
    have hsub := sub k hk
    have := simpson hh.le (fun t ht => h0 t (hsub ht)) (fun t ht => h1 t (hsub ht)) (fun t ht => h2 t (hsub ht)) (fun t ht => h3 t (hsub ht))
      (fun t ht => hB t (hsub ht))
    rw [(node k).1, (node k).2, ← hy k (by omega), ← hy (k + 2) hk] at this
    have hi := slopes_interior hs hk
    have eq : h * (f1 (a + k * h) + 4 * f1 (a + (k + 1 : ℕ) * h) + f1 (a + (k + 2 : ℕ) * h)) - 3 * (y (k + 2) - y k)
        = -(h * (e k + 4 * e (k + 1) + e (k + 2))) := by
      rw [← hi]; simp only [he]; ring
    rw [eq, abs_neg, abs_mul, abs_of_pos hh] at this
    have h4 : B / 12 * h ^ 4 = h * (B / 12 * h ^ 3) := by ring
    rw [h4] at this
    exact le_of_mul_le_mul_left this hh
  have r2 : |e 0 - e 2| ≤ B / 6 * h ^ 3 := by
    have hsub := sub 0 (by omega)
    have := second hh.le (fun t ht => h0 t (hsub ht)) (fun t ht => h1 t (hsub ht)) (fun t ht => h2 t (hsub ht)) (fun t ht => h3 t (hsub ht))
      (fun t ht => hB t (hsub ht))
    rw [(node 0).1, (node 0).2, ← hy 0 (by omega), ← hy (0 + 1) (by omega), ← hy (0 + 2) (by omega)] at this
    have hi := slopes_first hs (by omega)
    have eq : h * (f1 (a + (0 : ℕ) * h) - f1 (a + (0 + 2 : ℕ) * h)) + 2 * (y 0 - 2 * y (0 + 1) + y (0 + 2)) = -(h * (e 0 - e 2)) := by
      simp only [he, zero_add]
      linear_combination hi
    rw [eq, abs_neg, abs_mul, abs_of_pos hh] at this
    have h4 : B / 6 * h ^ 4 = h * (B / 6 * h ^ 3) := by ring
    rw [h4] at this
    exact le_of_mul_le_mul_left this hh
  have r3 : e (n - 1) = 0 := by
    obtain ⟨_, _, _, _, _, hl⟩ := hs
    simp only [he, hl, hend, sub_zero]
  have := dominance hn r1 r2 r3 (by positivity) (by positivity)
  intro k hk
  exact (this k hk).trans (le_of_eq (by ring))

end
end Verif.Spline
