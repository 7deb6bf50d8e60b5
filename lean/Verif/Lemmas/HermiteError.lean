import Verif.Lemmas.CubicSpline
import Mathlib.Analysis.Calculus.LocalExtr.Rolle
import Mathlib.Analysis.Calculus.Deriv.Shift
import Mathlib.Tactic.Positivity
import Mathlib.Tactic.FieldSimp

/-! # Error of cubic Hermite interpolation

By Rolle's theorem: a function vanishing to second order at both ends of an interval is bounded by its fourth derivative. -/

namespace Verif.Spline
open Set

theorem rolle {g g' : ℝ → ℝ} {a b x y : ℝ} (hxy : x < y) (ha : a ≤ x) (hb : y ≤ b) (h : ∀ t ∈ Icc a b, HasDerivAt g (g' t) t)
    (hx : g x = 0) (hy : g y = 0) : ∃ c, x < c ∧ c < y ∧ g' c = 0 := by
  obtain ⟨c, hc, h0⟩ := exists_hasDerivAt_eq_zero hxy
    (fun t ht => (h t ⟨ha.trans ht.1, ht.2.trans hb⟩).continuousAt.continuousWithinAt) (hx.trans hy.symm)
    (fun t ht => h t ⟨ha.trans ht.1.le, ht.2.le.trans hb⟩)
  exact ⟨c, hc.1, hc.2, h0⟩

/-- Three zeros: the value is a third derivative times the product of the distances, over six. -/
theorem three_zeros {e e1 e2 e3 : ℝ → ℝ} {a c b x B : ℝ} (hac : a < c) (hcb : c < b) (h0 : ∀ t ∈ Icc a b, HasDerivAt e (e1 t) t)
    (h1 : ∀ t ∈ Icc a b, HasDerivAt e1 (e2 t) t) (h2 : ∀ t ∈ Icc a b, HasDerivAt e2 (e3 t) t) (hB : ∀ t ∈ Icc a b, |e3 t| ≤ B)
    (ea : e a = 0) (ec : e c = 0) (eb : e b = 0) (hx : x ∈ Icc a b) : |e x| ≤ B / 6 * |(x - a) * (x - c) * (x - b)| := by
  by_cases hz : x = a ∨ x = c ∨ x = b
  · rcases hz with rfl | rfl | rfl <;> simp [ea, ec, eb]
  push Not at hz
  obtain ⟨za, zc, zb⟩ := hz
  have hP : (x - a) * (x - c) * (x - b) ≠ 0 := mul_ne_zero (mul_ne_zero (sub_ne_zero.mpr za) (sub_ne_zero.mpr zc)) (sub_ne_zero.mpr zb)
  obtain ⟨k, hk⟩ : ∃ k, k = e x / ((x - a) * (x - c) * (x - b)) := ⟨_, rfl⟩
  have hkx : e x = k * ((x - a) * (x - c) * (x - b)) := by rw [hk]; field_simp
  have g0 : ∀ t ∈ Icc a b, HasDerivAt (fun t => e t - k * ((t - a) * (t - c) * (t - b)))
      (e1 t - k * ((t - a) * (t - c) + (t - a) * (t - b) + (t - c) * (t - b))) t := fun t ht => by
    have d := (((hasDerivAt_id' t).sub_const a).mul ((hasDerivAt_id' t).sub_const c)).mul ((hasDerivAt_id' t).sub_const b)
    refine ((h0 t ht).sub (d.const_mul k)).congr_deriv ?_
    simp only [Pi.mul_apply]
    ring
  have g1 : ∀ t ∈ Icc a b, HasDerivAt (fun t => e1 t - k * ((t - a) * (t - c) + (t - a) * (t - b) + (t - c) * (t - b)))
      (e2 t - k * (2 * ((t - a) + (t - b) + (t - c)))) t := fun t ht => by
    have da := (hasDerivAt_id' t).sub_const a
    have db := (hasDerivAt_id' t).sub_const b
    have dc := (hasDerivAt_id' t).sub_const c
    refine ((h1 t ht).sub ((((da.mul dc).add (da.mul db)).add (dc.mul db)).const_mul k)).congr_deriv ?_
    ring
  have g2 : ∀ t ∈ Icc a b, HasDerivAt (fun t => e2 t - k * (2 * ((t - a) + (t - b) + (t - c)))) (e3 t - k * 6) t := fun t ht => by
    have da := (hasDerivAt_id' t).sub_const a
    have db := (hasDerivAt_id' t).sub_const b
    have dc := (hasDerivAt_id' t).sub_const c
    refine ((h2 t ht).sub ((((da.add db).add dc).const_mul 2).const_mul k)).congr_deriv ?_
    ring
  have zeros : ∃ t1 t2 t3 t4, a ≤ t1 ∧ t1 < t2 ∧ t2 < t3 ∧ t3 < t4 ∧ t4 ≤ b ∧ ∀ t, t = t1 ∨ t = t2 ∨ t = t3 ∨ t = t4 →
      e t - k * ((t - a) * (t - c) * (t - b)) = 0 := by
    have hax : a < x := lt_of_le_of_ne hx.1 (Ne.symm za)
    have hxb : x < b := lt_of_le_of_ne hx.2 zb
    rcases lt_or_gt_of_ne zc with h | h
    · refine ⟨a, x, c, b, le_rfl, hax, h, hcb, le_rfl, ?_⟩
      rintro t (rfl | rfl | rfl | rfl) <;> simp [ea, ec, eb, hkx]
    · refine ⟨a, c, x, b, le_rfl, hac, h, hxb, le_rfl, ?_⟩
      rintro t (rfl | rfl | rfl | rfl) <;> simp [ea, ec, eb, hkx]
  obtain ⟨t1, t2, t3, t4, l1, l2, l3, l4, l5, hz⟩ := zeros
  obtain ⟨c1, p1, q1, r1⟩ := rolle (a := a) (b := b) l2 (by linarith) (by linarith) g0 (hz t1 (by simp)) (hz t2 (by simp))
  obtain ⟨c2, p2, q2, r2⟩ := rolle (a := a) (b := b) l3 (by linarith) (by linarith) g0 (hz t2 (by simp)) (hz t3 (by simp))
  obtain ⟨c3, p3, q3, r3⟩ := rolle (a := a) (b := b) l4 (by linarith) (by linarith) g0 (hz t3 (by simp)) (hz t4 (by simp))
  obtain ⟨d1, p4, q4, r4⟩ := rolle (a := a) (b := b) (q1.trans p2) (by linarith) (by linarith) g1 r1 r2
  obtain ⟨d2, p5, q5, r5⟩ := rolle (a := a) (b := b) (q2.trans p3) (by linarith) (by linarith) g1 r2 r3
  obtain ⟨f, p6, q6, r6⟩ := rolle (a := a) (b := b) (q4.trans p5) (by linarith) (by linarith) g2 r4 r5
  have hk6 : k = e3 f / 6 := by linarith
  have hf := hB f ⟨by linarith, by linarith⟩
  rw [hkx, hk6, abs_mul, abs_div, abs_of_pos (by norm_num : (0 : ℝ) < 6)]
  gcongr

/-- Double zeros at both ends: the value is a fourth derivative times the squared distances, over twenty-four. -/
theorem double_zeros {e e1 e2 e3 e4 : ℝ → ℝ} {a b x B : ℝ} (h0 : ∀ t ∈ Icc a b, HasDerivAt e (e1 t) t)
    (h1 : ∀ t ∈ Icc a b, HasDerivAt e1 (e2 t) t) (h2 : ∀ t ∈ Icc a b, HasDerivAt e2 (e3 t) t)
    (h3 : ∀ t ∈ Icc a b, HasDerivAt e3 (e4 t) t) (hB : ∀ t ∈ Icc a b, |e4 t| ≤ B)
    (ea : e a = 0) (eb : e b = 0) (ea' : e1 a = 0) (eb' : e1 b = 0) (hx : x ∈ Icc a b) :
    |e x| ≤ B / 24 * ((x - a) ^ 2 * (b - x) ^ 2) := by
  by_cases hz : x = a ∨ x = b
  · rcases hz with rfl | rfl <;> simp [ea, eb]
  push Not at hz
  obtain ⟨za, zb⟩ := hz
  have hax : a < x := lt_of_le_of_ne hx.1 (Ne.symm za)
  have hxb : x < b := lt_of_le_of_ne hx.2 zb
  have hP : (x - a) ^ 2 * (b - x) ^ 2 ≠ 0 := mul_ne_zero (pow_ne_zero _ (sub_ne_zero.mpr za)) (pow_ne_zero _ (sub_ne_zero.mpr (Ne.symm zb)))
  obtain ⟨k, hk⟩ : ∃ k, k = e x / ((x - a) ^ 2 * (b - x) ^ 2) := ⟨_, rfl⟩
  have hkx : e x = k * ((x - a) ^ 2 * (b - x) ^ 2) := by rw [hk]; field_simp
  have id1 : ∀ t : ℝ, HasDerivAt (fun t => t - a) 1 t := fun t => (hasDerivAt_id' t).sub_const a
  have sq1 : ∀ t : ℝ, HasDerivAt (fun t => (t - a) ^ 2) (2 * (t - a)) t := fun t => ((id1 t).pow 2).congr_deriv (by norm_num)
  have id2 : ∀ t : ℝ, HasDerivAt (fun t => b - t) (-1) t := fun t => (hasDerivAt_id' t).const_sub b
  have sq2 : ∀ t : ℝ, HasDerivAt (fun t => (b - t) ^ 2) (-(2 * (b - t))) t := fun t => ((id2 t).pow 2).congr_deriv (by norm_num)
  have g0 : ∀ t ∈ Icc a b, HasDerivAt (fun t => e t - k * ((t - a) ^ 2 * (b - t) ^ 2))
      (e1 t - k * (2 * (t - a) * (b - t) ^ 2 - 2 * (t - a) ^ 2 * (b - t))) t := fun t ht => by
    refine ((h0 t ht).sub (((sq1 t).mul (sq2 t)).const_mul k)).congr_deriv ?_
    ring
  have g1 : ∀ t ∈ Icc a b, HasDerivAt (fun t => e1 t - k * (2 * (t - a) * (b - t) ^ 2 - 2 * (t - a) ^ 2 * (b - t)))
      (e2 t - k * (2 * (b - t) ^ 2 - 8 * (t - a) * (b - t) + 2 * (t - a) ^ 2)) t := fun t ht => by
    refine ((h1 t ht).sub (((((id1 t).const_mul 2).mul (sq2 t)).sub (((sq1 t).const_mul 2).mul (id2 t))).const_mul
      k)).congr_deriv ?_
    ring
  have g2 : ∀ t ∈ Icc a b, HasDerivAt (fun t => e2 t - k * (2 * (b - t) ^ 2 - 8 * (t - a) * (b - t) + 2 * (t - a) ^ 2))
      (e3 t - k * (12 * (t - a) - 12 * (b - t))) t := fun t ht => by
    refine ((h2 t ht).sub (((((sq2 t).const_mul 2).sub (((id1 t).const_mul 8).mul (id2 t))).add
      ((sq1 t).const_mul 2)).const_mul k)).congr_deriv ?_
    ring
  have g3 : ∀ t ∈ Icc a b, HasDerivAt (fun t => e3 t - k * (12 * (t - a) - 12 * (b - t))) (e4 t - k * 24) t := fun t ht => by
    refine ((h3 t ht).sub ((((id1 t).const_mul 12).sub ((id2 t).const_mul 12)).const_mul k)).congr_deriv ?_
    ring
  obtain ⟨c1, p1, q1, r1⟩ := rolle (a := a) (b := b) hax le_rfl hx.2 g0 (by simp [ea]) (by simp [hkx])
  obtain ⟨c2, p2, q2, r2⟩ := rolle (a := a) (b := b) hxb hx.1 le_rfl g0 (by simp [hkx]) (by simp [eb])
  obtain ⟨d1, p3, q3, r3⟩ := rolle (a := a) (b := b) p1 (by linarith) (by linarith) g1 (by simp [ea']) r1
  obtain ⟨d2, p4, q4, r4⟩ := rolle (a := a) (b := b) (q1.trans p2) (by linarith) (by linarith) g1 r1 r2
  obtain ⟨d3, p5, q5, r5⟩ := rolle (a := a) (b := b) q2 (by linarith) (by linarith) g1 r2 (by simp [eb'])
  obtain ⟨u1, p6, q6, r6⟩ := rolle (a := a) (b := b) (q3.trans p4) (by linarith) (by linarith) g2 r3 r4
  obtain ⟨u2, p7, q7, r7⟩ := rolle (a := a) (b := b) (q4.trans p5) (by linarith) (by linarith) g2 r4 r5
  obtain ⟨w, p8, q8, r8⟩ := rolle (a := a) (b := b) (q6.trans p7) (by linarith) (by linarith) g3 r6 r7
  have hk24 : k = e4 w / 24 := by linarith
  have hw := hB w ⟨by linarith, by linarith⟩
  have hpos : 0 ≤ (x - a) ^ 2 * (b - x) ^ 2 := by positivity
  rw [hkx, hk24, abs_mul, abs_div, abs_of_pos (by norm_num : (0 : ℝ) < 24), abs_of_nonneg hpos]
  gcongr

/-- Hermite interpolation of exact data. -/
theorem seg_error {f f1 f2 f3 f4 : ℝ → ℝ} {a h x B : ℝ} (hh : 0 < h) (h0 : ∀ t ∈ Icc a (a + h), HasDerivAt f (f1 t) t)
    (h1 : ∀ t ∈ Icc a (a + h), HasDerivAt f1 (f2 t) t) (h2 : ∀ t ∈ Icc a (a + h), HasDerivAt f2 (f3 t) t)
    (h3 : ∀ t ∈ Icc a (a + h), HasDerivAt f3 (f4 t) t) (hB : ∀ t ∈ Icc a (a + h), |f4 t| ≤ B) (hx : x ∈ Icc 0 h) :
    |seg h (f a) (f1 a) (f (a + h)) (f1 (a + h)) x - f (a + x)| ≤ B * h ^ 4 / 384 ∧
    |segD h (f a) (f1 a) (f (a + h)) (f1 (a + h)) x - f1 (a + x)| ≤ B * h ^ 3 / 24 := by
  set v := f a
  set d := f1 a
  set v' := f (a + h)
  set d' := f1 (a + h)
  have hB0 : 0 ≤ B := (abs_nonneg _).trans (hB a ⟨le_rfl, by linarith⟩)
  have sub : ∀ t : ℝ, HasDerivAt (fun t => t - a) 1 t := fun t => (hasDerivAt_id' t).sub_const a
  have g0 : ∀ t ∈ Icc a (a + h), HasDerivAt (fun t => seg h v d v' d' (t - a) - f t) (segD h v d v' d' (t - a) - f1 t) t := fun t ht =>
    ((seg_hasDerivAt h v d v' d' (t - a)).comp_sub_const t a).sub (h0 t ht)
  have sq : ∀ t : ℝ, HasDerivAt (fun t => (t - a) * (t - a)) (2 * (t - a)) t := fun t => ((sub t).mul (sub t)).congr_deriv (by ring)
  have g1 : ∀ t ∈ Icc a (a + h), HasDerivAt (fun t => segD h v d v' d' (t - a) - f1 t)
      (2 * herm2 h v d v' d' + 3 * herm3 h v d v' d' * (2 * (t - a)) - f2 t) t := fun t ht => by
    refine ((((sub t).const_mul (2 * herm2 h v d v' d')).const_add d).add ((sq t).const_mul (3 * herm3 h v d v' d'))).sub (h1 t ht)
      |>.congr_deriv ?_
    ring
  have g2 : ∀ t ∈ Icc a (a + h), HasDerivAt (fun t => 2 * herm2 h v d v' d' + 3 * herm3 h v d v' d' * (2 * (t - a)) - f2 t)
      (6 * herm3 h v d v' d' - f3 t) t := fun t ht => by
    refine ((((sub t).const_mul 2).const_mul (3 * herm3 h v d v' d')).const_add (2 * herm2 h v d v' d')).sub (h2 t ht)
      |>.congr_deriv ?_
    ring
  have g3 : ∀ t ∈ Icc a (a + h), HasDerivAt (fun t => 6 * herm3 h v d v' d' - f3 t) (-f4 t) t := fun t ht =>
    (h3 t ht).const_sub _
  have gB : ∀ t ∈ Icc a (a + h), |-f4 t| ≤ B := fun t ht => by rw [abs_neg]; exact hB t ht
  have za : seg h v d v' d' (a - a) - f a = 0 := by rw [sub_self, seg_zero]; exact sub_self _
  have zb : seg h v d v' d' (a + h - a) - f (a + h) = 0 := by rw [add_sub_cancel_left, seg_h hh.ne']; exact sub_self _
  have za' : segD h v d v' d' (a - a) - f1 a = 0 := by rw [sub_self, segD_zero]; exact sub_self _
  have zb' : segD h v d v' d' (a + h - a) - f1 (a + h) = 0 := by rw [add_sub_cancel_left, segD_h hh.ne']; exact sub_self _
  have hxm : a + x ∈ Icc a (a + h) := ⟨by linarith [hx.1], by linarith [hx.2]⟩
  have hq : x * (h - x) ≤ h ^ 2 / 4 := by nlinarith [sq_nonneg (h - 2 * x)]
  have hq0 : 0 ≤ x * (h - x) := mul_nonneg hx.1 (by linarith [hx.2])
  constructor
  · have := double_zeros g0 g1 g2 g3 gB za zb za' zb' hxm
    simp only [add_sub_cancel_left] at this
    refine this.trans ?_
    have e : x ^ 2 * (a + h - (a + x)) ^ 2 = (x * (h - x)) ^ 2 := by ring
    rw [e]
    have : (x * (h - x)) ^ 2 ≤ (h ^ 2 / 4) ^ 2 := by gcongr
    nlinarith
  · obtain ⟨c, c1, c2, c3⟩ := rolle (a := a) (b := a + h) (by linarith) le_rfl le_rfl g0 za zb
    have := three_zeros c1 c2 g1 g2 g3 gB za' c3 zb' hxm
    simp only [add_sub_cancel_left] at this
    refine this.trans ?_
    have e : |x * (a + x - c) * (a + x - (a + h))| = x * (h - x) * |a + x - c| := by
      rw [show x * (a + x - c) * (a + x - (a + h)) = -(x * (h - x) * (a + x - c)) by ring, abs_neg, abs_mul, abs_of_nonneg hq0]
    rw [e]
    have hc : |a + x - c| ≤ h := abs_le.mpr ⟨by linarith [hx.1], by linarith [hx.2]⟩
    have : x * (h - x) * |a + x - c| ≤ h ^ 2 / 4 * h := by gcongr
    nlinarith

theorem seg_sub (h v d v' d' w m w' m' x : ℝ) :
    seg h v d v' d' x - seg h w m w' m' x = seg h (v - w) (d - m) (v' - w') (d' - m') x := by
  unfold seg herm2 herm3; ring

theorem segD_sub (h v d v' d' w m w' m' x : ℝ) :
    segD h v d v' d' x - segD h w m w' m' x = segD h (v - w) (d - m) (v' - w') (d' - m') x := by
  unfold segD herm2 herm3; ring

/-- Size of the interpolant of small data. -/
theorem seg_small {h v d v' d' x ε δ : ℝ} (hh : 0 < h) (hv : |v| ≤ ε) (hv' : |v'| ≤ ε) (hd : |d| ≤ δ) (hd' : |d'| ≤ δ) (hx : x ∈ Icc 0 h) :
    |seg h v d v' d' x| ≤ ε + δ * h / 4 ∧ |segD h v d v' d' x| ≤ 3 * ε / h + δ := by
  have hne := hh.ne'
  obtain ⟨u, hu⟩ : ∃ u, u = x / h := ⟨_, rfl⟩
  have hxu : x = u * h := by rw [hu]; field_simp
  have u0 : 0 ≤ u := hu ▸ div_nonneg hx.1 hh.le
  have u1 : u ≤ 1 := hu ▸ (div_le_one hh).mpr hx.2
  have w0 : 0 ≤ 1 - u := by linarith
  have e0 : 0 ≤ ε := (abs_nonneg _).trans hv
  have d0 : 0 ≤ δ := (abs_nonneg _).trans hd
  constructor
  · have e : seg h v d v' d' x = ((1 - u) ^ 2 * (1 + 2 * u)) * v + (u ^ 2 * (3 - 2 * u)) * v' + (h * (u * (1 - u) ^ 2)) * d
        - (h * (u ^ 2 * (1 - u))) * d' := by
      rw [hxu]; unfold seg herm2 herm3; field_simp; ring
    have p1 : 0 ≤ (1 - u) ^ 2 * (1 + 2 * u) := by positivity
    have p2 : 0 ≤ u ^ 2 * (3 - 2 * u) := mul_nonneg (by positivity) (by linarith)
    have p3 : 0 ≤ h * (u * (1 - u) ^ 2) := by positivity
    have p4 : 0 ≤ h * (u ^ 2 * (1 - u)) := by positivity
    have key : |seg h v d v' d' x| ≤ ((1 - u) ^ 2 * (1 + 2 * u)) * ε + (u ^ 2 * (3 - 2 * u)) * ε + (h * (u * (1 - u) ^ 2)) * δ
        + (h * (u ^ 2 * (1 - u))) * δ := by
      rw [e, abs_le]
      rw [abs_le] at hv hv' hd hd'
      constructor <;> nlinarith [mul_le_mul_of_nonneg_left hv.1 p1, mul_le_mul_of_nonneg_left hv.2 p1, mul_le_mul_of_nonneg_left hv'.1 p2,
        mul_le_mul_of_nonneg_left hv'.2 p2, mul_le_mul_of_nonneg_left hd.1 p3, mul_le_mul_of_nonneg_left hd.2 p3,
        mul_le_mul_of_nonneg_left hd'.1 p4, mul_le_mul_of_nonneg_left hd'.2 p4]
    refine key.trans ?_
    have e2 : ((1 - u) ^ 2 * (1 + 2 * u)) * ε + (u ^ 2 * (3 - 2 * u)) * ε + (h * (u * (1 - u) ^ 2)) * δ + (h * (u ^ 2 * (1 - u))) * δ
        = ε + δ * h * (u * (1 - u)) := by ring
    rw [e2]
    have : u * (1 - u) ≤ 1 / 4 := by nlinarith [sq_nonneg (1 - 2 * u)]
    have h3 : δ * h * (u * (1 - u)) ≤ δ * h * (1 / 4) := by gcongr
    linarith
  · have e : segD h v d v' d' x = (6 * (u * (1 - u)) / h) * (v' - v) + ((1 - u) * (1 - 3 * u)) * d + (u * (3 * u - 2)) * d' := by
      rw [hxu]; unfold segD herm2 herm3; field_simp; ring
    have hu4 : u * (1 - u) ≤ 1 / 4 := by nlinarith [sq_nonneg (1 - 2 * u)]
    have q1 : |(6 * (u * (1 - u)) / h) * (v' - v)| ≤ 3 * ε / h := by
      rw [abs_mul, abs_of_nonneg (by positivity)]
      have : |v' - v| ≤ 2 * ε := by rw [abs_le] at *; constructor <;> linarith [hv.1, hv.2, hv'.1, hv'.2]
      calc 6 * (u * (1 - u)) / h * |v' - v| ≤ 6 * (1 / 4) / h * (2 * ε) := by gcongr
        _ = 3 * ε / h := by ring
    have q2 : |((1 - u) * (1 - 3 * u)) * d| + |(u * (3 * u - 2)) * d'| ≤ δ := by
      rw [abs_mul, abs_mul ((u * (3 * u - 2)))]
      have k1 : |(1 - u) * (1 - 3 * u)| * |d| ≤ |(1 - u) * (1 - 3 * u)| * δ := by gcongr
      have k2 : |u * (3 * u - 2)| * |d'| ≤ |u * (3 * u - 2)| * δ := by gcongr
      have k3 : |(1 - u) * (1 - 3 * u)| + |u * (3 * u - 2)| ≤ 1 := by
        rcases abs_cases ((1 - u) * (1 - 3 * u)) with ⟨h1, _⟩ | ⟨h1, _⟩ <;> rcases abs_cases (u * (3 * u - 2)) with ⟨h2, _⟩ | ⟨h2, _⟩ <;>
          rw [h1, h2] <;> nlinarith [sq_nonneg (1 - 2 * u)]
      calc _ ≤ |(1 - u) * (1 - 3 * u)| * δ + |u * (3 * u - 2)| * δ := add_le_add k1 k2
        _ = (|(1 - u) * (1 - 3 * u)| + |u * (3 * u - 2)|) * δ := by ring
        _ ≤ 1 * δ := by gcongr
        _ = δ := one_mul _
    rw [e]
    calc _ ≤ |(6 * (u * (1 - u)) / h) * (v' - v)| + |((1 - u) * (1 - 3 * u)) * d| + |(u * (3 * u - 2)) * d'| := abs_add_three _ _ _
      _ ≤ 3 * ε / h + δ := by linarith

end Verif.Spline
