import Verif.Lemmas.Rounding.Spline

/-! # The piece chosen by the rounded quotient -/

namespace Verif.Rounding
open Verif.Spec Verif.Spline

variable {fl ca gl : ℝ → ℝ} {u us ε A h : ℝ}

/-- The computed index is a piece of the table and the local coordinate is accurate. -/
theorem index_near (hf : IsRounding fl u) (hh : 0 < h) {M : ℕ} (hu : u ≤ ε) (huM : u * M ≤ ε) (hε : ε ≤ 1 / 10000) {r : ℝ} (h0 : 0 ≤ r)
    (hr : r * (1 + u) < h * M) :
    ∃ i : ℕ, truncInt (fl (r / h)) = i ∧ i < M ∧ h * i - ε * h ≤ r ∧ r ≤ h * (i + 1) + ε * h ∧
      Near ε h (9 / 4) (9 / 8) (fl (r - fl (h * i))) (r - h * i) := by
  have u0 := hf.nonneg
  have e0 : 0 ≤ ε := u0.trans hu
  have q0 : 0 ≤ r / h := div_nonneg h0 hh.le
  have hq := hf.err (r / h)
  rw [abs_of_nonneg q0] at hq
  have hqM : r / h * (1 + u) < M := by
    rw [div_mul_eq_mul_div, div_lt_iff₀ hh]; linarith
  have hqM' : r / h ≤ M := by
    have := mul_nonneg q0 u0
    linarith
  have hqe : u * (r / h) ≤ ε := (mul_le_mul_of_nonneg_left hqM' u0).trans huM
  obtain ⟨b1, b2⟩ := abs_le.mp hq
  have f0 : 0 ≤ fl (r / h) := by
    have : u * (r / h) ≤ 1 * (r / h) := mul_le_mul_of_nonneg_right (by linarith) q0
    linarith
  have hi0 : 0 ≤ ⌊fl (r / h)⌋ := Int.floor_nonneg.mpr f0
  obtain ⟨i, hi⟩ := Int.eq_ofNat_of_zero_le hi0
  have l1 : (i : ℝ) ≤ fl (r / h) := by have := Int.floor_le (fl (r / h)); rw [hi] at this; exact_mod_cast this
  have l2 : fl (r / h) < i + 1 := by have := Int.lt_floor_add_one (fl (r / h)); rw [hi] at this; exact_mod_cast this
  have hiM : i < M := by
    have : (i : ℝ) < M := by linarith
    exact_mod_cast this
  have r1 : r / h * h = r := by field_simp
  have x1 : h * i - ε * h ≤ r := by
    have : ((i : ℝ) - ε) * h ≤ r / h * h := mul_le_mul_of_nonneg_right (by linarith) hh.le
    linarith
  have x2 : r ≤ h * (i + 1) + ε * h := by
    have : r / h * h ≤ ((i : ℝ) + 1 + ε) * h := mul_le_mul_of_nonneg_right (by linarith) hh.le
    linarith
  refine ⟨i, by rw [truncInt_of_nonneg f0, hi], hiM, x1, x2, ?_⟩
  have hs : ε * h ≤ 1 / 8 * h := mul_le_mul_of_nonneg_right (by linarith) hh.le
  have n1 : Near ε h 1 (9 / 8) (r - fl (h * i)) (r - h * i) := by
    refine ⟨e0, hh.le, by norm_num, by norm_num, by linarith, ?_, ?_⟩
    · rw [show r - fl (h * i) - (r - h * i) = -(fl (h * i) - h * i) by ring, abs_neg]
      have i0 : (0 : ℝ) ≤ h * i := by positivity
      refine (hf.err _).trans ?_
      rw [abs_of_nonneg i0]
      have hiM' : (i : ℝ) ≤ M := by exact_mod_cast hiM.le
      have : u * i ≤ ε := (mul_le_mul_of_nonneg_left hiM' u0).trans huM
      have := mul_le_mul_of_nonneg_right this hh.le
      linarith
    · rw [abs_le]; constructor <;> linarith
  exact n1.round hf hu (by norm_num) (by linarith)

/-- Bounds of the coefficients. -/
theorem herm_le (hh : 0 < h) (A0 : 0 ≤ A) {v d v' d' : ℝ} (hv : |v| ≤ A) (hv' : |v'| ≤ A) (hd : |h * d| ≤ A) (hd' : |h * d'| ≤ A) :
    |herm2 h v d v' d'| * (h * h) ≤ 9 * A ∧ |herm3 h v d v' d'| * (h * h * h) ≤ 6 * A := by
  have id0 : IsRounding (fun x : ℝ => x) 0 := ⟨le_rfl, fun x => by simp⟩
  have h2 := (quad_near id0 (le_refl (0 : ℝ)) (by norm_num) hh A0 hv hv' hd hd').size
  have h3 := (cub_near id0 (le_refl (0 : ℝ)) (by norm_num) hh A0 hv hv' hd hd').size
  rw [← mul_div_assoc, le_div_iff₀ (by positivity)] at h2 h3
  exact ⟨h2, h3⟩

/-- Pieces that meet in a node differ little near it. -/
theorem seg_glue (hh : 0 < h) (e0 : 0 ≤ ε) (hε : ε ≤ 1 / 10000) (A0 : 0 ≤ A) {v d v' d' v'' d'' y : ℝ} (hv : |v| ≤ A) (hv' : |v'| ≤ A)
    (hv'' : |v''| ≤ A) (hd : |h * d| ≤ A) (hd' : |h * d'| ≤ A) (hd'' : |h * d''| ≤ A) (hy : |y| ≤ ε * h) :
    |seg h v d v' d' (h + y) - seg h v' d' v'' d'' y| ≤ ε * A ∧
    |segD h v d v' d' (h + y) - segD h v' d' v'' d'' y| ≤ 75 * ε * (A / h) := by
  obtain ⟨a2, a3⟩ := herm_le hh A0 hv hv' hd hd'
  obtain ⟨b2, b3⟩ := herm_le hh A0 hv' hv'' hd' hd''
  have hn := hh.ne'
  have e1 : seg h v d v' d' (h + y) - seg h v' d' v'' d'' y =
      ((herm2 h v d v' d' * (h * h) + 3 * (herm3 h v d v' d' * (h * h * h)) - herm2 h v' d' v'' d'' * (h * h)) * (y / h) ^ 2) +
      (herm3 h v d v' d' * (h * h * h) - herm3 h v' d' v'' d'' * (h * h * h)) * (y / h) ^ 3 := by
    unfold seg herm2 herm3; field_simp; ring
  have e2 : segD h v d v' d' (h + y) - segD h v' d' v'' d'' y =
      (2 * ((herm2 h v d v' d' * (h * h) + 3 * (herm3 h v d v' d' * (h * h * h)) - herm2 h v' d' v'' d'' * (h * h)) * (y / h)) +
      3 * ((herm3 h v d v' d' * (h * h * h) - herm3 h v' d' v'' d'' * (h * h * h)) * (y / h) ^ 2)) / h := by
    unfold segD herm2 herm3; field_simp; ring
  have hz : |y / h| ≤ ε := by rw [abs_div, abs_of_pos hh, div_le_iff₀ hh]; exact hy
  generalize y / h = z at *
  have p2 : |herm2 h v d v' d' * (h * h)| ≤ 9 * A := by rw [abs_mul, abs_of_pos (by positivity : 0 < h * h)]; exact a2
  have p3 : |herm3 h v d v' d' * (h * h * h)| ≤ 6 * A := by rw [abs_mul, abs_of_pos (by positivity : 0 < h * h * h)]; exact a3
  have q2 : |herm2 h v' d' v'' d'' * (h * h)| ≤ 9 * A := by rw [abs_mul, abs_of_pos (by positivity : 0 < h * h)]; exact b2
  have q3 : |herm3 h v' d' v'' d'' * (h * h * h)| ≤ 6 * A := by rw [abs_mul, abs_of_pos (by positivity : 0 < h * h * h)]; exact b3
  generalize herm2 h v d v' d' * (h * h) = P2 at *
  generalize herm3 h v d v' d' * (h * h * h) = P3 at *
  generalize herm2 h v' d' v'' d'' * (h * h) = Q2 at *
  generalize herm3 h v' d' v'' d'' * (h * h * h) = Q3 at *
  have f1 : |P2 + 3 * P3 - Q2| ≤ 36 * A := by
    rw [abs_le] at *; constructor <;> linarith [p2.1, p2.2, p3.1, p3.2, q2.1, q2.2]
  have f2 : |P3 - Q3| ≤ 12 * A := by
    rw [abs_le] at *; constructor <;> linarith [p3.1, p3.2, q3.1, q3.2]
  have z2 : |z ^ 2| ≤ ε * (1 / 10000) := by
    rw [abs_pow, pow_two]; exact mul_le_mul hz (hz.trans hε) (abs_nonneg _) e0
  have z3 : |z ^ 3| ≤ ε * (1 / 10000) := by
    rw [pow_succ, abs_mul]
    have := mul_le_mul z2 (hz.trans (hε.trans (by norm_num : (1 : ℝ) / 10000 ≤ 1))) (abs_nonneg _) (by positivity)
    linarith
  constructor
  · rw [e1]
    refine (abs_add_le _ _).trans ?_
    rw [abs_mul, abs_mul]
    have g1 := mul_le_mul f1 z2 (abs_nonneg _) (by positivity)
    have g2 := mul_le_mul f2 z3 (abs_nonneg _) (by positivity)
    have := mul_nonneg e0 A0
    nlinarith
  · rw [e2, abs_div, abs_of_pos hh, ← mul_div_assoc]
    refine div_le_div_of_nonneg_right ?_ hh.le
    refine (abs_add_le _ _).trans ?_
    rw [abs_mul, abs_mul, abs_mul, abs_mul]
    have g1 := mul_le_mul f1 hz (abs_nonneg _) (by positivity)
    have g2 := mul_le_mul f2 z2 (abs_nonneg _) (by positivity)
    have := mul_nonneg e0 A0
    rw [abs_of_pos (by norm_num : (0 : ℝ) < 2), abs_of_pos (by norm_num : (0 : ℝ) < 3)]
    nlinarith

/-- The piece chosen by the rounded index compared with the right one. -/
theorem piece_near (hh : 0 < h) (e0 : 0 ≤ ε) (hε : ε ≤ 1 / 10000) (A0 : 0 ≤ A) {v d : ℕ → ℝ} {M i : ℕ} (hi : i < M)
    (hv : ∀ j ≤ M, |v j| ≤ A) (hd : ∀ j ≤ M, |h * d j| ≤ A) {r : ℝ} (h0 : 0 ≤ r) (hr : r < h * M) (x1 : h * i - ε * h ≤ r)
    (x2 : r ≤ h * (i + 1) + ε * h) :
    |seg h (v i) (d i) (v (i + 1)) (d (i + 1)) (r - h * i) - hermite h v d r| ≤ ε * A ∧
    |segD h (v i) (d i) (v (i + 1)) (d (i + 1)) (r - h * i) - hermite' h v d r| ≤ 75 * ε * (A / h) := by
  obtain ⟨j, hj, l1, l2⟩ := exists_interval hh h0 hr
  obtain ⟨g1, g2⟩ := hermite_eq_seg hh (v := v) (d := d) l1 l2
  rw [g1, g2]
  have eh : ε * h ≤ 1 / 10000 * h := mul_le_mul_of_nonneg_right hε hh.le
  have c1 : i ≤ j + 1 := by
    by_contra hc
    have : ((j : ℝ) + 2) ≤ i := by exact_mod_cast (by omega : j + 2 ≤ i)
    have := mul_le_mul_of_nonneg_left this hh.le
    linarith
  have c2 : j ≤ i + 1 := by
    by_contra hc
    have : ((i : ℝ) + 2) ≤ j := by exact_mod_cast (by omega : i + 2 ≤ j)
    have := mul_le_mul_of_nonneg_left this hh.le
    linarith
  rcases (by omega : i = j ∨ i = j + 1 ∨ j = i + 1) with e | e | e
  · subst e
    simp only [sub_self, abs_zero]
    exact ⟨by positivity, by positivity⟩
  · subst e
    push_cast at x1 x2 ⊢
    have hy : |r - h * ((j : ℝ) + 1)| ≤ ε * h := by rw [abs_le]; constructor <;> linarith
    have := seg_glue hh e0 hε A0 (hv j (by omega)) (hv (j + 1) (by omega)) (hv (j + 1 + 1) (by omega)) (hd j (by omega))
      (hd (j + 1) (by omega)) (hd (j + 1 + 1) (by omega)) hy
    rw [show h + (r - h * ((j : ℝ) + 1)) = r - h * j by ring] at this
    rw [abs_sub_comm (seg _ _ _ _ _ _), abs_sub_comm (segD _ _ _ _ _ _)]
    exact this
  · subst e
    push_cast at l1 l2 ⊢
    have hy : |r - h * ((i : ℝ) + 1)| ≤ ε * h := by rw [abs_le]; constructor <;> linarith
    have := seg_glue hh e0 hε A0 (hv i (by omega)) (hv (i + 1) (by omega)) (hv (i + 1 + 1) (by omega)) (hd i (by omega))
      (hd (i + 1) (by omega)) (hd (i + 1 + 1) (by omega)) hy
    rw [show h + (r - h * ((i : ℝ) + 1)) = r - h * i by ring] at this
    exact this

end Verif.Rounding
