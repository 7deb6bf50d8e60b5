import Verif.Lemmas.Rounding.Index

/-! # The rounded spline classes -/

namespace Verif.Rounding
open Verif.Spec Verif.Spline

/-- The stored table. -/
theorem tableR_spec (fl : ℝ → ℝ) (h : ℝ) (vals derivs : List ℝ) (hv : 0 < vals.length)
    (hd : vals.length ≤ derivs.length) :
    ∃ c, CubicSpline.mkR? fl h vals derivs = some ⟨h, c⟩ ∧ c.length = 4 * (vals.length - 1) ∧
      ∀ i, (hi : i + 1 < vals.length) →
        c[4 * i]? = some vals[i] ∧ c[4 * i + 1]? = some derivs[i] ∧
        c[4 * i + 2]? = some (quadR fl h vals[i] derivs[i] vals[i + 1] derivs[i + 1]) ∧
        c[4 * i + 3]? = some (cubR fl h vals[i] derivs[i] vals[i + 1] derivs[i + 1]) := by
  unfold CubicSpline.mkR?
  rw [if_neg (by omega)]
  have hstep : ∀ k < vals.length - 1, ∀ c : List ℝ, (c.length = 4 * (vals.length - 1) ∧
      ∀ i, i < k → (hi : i + 1 < vals.length) →
        c[4 * i]? = some vals[i] ∧ c[4 * i + 1]? = some derivs[i] ∧
        c[4 * i + 2]? = some (quadR fl h vals[i] derivs[i] vals[i + 1] derivs[i + 1]) ∧
        c[4 * i + 3]? = some (cubR fl h vals[i] derivs[i] vals[i + 1] derivs[i + 1])) →
      ∃ c', genBodyR fl h vals derivs k c = some c' ∧ (c'.length = 4 * (vals.length - 1) ∧
      ∀ i, i < k + 1 → (hi : i + 1 < vals.length) →
        c'[4 * i]? = some vals[i] ∧ c'[4 * i + 1]? = some derivs[i] ∧
        c'[4 * i + 2]? = some (quadR fl h vals[i] derivs[i] vals[i + 1] derivs[i + 1]) ∧
        c'[4 * i + 3]? = some (cubR fl h vals[i] derivs[i] vals[i + 1] derivs[i + 1])) := by
    rintro k hk c ⟨hlen, hP⟩
    unfold genBodyR
    have e1 : vals[k]? = some vals[k] := List.getElem?_eq_getElem (by omega)
    have e2 : derivs[k]? = some derivs[k] := List.getElem?_eq_getElem (by omega)
    have e3 : vals[k + 1]? = some vals[k + 1] := List.getElem?_eq_getElem (by omega)
    have e4 : derivs[k + 1]? = some derivs[k + 1] := List.getElem?_eq_getElem (by omega)
    simp only [e1, e2, e3, e4, Option.bind_eq_bind, Option.bind_some]
    rw [wr_eq _ (by omega)]
    simp only [Option.bind_some]
    rw [wr_eq _ (by simp; omega)]
    simp only [Option.bind_some]
    have f0 : ((c.set (4 * k) vals[k]).set (4 * k + 1) derivs[k])[4 * k]? = some vals[k] := by
      rw [getElem?_set_ne' _ (by omega), getElem?_set_self' _ (by omega)]
    have f1 : ((c.set (4 * k) vals[k]).set (4 * k + 1) derivs[k])[4 * k + 1]? = some derivs[k] := by
      rw [getElem?_set_self' _ (by simp; omega)]
    rw [f0]; simp only [Option.bind_some]
    rw [f1]; simp only [Option.bind_some]
    rw [wr_eq _ (by simp; omega)]
    simp only [Option.bind_some]
    rw [wr_eq _ (by simp; omega)]
    refine ⟨_, rfl, by simp [hlen], ?_⟩
    intro i hi hi'
    by_cases hik : i = k
    · subst hik
      refine ⟨?_, ?_, ?_, ?_⟩
      · rw [getElem?_set_ne' _ (by omega), getElem?_set_ne' _ (by omega), f0]
      · rw [getElem?_set_ne' _ (by omega), getElem?_set_ne' _ (by omega), f1]
      · rw [getElem?_set_ne' _ (by omega), getElem?_set_self' _ (by simp; omega)]
      · rw [getElem?_set_self' _ (by simp; omega)]
    · have := hP i (by omega) hi'
      refine ⟨?_, ?_, ?_, ?_⟩ <;>
        (rw [getElem?_set_ne' _ (by omega), getElem?_set_ne' _ (by omega), getElem?_set_ne' _ (by omega),
          getElem?_set_ne' _ (by omega)])
      · exact this.1
      · exact this.2.1
      · exact this.2.2.1
      · exact this.2.2.2
  obtain ⟨c, hc, hlen, hP⟩ := loop_inv _ (s := List.replicate (4 * (vals.length - 1)) 0)
    ⟨by simp, by intro i hi; omega⟩ hstep
  exact ⟨c, by rw [hc]; rfl, hlen, fun i hi => hP i (by omega) hi⟩


theorem coeffsR_spec (fl : ℝ → ℝ) (h : ℝ) (vals derivs : List ℝ) (hv : 0 < vals.length) (hd : vals.length ≤ derivs.length) :
    ∃ c, CubicSpline.mkR? fl h vals derivs = some ⟨h, c⟩ ∧ c.length = 4 * (vals.length - 1) ∧
      ∀ i, i + 1 < vals.length → coeffs4 c (i : ℤ) = some (ent vals i, ent derivs i,
        quadR fl h (ent vals i) (ent derivs i) (ent vals (i + 1)) (ent derivs (i + 1)),
        cubR fl h (ent vals i) (ent derivs i) (ent vals (i + 1)) (ent derivs (i + 1))) := by
  obtain ⟨c, hc, hlen, hP⟩ := tableR_spec fl h vals derivs hv hd
  refine ⟨c, hc, hlen, ?_⟩
  intro i hi
  obtain ⟨h0, h1, h2, h3⟩ := hP i hi
  unfold coeffs4
  rw [if_neg (by omega)]
  have e1 : ent vals i = vals[i] := by simp [ent, show i < vals.length by omega]
  have e2 : ent derivs i = derivs[i] := by simp [ent, show i < derivs.length by omega]
  have e3 : ent vals (i + 1) = vals[i + 1] := by simp [ent, hi]
  have e4 : ent derivs (i + 1) = derivs[i + 1] := by simp [ent, show i + 1 < derivs.length by omega]
  rw [e1, e2, e3, e4]
  simp [h0, h1, h2, h3]

theorem storedR_spec (fl ca : ℝ → ℝ) (h : ℝ) (vals derivs : List ℝ) (hd : vals.length ≤ derivs.length) {i : ℕ} (hi : i + 1 < vals.length) :
    storedR fl ca h vals derivs i = some (ca (ent vals i), ca (ent derivs i),
        ca (quadR fl h (ent vals i) (ent derivs i) (ent vals (i + 1)) (ent derivs (i + 1))),
        ca (cubR fl h (ent vals i) (ent derivs i) (ent vals (i + 1)) (ent derivs (i + 1)))) := by
  unfold storedR
  rw [if_neg (by omega)]
  have e1 : vals[i]? = some (ent vals i) := by simp [ent, show i < vals.length by omega]
  have e2 : derivs[i]? = some (ent derivs i) := by simp [ent, show i < derivs.length by omega]
  have e3 : vals[i + 1]? = some (ent vals (i + 1)) := by simp [ent, hi]
  have e4 : derivs[i + 1]? = some (ent derivs (i + 1)) := by simp [ent, show i + 1 < derivs.length by omega]
  simp [e1, e2, e3, e4]

variable {fl ca gl : ℝ → ℝ} {u us ε A h : ℝ}

theorem radialR_near (hf : IsRounding fl u) (hc : IsRounding ca us) (hg : IsRounding gl us) (hu : u ≤ ε) (hus : us ≤ ε)
    (hε : ε ≤ 1 / 10000) (hh : 0 < h) (vals derivs : List ℝ) (hd : vals.length ≤ derivs.length) (A0 : 0 ≤ A)
    (huM : u * (vals.length - 1 : ℕ) ≤ ε) (bv : ∀ x ∈ vals, |x| ≤ A) (bd : ∀ x ∈ derivs, |h * x| ≤ A) {r : ℝ} (h0 : 0 ≤ r)
    (hr : r * (1 + u) < h * (vals.length - 1 : ℕ)) :
    ∃ v w, radialR fl ca gl h vals derivs r = some (v, w) ∧ |v - hermite h (ent vals) (ent derivs) r| ≤ 420 * ε * A ∧
      |w - hermite' h (ent vals) (ent derivs) r| ≤ 855 * ε * (A / h) := by
  obtain ⟨i, e1, hi, x1, x2, nx⟩ := index_near hf hh hu huM hε h0 hr
  have hi' : i + 1 < vals.length := by omega
  have e0 : 0 ≤ ε := hf.nonneg.trans hu
  have bv' : ∀ j ≤ vals.length - 1, |ent vals j| ≤ A := by
    intro j hj
    have : j < vals.length := by omega
    simp only [ent, List.getElem?_eq_getElem this, Option.getD_some]
    exact bv _ (List.getElem_mem _)
  have bd' : ∀ j ≤ vals.length - 1, |h * ent derivs j| ≤ A := by
    intro j hj
    have : j < derivs.length := by omega
    simp only [ent, List.getElem?_eq_getElem this, Option.getD_some]
    exact bd _ (List.getElem_mem _)
  have r1 : r < h * (vals.length - 1 : ℕ) := by
    have := mul_nonneg h0 hf.nonneg
    linarith
  obtain ⟨p1, p2⟩ := piece_near hh e0 hε A0 hi bv' bd' h0 r1 x1 x2
  have nc := coefs_near hf hu hc hus hε hh A0 (bv' i (by omega)) (bv' (i + 1) (by omega)) (bd' i (by omega)) (bd' (i + 1) (by omega))
  have q1 := (abs_sub_le _ _ _).trans (add_le_add (value_near hg hus hε hh nc (powers_near hf hu hc hus hε nx)) p1)
  have q2 := (abs_sub_le _ _ _).trans (add_le_add (slope_near' hf hu hc hg hus hε hh nc nx) p2)
  refine ⟨_, _, ?_, q1.trans (by linarith), q2.trans (by linarith)⟩
  unfold radialR
  simp only [e1, Option.bind_eq_bind, storedR_spec fl ca h vals derivs hd hi', Option.bind_some, Option.pure_def, Int.cast_natCast]

theorem cubicR_near (hf : IsRounding fl u) (hu : u ≤ ε) (hε : ε ≤ 1 / 10000) (hh : 0 < h) (vals derivs : List ℝ) (hv : 0 < vals.length)
    (hd : vals.length ≤ derivs.length) (A0 : 0 ≤ A) (huM : u * (vals.length - 1 : ℕ) ≤ ε) (bv : ∀ x ∈ vals, |x| ≤ A)
    (bd : ∀ x ∈ derivs, |h * x| ≤ A) {s : CubicSpline ℝ} (hs : CubicSpline.mkR? fl h vals derivs = some s) {r : ℝ} (h0 : 0 ≤ r)
    (hr : r * (1 + u) < h * (vals.length - 1 : ℕ)) :
    ∃ v w, s.evaluateR fl r = .ret v ∧ s.evaluateDerivR fl r = .ret (v, w) ∧ |v - hermite h (ent vals) (ent derivs) r| ≤ 420 * ε * A ∧
      |w - hermite' h (ent vals) (ent derivs) r| ≤ 855 * ε * (A / h) := by
  obtain ⟨c, hc, hlen, hP⟩ := coeffsR_spec fl h vals derivs hv hd
  rw [hs] at hc
  obtain rfl := Option.some.inj hc
  obtain ⟨i, e1, hi, x1, x2, nx⟩ := index_near hf hh hu huM hε h0 hr
  have hi' : i + 1 < vals.length := by omega
  have e0 : 0 ≤ ε := hf.nonneg.trans hu
  have bv' : ∀ j ≤ vals.length - 1, |ent vals j| ≤ A := by
    intro j hj
    have : j < vals.length := by omega
    simp only [ent, List.getElem?_eq_getElem this, Option.getD_some]
    exact bv _ (List.getElem_mem _)
  have bd' : ∀ j ≤ vals.length - 1, |h * ent derivs j| ≤ A := by
    intro j hj
    have : j < derivs.length := by omega
    simp only [ent, List.getElem?_eq_getElem this, Option.getD_some]
    exact bd _ (List.getElem_mem _)
  have r1 : r < h * (vals.length - 1 : ℕ) := by
    have := mul_nonneg h0 hf.nonneg
    linarith
  have id0 : IsRounding (fun x : ℝ => x) 0 := ⟨le_rfl, fun x => by simp⟩
  obtain ⟨p1, p2⟩ := piece_near hh e0 hε A0 hi bv' bd' h0 r1 x1 x2
  have nc := coefs_near hf hu id0 e0 hε hh A0 (bv' i (by omega)) (bv' (i + 1) (by omega)) (bd' i (by omega)) (bd' (i + 1) (by omega))
  have np := powers_near hf hu id0 e0 hε nx
  have hb : ¬ ((i : ℤ) < 0 ∨ (i : ℤ) ≥ (c.length / 4 : ℕ)) := by rw [hlen]; omega
  have q1 := (abs_sub_le _ _ _).trans (add_le_add (value_near hf hu hε hh nc np) p1)
  have q2 := (abs_sub_le _ _ _).trans (add_le_add (slope_near hf hu hε hh nc np) p2)
  refine ⟨_, _, ?_, ?_, q1.trans (by linarith), q2.trans (by linarith)⟩
  · simp only [CubicSpline.evaluateR, e1, if_neg hb, hP i hi', Int.cast_natCast]
  · simp only [CubicSpline.evaluateDerivR, e1, if_neg hb, hP i hi', Int.cast_natCast]

end Verif.Rounding
