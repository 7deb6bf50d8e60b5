import Verif.Model.Harmonics
import Verif.Base.Tab
import Mathlib.Tactic.LinearCombination

/-! # Property theorems: spherical harmonics helper functions (C53, C59, C60) -/

namespace Verif.Props
open Verif.Harm

/-! ## C53 -/

/-- C53, what holds: the polar angle is right for every direction, the azimuth unless `y = 0` and `x < 0`.
Missing: the half-plane `y = 0, x < 0`, see `C53_violated`. -/
theorem C53_angles_partial (x y z : ℝ) (h : x ≠ 0 ∨ y ≠ 0) :
    (Real.cos (polarOf x y z) * Real.sqrt (x ^ 2 + y ^ 2 + z ^ 2) = z ∧
      Real.sin (polarOf x y z) * Real.sqrt (x ^ 2 + y ^ 2 + z ^ 2) = Real.sqrt (x ^ 2 + y ^ 2)) ∧
    (y ≠ 0 ∨ 0 < x → Real.cos (azimuthOf x y) * Real.sqrt (x ^ 2 + y ^ 2) = x ∧
      Real.sin (azimuthOf x y) * Real.sqrt (x ^ 2 + y ^ 2) = y) := by
  have hpos : 0 < x ^ 2 + y ^ 2 := by
    rcases h with h | h
    · have := sq_pos_of_ne_zero h; have := sq_nonneg y; linarith
    · have := sq_pos_of_ne_zero h; have := sq_nonneg x; linarith
  have hpos3 : 0 < x ^ 2 + y ^ 2 + z ^ 2 := by have := sq_nonneg z; linarith
  refine ⟨?_, fun hy => ?_⟩
  · unfold polarOf
    rw [show x * x + y * y + z * z = x ^ 2 + y ^ 2 + z ^ 2 by ring]
    set r := Real.sqrt (x ^ 2 + y ^ 2 + z ^ 2) with hr
    have hr0 : 0 < r := Real.sqrt_pos.mpr hpos3
    have hr2 : r ^ 2 = x ^ 2 + y ^ 2 + z ^ 2 := Real.sq_sqrt hpos3.le
    have hzr : |z| ≤ r := Real.abs_le_sqrt (by have := sq_nonneg x; have := sq_nonneg y; linarith)
    have h1 : -1 ≤ z / r := by rw [le_div_iff₀ hr0]; have := neg_le_of_abs_le hzr; linarith
    have h2 : z / r ≤ 1 := by rw [div_le_iff₀ hr0]; have := le_of_abs_le hzr; linarith
    refine ⟨by rw [Real.cos_arccos h1 h2, div_mul_cancel₀ _ hr0.ne'], ?_⟩
    rw [Real.sin_arccos]
    nth_rewrite 2 [← Real.sqrt_sq hr0.le]
    rw [← Real.sqrt_mul (by rw [sub_nonneg, ← sq_abs]; exact pow_le_one₀ (abs_nonneg _) (abs_le.mpr ⟨h1, h2⟩))]
    congr 1
    field_simp
    linarith
  · unfold azimuthOf
    rw [show x * x + y * y = x ^ 2 + y ^ 2 by ring]
    set r := Real.sqrt (x ^ 2 + y ^ 2) with hr
    have hr0 : 0 < r := Real.sqrt_pos.mpr hpos
    have hr2 : r ^ 2 = x ^ 2 + y ^ 2 := Real.sq_sqrt hpos.le
    have hxr : |x| ≤ r := Real.abs_le_sqrt (by have := sq_nonneg y; linarith)
    have h1 : -1 ≤ x / r := by rw [le_div_iff₀ hr0]; have := neg_le_of_abs_le hxr; linarith
    have h2 : x / r ≤ 1 := by rw [div_le_iff₀ hr0]; have := le_of_abs_le hxr; linarith
    have hs : Real.sin (Real.arccos (x / r)) * r = |y| := by
      rw [Real.sin_arccos]
      nth_rewrite 2 [← Real.sqrt_sq hr0.le]
      rw [← Real.sqrt_mul (by rw [sub_nonneg, ← sq_abs]; exact pow_le_one₀ (abs_nonneg _) (abs_le.mpr ⟨h1, h2⟩)), ← Real.sqrt_sq_eq_abs]
      congr 1
      field_simp
      linarith
    have hc : Real.cos (Real.arccos (x / r)) * r = x := by rw [Real.cos_arccos h1 h2, div_mul_cancel₀ _ hr0.ne']
    rcases lt_trichotomy y 0 with hn | h0 | hp
    · have : ¬ y > 0 := by linarith
      rw [if_neg this, if_pos hn]
      simp only [zero_sub, neg_mul, one_mul, Real.cos_neg, Real.sin_neg]
      exact ⟨hc, by rw [hs, abs_of_neg hn, neg_neg]⟩
    · have hx : 0 < x := by rcases hy with h | h; exacts [absurd h0 h, h]
      have hrx : r = x := by
        rw [hr, h0, show x ^ 2 + 0 ^ 2 = x ^ 2 by ring, Real.sqrt_sq hx.le]
      simp [h0, hrx]
    · have : ¬ y < 0 := by linarith
      rw [if_pos hp, if_neg this]
      simp only [sub_zero, one_mul]
      exact ⟨hc, by rw [hs, abs_of_pos hp]⟩

/-- C53 fails on `y = 0, x < 0`: the azimuth is 0 instead of π, so the harmonics of the directions `-x` and `x` coincide. -/
theorem C53_violated (x : ℝ) (hx : x < 0) : Real.cos (azimuthOf x 0) * Real.sqrt (x ^ 2 + 0 ^ 2) ≠ x ∧
    ∀ leg l m z, realSphHarmXyz leg l m x 0 z = realSphHarmXyz leg l m (-x) 0 z ∧
      sphHarmXyz leg l m x 0 z = sphHarmXyz leg l m (-x) 0 z := by
  have h0 : ∀ x, azimuthOf x 0 = 0 := by intro x; simp [azimuthOf]
  have hp : ∀ z, polarOf x 0 z = polarOf (-x) 0 z := by intro z; unfold polarOf; rw [neg_mul_neg]
  refine ⟨?_, fun leg l m z => ?_⟩
  · rw [h0, Real.cos_zero, one_mul]
    have := Real.sqrt_nonneg (x ^ 2 + 0 ^ 2)
    linarith
  · unfold realSphHarmXyz sphHarmXyz
    rw [h0, h0, hp]
    exact ⟨rfl, rfl⟩

example : ((1 : ℝ) ≠ 0 ∨ (2 : ℝ) ≠ 0) ∧ ((2 : ℝ) ≠ 0 ∨ (0 : ℝ) < 1) := ⟨Or.inl one_ne_zero, Or.inr one_pos⟩
example : (-1 : ℝ) < 0 := by norm_num

/-! ## C59 -/

theorem sqrt_ratio {a g g' : ℝ} (ha : 0 ≤ a) (hg : 0 < g) (hg' : 0 < g') : Real.sqrt (a * g / g') * g' / g = Real.sqrt (a * g' / g) := by
  rw [show a * g' / g = (a * g / g') * (g' / g) ^ 2 by field_simp, Real.sqrt_mul (by positivity), Real.sqrt_sq (by positivity)]
  ring

theorem neg_one_zpow_sq (m : ℤ) : ((-1 : ℝ) ^ m) * (-1 : ℝ) ^ m = 1 := by
  rw [← mul_zpow]; norm_num

theorem neg_one_zpow_neg (m : ℤ) : ((-1 : ℝ) ^ (-m)) = (-1 : ℝ) ^ m := by
  rw [zpow_neg, inv_eq_of_mul_eq_one_left (neg_one_zpow_sq m)]

theorem sphHarm_neg (leg : ℤ → ℤ → ℝ → ℝ) {l m : ℤ} (hm : 0 < m) (hl : m ≤ l) (θ φ : ℝ) :
    sphHarm leg l (-m) θ φ = ((-1 : ℝ) ^ m : ℝ) * (starRingEnd ℂ) (sphHarm leg l m θ φ) := by
  have hl' : (m : ℝ) ≤ l := by exact_mod_cast hl
  have hm' : (0 : ℝ) < m := by exact_mod_cast hm
  have g1 : 0 < Real.Gamma (1 + l - m) := Real.Gamma_pos_of_pos (by linarith)
  have g2 : 0 < Real.Gamma (1 + l + m) := Real.Gamma_pos_of_pos (by linarith)
  have hpi := Real.pi_pos
  have ha : (0 : ℝ) ≤ (2 * l + 1) / (4 * Real.pi) := by apply div_nonneg <;> nlinarith
  unfold sphHarm
  rw [if_neg (by omega), if_pos (by omega), map_mul, Complex.conj_ofReal, ← Complex.exp_conj, neg_neg]
  have e1 : (starRingEnd ℂ) (Complex.I * m * φ) = Complex.I * ((-m : ℤ) : ℂ) * φ := by
    rw [map_mul, map_mul, Complex.conj_I, Complex.conj_ofReal, map_intCast, Int.cast_neg]
    ring
  rw [e1, ← mul_assoc, ← Complex.ofReal_mul]
  congr 2
  have hs := sqrt_ratio ha g2 g1
  have h1 := neg_one_zpow_sq m
  have h2 := neg_one_zpow_neg m
  have key : (-1 : ℝ) ^ (-m) * Real.sqrt ((2 * l + 1) / (4 * Real.pi) * Real.Gamma (1 + l - ((-m : ℤ) : ℝ)) / Real.Gamma (1 + l + ((-m : ℤ) : ℝ)))
      * (-1 : ℝ) ^ (-m) * Real.Gamma (1 + l + ((-m : ℤ) : ℝ)) / Real.Gamma (1 + l - ((-m : ℤ) : ℝ)) * leg l m (Real.cos θ)
      = (-1 : ℝ) ^ m * ((-1 : ℝ) ^ m * Real.sqrt ((2 * l + 1) / (4 * Real.pi) * Real.Gamma (1 + l - m) / Real.Gamma (1 + l + m))
      * leg l m (Real.cos θ)) := by
    rw [Int.cast_neg, sub_neg_eq_add, ← sub_eq_add_neg, h2]
    calc _ = ((-1 : ℝ) ^ m * (-1 : ℝ) ^ m) * (Real.sqrt ((2 * l + 1) / (4 * Real.pi) * Real.Gamma (1 + l + m) / Real.Gamma (1 + l - m))
          * Real.Gamma (1 + l - m) / Real.Gamma (1 + l + m)) * leg l m (Real.cos θ) := by ring
      _ = _ := by rw [hs, h1]; linear_combination (-(Real.sqrt ((2 * l + 1) / (4 * Real.pi) * Real.Gamma (1 + l - m) / Real.Gamma (1 + l + m))) * leg l m (Real.cos θ)) * h1
  exact key

/-- C59: `sph_harm` obeys `Y_l^{-m} = (-1)^m conj Y_l^m`, for every associated Legendre function. -/
theorem C59_conjugation (leg : ℤ → ℤ → ℝ → ℝ) (l m : ℤ) (h : |m| ≤ l) (θ φ : ℝ) :
    sphHarm leg l (-m) θ φ = ((-1 : ℝ) ^ m : ℝ) * (starRingEnd ℂ) (sphHarm leg l m θ φ) := by
  obtain ⟨h1, h2⟩ := abs_le.mp h
  rcases lt_trichotomy m 0 with hm | rfl | hm
  · have := sphHarm_neg leg (m := -m) (l := l) (by omega) (by omega) θ φ
    rw [neg_neg] at this
    rw [this, map_mul, Complex.conj_ofReal, Complex.conj_conj, ← mul_assoc, ← Complex.ofReal_mul, neg_one_zpow_neg,
      neg_one_zpow_sq, Complex.ofReal_one, one_mul]
  · unfold sphHarm
    simp only [neg_zero, le_refl, if_true, map_mul, Complex.conj_ofReal, Int.cast_zero, mul_zero, zero_mul, Complex.exp_zero, map_one,
      zpow_zero, Complex.ofReal_one, one_mul]
  · exact sphHarm_neg leg hm h2 θ φ

example : |(-1 : ℤ)| ≤ 2 := by decide

/-! ## C60 -/

/-- C60: converting the real harmonics to complex ones as `sphericart_sph_harm` does gives back `sph_harm`. -/
theorem C60_real_complex (leg : ℤ → ℤ → ℝ → ℝ) (l m : ℤ) (h : |m| ≤ l) (θ φ : ℝ) :
    complexOf (fun m => realSphHarm leg l m θ φ) m = sphHarm leg l m θ φ := by
  have hs2 : Real.sqrt 2 ≠ 0 := by positivity
  unfold complexOf
  rcases lt_trichotomy m 0 with hm | rfl | hm
  · have hp : ¬ (-m < 0) := by omega
    have hz : ¬ (-m = 0) := by omega
    rw [if_pos hm]
    unfold realSphHarm
    simp only [if_pos hm, if_neg hp, if_neg hz]
    have := C59_conjugation leg l (-m) (by rwa [abs_neg]) θ φ
    rw [neg_neg] at this
    rw [this, neg_one_zpow_neg]
    generalize (-1 : ℝ) ^ m = t
    generalize sphHarm leg l (-m) θ φ = Y
    apply Complex.ext <;> simp <;> field_simp <;> rw [Real.sq_sqrt (by norm_num)] <;> ring
  · simp only [lt_irrefl, if_false, if_true]
    unfold realSphHarm sphHarm
    simp
  · have hp : ¬ (m < 0) := by omega
    have hz : ¬ (m = 0) := by omega
    have hn : -m < 0 := by omega
    rw [if_neg hp, if_neg hz]
    unfold realSphHarm
    simp only [if_neg hp, if_neg hz, if_pos hn, neg_neg, neg_one_zpow_neg]
    have h1 := neg_one_zpow_sq m
    generalize (-1 : ℝ) ^ m = t at h1
    generalize sphHarm leg l m θ φ = Y
    have h1' : (t : ℂ) * t = 1 := by rw [← Complex.ofReal_mul, h1, Complex.ofReal_one]
    have hs2' : ((Real.sqrt 2 : ℝ) : ℂ) ≠ 0 := Complex.ofReal_ne_zero.mpr hs2
    have e : ((t / Real.sqrt 2 : ℝ) : ℂ) * (((Real.sqrt 2 * t * Y.re : ℝ) : ℂ) + Complex.I * ((Real.sqrt 2 * t * Y.im : ℝ) : ℂ))
        = (t * t) * ((Y.re : ℂ) + Y.im * Complex.I) := by
      push_cast
      field_simp
    rw [e, h1', one_mul, Complex.re_add_im]

/-- Value of entry `lm` for a sample with real harmonics `g`. -/
noncomputable def complexLm (g : ℕ → ℝ) (lm : ℕ) : ℂ :=
  complexOf (fun m : ℤ => g (((Nat.sqrt lm * (Nat.sqrt lm + 1) : ℕ) : ℤ) + m).toNat) ((lm : ℤ) - (Nat.sqrt lm * (Nat.sqrt lm + 1) : ℕ))

theorem complexEntry_eq {n M : ℕ} {g : ℕ → ℕ → ℝ} {S : ℕ → ℕ → ℂ} {i l mm : ℕ} (hi : i < n) (hmm : mm < 2 * l + 1)
    (hM : (l + 1) * (l + 1) ≤ M) :
    complexEntry (tab2 n M g) ((i * M : ℕ) : ℤ) l ((mm : ℤ) - l) (tab2 n M S)
      = some (tab2 n M (fun i' lm => if i' = i ∧ lm = l * l + mm then complexLm (g i) lm else S i' lm)) := by
  have hsq : Nat.sqrt (l * l + mm) = l := Nat.sqrt_add_eq l (by omega)
  have hlt : l * l + mm < M := by nlinarith
  have hget : ∀ p : ℤ, 0 ≤ p → p < M → at? (tab2 n M g) ((i * M : ℕ) + p) = some (g i p.toNat) := by
    intro p h0 h1
    unfold at?
    rw [if_neg (by omega)]
    have : (((i * M : ℕ) : ℤ) + p).toNat = i * M + p.toNat := by omega
    rw [this]
    exact getElem?_tab2 hi (by omega)
  have hput : ∀ v, put? (tab2 n M S) (((i * M : ℕ) : ℤ) + ((l * l + mm : ℕ) : ℤ)) v
      = some (tab2 n M (fun i' lm => if i' = i ∧ lm = l * l + mm then v else S i' lm)) := by
    intro v
    unfold put?
    rw [if_neg (by omega)]
    have : (((i * M : ℕ) : ℤ) + ((l * l + mm : ℕ) : ℤ)).toNat = i * M + (l * l + mm) := by omega
    rw [this, wr_tab2 _ hi hlt]
    rfl
  have hfin : ∀ v, v = complexLm (g i) (l * l + mm) → tab2 n M (fun i' lm => if i' = i ∧ lm = l * l + mm then v else S i' lm)
      = tab2 n M (fun i' lm => if i' = i ∧ lm = l * l + mm then complexLm (g i) lm else S i' lm) := by
    intro v hv
    refine tab2_congr (fun a _ b _ => ?_)
    split_ifs with h
    · rw [hv, h.2]
    · rfl
  have hv : complexLm (g i) (l * l + mm) = complexOf (fun m : ℤ => g i (((l * (l + 1) : ℕ) : ℤ) + m).toNat) ((mm : ℤ) - l) := by
    unfold complexLm
    rw [hsq]
    congr 1
    push_cast
    ring
  have hp : ((l : ℤ) * (l + 1)) = ((l * (l + 1) : ℕ) : ℤ) := by push_cast; ring
  have hpl : ((l * l + mm : ℕ) : ℤ) = ((l * (l + 1) : ℕ) : ℤ) + ((mm : ℤ) - l) := by push_cast; ring
  have hM' : ((l * (l + 1) : ℕ) : ℤ) + l < M := by
    have : ((l + 1) * (l + 1) : ℕ) = l * (l + 1) + l + 1 := by ring
    have : l * (l + 1) + l < M := by omega
    exact_mod_cast this
  have hll : (l : ℤ) ≤ ((l * (l + 1) : ℕ) : ℤ) := by exact_mod_cast Nat.le_mul_of_pos_right l (by omega)
  unfold complexEntry
  rw [hp]
  by_cases h1 : (mm : ℤ) - l < 0
  · rw [if_pos h1, add_sub_assoc, hget _ (by omega) (by omega), add_assoc, hget _ (by omega) (by omega)]
    simp only [Option.bind_eq_bind, Option.bind_some]
    rw [← hpl, hput]
    congr 1
    apply hfin
    rw [hv]
    unfold complexOf
    rw [if_pos h1]
    dsimp only
    rw [← hpl, ← sub_eq_add_neg]
  · by_cases h2 : (mm : ℤ) - l = 0
    · rw [if_neg h1, if_pos h2, hget _ (by omega) (by omega)]
      simp only [Option.bind_eq_bind, Option.bind_some]
      have h3 : ((l * (l + 1) : ℕ) : ℤ) = ((l * l + mm : ℕ) : ℤ) := by rw [hpl, h2, add_zero]
      rw [h3, hput]
      congr 1
      apply hfin
      rw [hv]
      unfold complexOf
      rw [if_neg h1, if_pos h2, h2]
      dsimp only
      rw [add_zero, h3]
    · rw [if_neg h1, if_neg h2, add_assoc, hget _ (by omega) (by omega), add_sub_assoc, hget _ (by omega) (by omega)]
      simp only [Option.bind_eq_bind, Option.bind_some]
      rw [← hpl, hput]
      congr 1
      apply hfin
      rw [hv]
      unfold complexOf
      rw [if_neg h1, if_neg h2, mul_one_div]
      dsimp only
      rw [← hpl, ← sub_eq_add_neg]

/-- C60 (batch): `sphericart_complex` converts every sample in this way and accesses no memory outside its arrays. -/
theorem C60_batch (lmax n : ℕ) (re : List ℝ) (hre : re.length = n * ((lmax + 1) * (lmax + 1))) :
    ∃ out, sphericartComplex lmax n re = some out ∧ out.length = n * ((lmax + 1) * (lmax + 1)) ∧
      ∀ i < n, ∀ l ≤ lmax, ∀ mm ≤ 2 * l, out[i * ((lmax + 1) * (lmax + 1)) + (l * l + mm)]?
        = some (complexOf (fun m : ℤ => re.getD (((i * ((lmax + 1) * (lmax + 1)) + (l * l + l) : ℕ) : ℤ) + m).toNat 0) ((mm : ℤ) - l)) := by
  set M := (lmax + 1) * (lmax + 1) with hMdef
  set g : ℕ → ℕ → ℝ := fun i lm => re.getD (i * M + lm) 0 with hg
  have hre' : re = tab2 n M g := by
    rw [eq_tab2_iff]
    refine ⟨hre, fun q hq j hj => ?_⟩
    have : q * M + j < re.length := by rw [hre]; exact flat_lt hq hj
    simp [hg, this]
  set S : ℕ → ℕ → List ℂ := fun i p => tab2 n M (fun i' lm => if i' < i ∨ (i' = i ∧ lm < p) then complexLm (g i') lm else 0) with hS
  have step : ∀ i < n, ∀ l ≤ lmax, ∀ mm < 2 * l + 1,
      complexEntry re ((i * M : ℕ) : ℤ) l ((mm : ℤ) - l) (S i (l * l + mm)) = some (S i (l * l + (mm + 1))) := by
    intro i hi l hl mm hmm
    rw [hre', hS, complexEntry_eq hi hmm (by rw [hMdef]; exact Nat.mul_le_mul (by omega) (by omega))]
    congr 1
    refine tab2_congr (fun a _ b _ => ?_)
    by_cases e : a = i ∧ b = l * l + mm
    · obtain ⟨rfl, rfl⟩ := e
      simp
    · rw [if_neg e]
      have : (a < i ∨ a = i ∧ b < l * l + mm) ↔ (a < i ∨ a = i ∧ b < l * l + (mm + 1)) := by omega
      simp only [this]
  have h1 : ∀ i < n, ∀ l ≤ lmax, loop (2 * l + 1) (fun mm => complexEntry re ((i * M : ℕ) : ℤ) l ((mm : ℤ) - l)) (S i (l * l))
      = some (S i ((l + 1) * (l + 1))) := by
    intro i hi l hl
    have := loop_eq (n := 2 * l + 1) (fun mm => S i (l * l + mm)) (fun mm hmm => step i hi l hl mm hmm)
    rw [show (l + 1) * (l + 1) = l * l + (2 * l + 1) by ring]
    exact this
  have h2 : ∀ i < n, loop (lmax + 1) (fun l => loop (2 * l + 1) (fun mm => complexEntry re ((i * M : ℕ) : ℤ) l ((mm : ℤ) - l))) (S i 0)
      = some (S (i + 1) 0) := by
    intro i hi
    have := loop_eq (n := lmax + 1) (fun l => S i (l * l)) (fun l hl => h1 i hi l (by omega))
    rw [← hMdef] at this
    rw [show S (i + 1) 0 = S i M by
      rw [hS]
      refine tab2_congr (fun a _ b hb => ?_)
      have : (a < i + 1 ∨ a = i + 1 ∧ b < 0) ↔ (a < i ∨ a = i ∧ b < M) := by omega
      simp only [this]]
    exact this
  have h3 : sphericartComplex lmax n re = some (S n 0) := by
    unfold sphericartComplex
    have h0 : List.replicate (n * ((lmax + 1) * (lmax + 1))) (0 : ℂ) = S 0 0 := by
      rw [hS]
      simp only [Nat.not_lt_zero, and_false, or_false, if_false]
      rw [eq_tab2_iff]
      exact ⟨by simp [hMdef], fun q hq j hj => by
        have := flat_lt hq hj
        simp [← hMdef, this]⟩
    rw [h0]
    exact loop_eq (fun i => S i 0) (fun i hi => h2 i hi)
  refine ⟨_, h3, by rw [hS]; exact length_tab2 .., fun i hi l hl mm hmm => ?_⟩
  have hlt : l * l + mm < M := by
    have : (l + 1) * (l + 1) ≤ M := by rw [hMdef]; exact Nat.mul_le_mul (by omega) (by omega)
    nlinarith
  rw [hS, getElem?_tab2 hi hlt, if_pos (Or.inl hi)]
  have hsq : Nat.sqrt (l * l + mm) = l := Nat.sqrt_add_eq l (by omega)
  unfold complexLm
  rw [hsq]
  congr 1
  have e1 : ((l * l + mm : ℕ) : ℤ) - ((l * (l + 1) : ℕ) : ℤ) = (mm : ℤ) - l := by push_cast; ring
  rw [e1]
  have e2 : ∀ m : ℤ, -(l : ℤ) ≤ m → g i ((((l * (l + 1) : ℕ) : ℤ) + m).toNat)
      = re.getD (((i * M + (l * l + l) : ℕ) : ℤ) + m).toNat 0 := by
    intro m hm
    simp only [hg]
    congr 1
    have : l * (l + 1) = l * l + l := by ring
    omega
  unfold complexOf
  dsimp only
  split_ifs with c1 c2
  · rw [e2 _ (by omega), e2 _ (by omega)]
  · rw [e2 _ (by omega)]
  · rw [e2 _ (by omega), e2 _ (by omega)]

example : ([1, 2, 3, 4, 5, 6, 7, 8] : List ℝ).length = 2 * ((1 + 1) * (1 + 1)) := rfl

end Verif.Props
