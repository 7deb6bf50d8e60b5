import Verif.Model.CubicSpline
import Mathlib.Tactic.FieldSimp
import Mathlib.Tactic.LinearCombination
import Mathlib.Analysis.Calculus.Deriv.Basic
import Mathlib.Analysis.Calculus.Deriv.Pow
import Mathlib.Analysis.Calculus.Deriv.Add
import Mathlib.Analysis.Calculus.Deriv.Mul

/-! # Helper lemmas: splines (C08 - C13) -/

namespace Verif.Spline

section gen
variable {K : Type*} [Field K]

/-- Quadratic Hermite coefficient. -/
def herm2 (h v d v' d' : K) : K := (-3 * v - 2 * h * d + 3 * v' - h * d') / (h * h)
/-- Cubic Hermite coefficient. -/
def herm3 (h v d v' d' : K) : K := (2 * v + h * d - 2 * v' + h * d') / (h * h * h)

/-- Cubic on one interval, in the local coordinate. -/
def seg (h v d v' d' x : K) : K :=
  v + d * x + herm2 h v d v' d' * (x * x) + herm3 h v d v' d' * (x * x * x)
/-- Its derivative. -/
def segD (h v d v' d' x : K) : K := d + 2 * herm2 h v d v' d' * x + 3 * herm3 h v d v' d' * (x * x)

theorem seg_zero (h v d v' d' : K) : seg h v d v' d' 0 = v := by simp [seg]
theorem segD_zero (h v d v' d' : K) : segD h v d v' d' 0 = d := by simp [segD]

theorem seg_h {h : K} (hh : h ≠ 0) (v d v' d' : K) : seg h v d v' d' h = v' := by
  unfold seg herm2 herm3; field_simp; ring

theorem segD_h {h : K} (hh : h ≠ 0) (v d v' d' : K) : segD h v d v' d' h = d' := by
  unfold segD herm2 herm3; field_simp; ring

theorem getElem?_set_ne' {c : List K} {i j : ℕ} (v : K) (h : i ≠ j) : (c.set i v)[j]? = c[j]? := by
  simp [List.getElem?_set, h]

theorem getElem?_set_self' {c : List K} {i : ℕ} (v : K) (h : i < c.length) :
    (c.set i v)[i]? = some v := by
  simp [List.getElem?_set, h]

theorem generateCoefficients_spec (h : K) (vals derivs : List K) (hv : 0 < vals.length)
    (hd : vals.length ≤ derivs.length) :
    ∃ c, generateCoefficients h vals derivs = some c ∧ c.length = 4 * (vals.length - 1) ∧
      ∀ i, (hi : i + 1 < vals.length) →
        c[4 * i]? = some vals[i] ∧ c[4 * i + 1]? = some derivs[i] ∧
        c[4 * i + 2]? = some (herm2 h vals[i] derivs[i] vals[i + 1] derivs[i + 1]) ∧
        c[4 * i + 3]? = some (herm3 h vals[i] derivs[i] vals[i + 1] derivs[i + 1]) := by
  unfold generateCoefficients
  rw [if_neg (by omega)]
  have hstep : ∀ k < vals.length - 1, ∀ c : List K, (c.length = 4 * (vals.length - 1) ∧
      ∀ i, i < k → (hi : i + 1 < vals.length) →
        c[4 * i]? = some vals[i] ∧ c[4 * i + 1]? = some derivs[i] ∧
        c[4 * i + 2]? = some (herm2 h vals[i] derivs[i] vals[i + 1] derivs[i + 1]) ∧
        c[4 * i + 3]? = some (herm3 h vals[i] derivs[i] vals[i + 1] derivs[i + 1])) →
      ∃ c', genBody h vals derivs k c = some c' ∧ (c'.length = 4 * (vals.length - 1) ∧
      ∀ i, i < k + 1 → (hi : i + 1 < vals.length) →
        c'[4 * i]? = some vals[i] ∧ c'[4 * i + 1]? = some derivs[i] ∧
        c'[4 * i + 2]? = some (herm2 h vals[i] derivs[i] vals[i + 1] derivs[i + 1]) ∧
        c'[4 * i + 3]? = some (herm3 h vals[i] derivs[i] vals[i + 1] derivs[i + 1])) := by
    rintro k hk c ⟨hlen, hP⟩
    unfold genBody
    have e1 : vals[k]? = some vals[k] := List.getElem?_eq_getElem (by omega)
    have e2 : derivs[k]? = some derivs[k] := List.getElem?_eq_getElem (by omega)
    have e3 : vals[k + 1]? = some vals[k + 1] := List.getElem?_eq_getElem (by omega)
    have e4 : derivs[k + 1]? = some derivs[k + 1] := List.getElem?_eq_getElem (by omega)
    simp only [e1, e2, e3, e4, Option.bind_eq_bind, Option.bind_some]
    rw [wr_eq _ (by omega)]
    simp only [Option.bind_some]
    rw [wr_eq _ (by simp; omega)]
    simp only [Option.bind_some]
    have f0 : ((c.set (4 * k) vals[k]).set (4 * k + 1) derivs[k])[4 * k]? = some vals[k] := by
      rw [getElem?_set_ne' _ (by omega), getElem?_set_self' _ (by omega)]
    have f1 : ((c.set (4 * k) vals[k]).set (4 * k + 1) derivs[k])[4 * k + 1]? = some derivs[k] := by
      rw [getElem?_set_self' _ (by simp; omega)]
    rw [f0]; simp only [Option.bind_some]
    rw [f1]; simp only [Option.bind_some]
    rw [wr_eq _ (by simp; omega)]
    simp only [Option.bind_some]
    rw [wr_eq _ (by simp; omega)]
    refine ⟨_, rfl, by simp [hlen], ?_⟩
    intro i hi hi'
    by_cases hik : i = k
    · subst hik
      refine ⟨?_, ?_, ?_, ?_⟩
      · rw [getElem?_set_ne' _ (by omega), getElem?_set_ne' _ (by omega), f0]
      · rw [getElem?_set_ne' _ (by omega), getElem?_set_ne' _ (by omega), f1]
      · rw [getElem?_set_ne' _ (by omega), getElem?_set_self' _ (by simp; omega)]; rfl
      · rw [getElem?_set_self' _ (by simp; omega)]; rfl
    · have := hP i (by omega) hi'
      refine ⟨?_, ?_, ?_, ?_⟩ <;>
        (rw [getElem?_set_ne' _ (by omega), getElem?_set_ne' _ (by omega), getElem?_set_ne' _ (by omega),
          getElem?_set_ne' _ (by omega)])
      · exact this.1
      · exact this.2.1
      · exact this.2.2.1
      · exact this.2.2.2
  obtain ⟨c, hc, hlen, hP⟩ := loop_inv _ (s := List.replicate (4 * (vals.length - 1)) 0)
    ⟨by simp, by intro i hi; omega⟩ hstep
  exact ⟨c, hc, hlen, fun i hi => hP i (by omega) hi⟩

variable [LinearOrder K] [IsStrictOrderedRing K] [FloorRing K]

/-- A spline object built from node data. -/
theorem mk?_spec (h : K) (vals derivs : List K) (hv : 0 < vals.length) (hd : vals.length ≤ derivs.length) :
    ∃ s : CubicSpline K, CubicSpline.mk? h vals derivs = some s ∧ s.h = h ∧
      s.c.length = 4 * (vals.length - 1) ∧
      ∀ i, (hi : i + 1 < vals.length) → coeffs4 s.c (i : ℤ) = some (vals[i], derivs[i],
        herm2 h vals[i] derivs[i] vals[i + 1] derivs[i + 1],
        herm3 h vals[i] derivs[i] vals[i + 1] derivs[i + 1]) := by
  obtain ⟨c, hc, hlen, hP⟩ := generateCoefficients_spec h vals derivs hv hd
  refine ⟨⟨h, c⟩, by simp [CubicSpline.mk?, hc], rfl, hlen, ?_⟩
  intro i hi
  obtain ⟨h0, h1, h2, h3⟩ := hP i hi
  unfold coeffs4
  rw [if_neg (by omega)]
  simp [h0, h1, h2, h3]

/-- The interval containing `r`. -/
theorem exists_interval {h r : K} (hh : 0 < h) {m : ℕ} (h0 : 0 ≤ r) (h1 : r < h * m) :
    ∃ i : ℕ, i < m ∧ h * i ≤ r ∧ r < h * (i + 1) := by
  have hq : 0 ≤ r / h := div_nonneg h0 hh.le
  refine ⟨⌊r / h⌋.toNat, ?_, ?_, ?_⟩
  · have : ⌊r / h⌋ < (m : ℤ) := by
      rw [Int.floor_lt, div_lt_iff₀ hh]; push_cast; linarith
    have := Int.floor_nonneg.mpr hq
    omega
  · have h3 := Int.floor_le (r / h)
    have h4 : ((⌊r / h⌋.toNat : ℕ) : K) = ((⌊r / h⌋ : ℤ) : K) := by
      rw [← Int.cast_natCast, Int.toNat_of_nonneg (Int.floor_nonneg.mpr hq)]
    rw [h4]
    rw [le_div_iff₀ hh] at h3; linarith
  · have h3 := Int.lt_floor_add_one (r / h)
    have h4 : ((⌊r / h⌋.toNat : ℕ) : K) = ((⌊r / h⌋ : ℤ) : K) := by
      rw [← Int.cast_natCast, Int.toNat_of_nonneg (Int.floor_nonneg.mpr hq)]
    rw [h4]
    rw [div_lt_iff₀ hh] at h3; linarith

theorem eval_on {s : CubicSpline K} {h : K} (hh : 0 < h) {vals derivs : List K} (hv : 0 < vals.length)
    (hd : vals.length ≤ derivs.length) (hs : CubicSpline.mk? h vals derivs = some s) {r : K} {i : ℕ}
    (hi : i + 1 < vals.length) (h1 : h * i ≤ r) (h2 : r < h * (i + 1)) :
    s.evaluate r = .ret (seg h vals[i] derivs[i] vals[i + 1] derivs[i + 1] (r - h * i)) ∧
    s.evaluateDeriv r = .ret (seg h vals[i] derivs[i] vals[i + 1] derivs[i + 1] (r - h * i),
      segD h vals[i] derivs[i] vals[i + 1] derivs[i + 1] (r - h * i)) ∧
    s.evaluateDerivDivided r = .ret (seg h vals[i] derivs[i] vals[i + 1] derivs[i + 1] (r - h * i),
      segD h vals[i] derivs[i] vals[i + 1] derivs[i + 1] (r - h * i) / r) ∧
    s.evaluateDerivKokkos r = .ret (seg h vals[i] derivs[i] vals[i + 1] derivs[i + 1] (r - h * i),
      segD h vals[i] derivs[i] vals[i + 1] derivs[i + 1] (r - h * i)) ∧
    s.evaluateDerivDividedKokkos r = .ret (seg h vals[i] derivs[i] vals[i + 1] derivs[i + 1] (r - h * i),
      segD h vals[i] derivs[i] vals[i + 1] derivs[i + 1] (r - h * i) / r) := by
  obtain ⟨s', hs', e1, e2, e3⟩ := mk?_spec h vals derivs hv hd
  rw [hs] at hs'
  obtain rfl := Option.some.inj hs'
  have ht : truncInt (r / s.h) = i := by rw [e1]; exact truncInt_div hh i h1 h2
  have hc := e3 i hi
  unfold CubicSpline.evaluate CubicSpline.evaluateDeriv CubicSpline.evaluateDerivDivided
    CubicSpline.evaluateDerivKokkos CubicSpline.evaluateDerivDividedKokkos
  simp only [ht, hc]
  rw [if_neg (by rw [e2]; omega), if_neg (by rw [e2]; omega), if_neg (by rw [e2]; omega),
    if_neg (by rw [e2]; omega), if_neg (by rw [e2]; omega), e1]
  simp [seg, segD]

theorem seg_eq_poly {h : K} (hh : h ≠ 0) (a0 a1 a2 a3 y x : K) :
    seg h (a0 + a1 * y + a2 * y ^ 2 + a3 * y ^ 3) (a1 + 2 * a2 * y + 3 * a3 * y ^ 2)
      (a0 + a1 * (y + h) + a2 * (y + h) ^ 2 + a3 * (y + h) ^ 3)
      (a1 + 2 * a2 * (y + h) + 3 * a3 * (y + h) ^ 2) x =
    a0 + a1 * (y + x) + a2 * (y + x) ^ 2 + a3 * (y + x) ^ 3 := by
  unfold seg herm2 herm3; field_simp; ring

theorem segD_eq_poly {h : K} (hh : h ≠ 0) (a0 a1 a2 a3 y x : K) :
    segD h (a0 + a1 * y + a2 * y ^ 2 + a3 * y ^ 3) (a1 + 2 * a2 * y + 3 * a3 * y ^ 2)
      (a0 + a1 * (y + h) + a2 * (y + h) ^ 2 + a3 * (y + h) ^ 3)
      (a1 + 2 * a2 * (y + h) + 3 * a3 * (y + h) ^ 2) x =
    a1 + 2 * a2 * (y + x) + 3 * a3 * (y + x) ^ 2 := by
  unfold segD herm2 herm3; field_simp; ring

end gen

section real
open Filter Topology Set

theorem seg_hasDerivAt (h v d v' d' x : ℝ) : HasDerivAt (seg h v d v' d') (segD h v d v' d' x) x := by
  unfold seg segD
  have h1 : HasDerivAt (fun x : ℝ => x) 1 x := hasDerivAt_id x
  have h2 := h1.mul h1
  have h3 := h2.mul h1
  have := (((hasDerivAt_const x v).add (h1.const_mul d)).add (h2.const_mul (herm2 h v d v' d'))).add
    (h3.const_mul (herm3 h v d v' d'))
  refine this.congr_deriv ?_
  simp only [Pi.mul_apply]
  ring

theorem segD_continuous (h v d v' d' : ℝ) : Continuous (segD h v d v' d') := by
  unfold segD; fun_prop

theorem hasDerivAt_glue {f gl gr : ℝ → ℝ} {D a : ℝ} (hl : f =ᶠ[𝓝[<] a] gl) (hr : f =ᶠ[𝓝[≥] a] gr)
    (hgl : HasDerivAt gl D a) (hgr : HasDerivAt gr D a) (hval : f a = gl a) : HasDerivAt f D a := by
  have h1 : HasDerivWithinAt f D (Iio a) a := hgl.hasDerivWithinAt.congr_of_eventuallyEq hl hval
  have h2 : HasDerivWithinAt f D (Ici a) a :=
    hgr.hasDerivWithinAt.congr_of_eventuallyEq hr (hr.self_of_nhdsWithin self_mem_Ici)
  have := h1.union h2
  rwa [Iio_union_Ici, hasDerivWithinAt_univ] at this

theorem continuousAt_glue {f gl gr : ℝ → ℝ} {a : ℝ} (hl : f =ᶠ[𝓝[<] a] gl) (hr : f =ᶠ[𝓝[≥] a] gr)
    (hgl : ContinuousAt gl a) (hgr : ContinuousAt gr a) (hval : f a = gl a) : ContinuousAt f a := by
  have h1 : ContinuousWithinAt f (Iio a) a := hgl.continuousWithinAt.congr_of_eventuallyEq hl hval
  have h2 : ContinuousWithinAt f (Ici a) a :=
    hgr.continuousWithinAt.congr_of_eventuallyEq hr (hr.self_of_nhdsWithin self_mem_Ici)
  have := h1.union h2
  rwa [Iio_union_Ici, continuousWithinAt_univ] at this

/-- Piecewise functions on a grid: near every point the left and right pieces are grid pieces. -/
theorem piecewise_near {h : ℝ} (hh : 0 < h) {m : ℕ} {f : ℝ → ℝ} {g : ℕ → ℝ → ℝ}
    (hf : ∀ i < m, ∀ r, h * i ≤ r → r < h * (i + 1) → f r = g i r)
    (hmatch : ∀ i, i + 1 < m → g i (h * (i + 1)) = g (i + 1) (h * (i + 1)))
    {r : ℝ} (h0 : 0 < r) (h1 : r < h * m) :
    ∃ il ir : ℕ, il < m ∧ ir < m ∧ f =ᶠ[𝓝[<] r] g il ∧ f =ᶠ[𝓝[≥] r] g ir ∧ f r = g il r ∧ f r = g ir r ∧
      (il = ir ∨ (ir = il + 1 ∧ r = h * (il + 1))) ∧ h * ir ≤ r ∧ r < h * (ir + 1) := by
  obtain ⟨i, hi, hl, hr⟩ := exists_interval hh h0.le h1
  have hR : f =ᶠ[𝓝[≥] r] g i := by
    have : Ico r (h * (i + 1)) ∈ 𝓝[≥] r := Ico_mem_nhdsGE hr
    filter_upwards [this] with y hy
    exact hf i hi y (le_trans hl hy.1) hy.2
  have hfr := hf i hi r hl hr
  rcases lt_or_eq_of_le hl with hlt | heq
  · refine ⟨i, i, hi, hi, ?_, hR, hfr, hfr, Or.inl rfl, hl, hr⟩
    have : Ioo (h * i) r ∈ 𝓝[<] r := Ioo_mem_nhdsLT hlt
    filter_upwards [this] with y hy
    exact hf i hi y hy.1.le (hy.2.trans hr)
  · obtain ⟨k, rfl⟩ : ∃ k, i = k + 1 := by
      rcases i with _ | k
      · simp at heq; linarith
      · exact ⟨k, rfl⟩
    have hk : r = h * (k + 1) := by rw [← heq]; push_cast; ring
    refine ⟨k, k + 1, by omega, hi, ?_, hR, ?_, hfr, Or.inr ⟨rfl, hk⟩, hl, hr⟩
    · have hkr : h * k < r := by rw [hk]; nlinarith
      have : Ioo (h * k) r ∈ 𝓝[<] r := Ioo_mem_nhdsLT hkr
      filter_upwards [this] with y hy
      exact hf k (by omega) y hy.1.le (by rw [← hk]; exact hy.2)
    · rw [hfr, hk, hmatch k hi]

end real

end Verif.Spline
