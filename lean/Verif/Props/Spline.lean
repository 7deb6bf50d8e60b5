import Verif.Lemmas.SplineSet
import Mathlib.Analysis.Calculus.Deriv.Shift
import Mathlib.Tactic.NormNum
import Mathlib.Tactic.IntervalCases
import Mathlib.Data.Rat.Floor

/-! # Property theorems: splines (C08 - C13) -/

namespace Verif.Props
open Verif.Spline Filter Topology

section gen
variable {K : Type*} [Field K] [LinearOrder K] [IsStrictOrderedRing K] [FloorRing K]

/-- C08: at node `i` (not the last) the spline returns the node data. -/
theorem C08_interpolates (h : K) (hh : 0 < h) (vals derivs : List K) (hlen : vals.length = derivs.length)
    (s : CubicSpline K) (hs : CubicSpline.mk? h vals derivs = some s) (i : ℕ) (hi : i + 1 < vals.length) :
    s.evaluate (h * i) = .ret vals[i] ∧ s.evaluateDeriv (h * i) = .ret (vals[i], derivs[i]) := by
  have := eval_on hh (by omega) hlen.le hs (r := h * i) hi le_rfl (by nlinarith)
  obtain ⟨h1, h2, _⟩ := this
  rw [h1, h2]
  simp [seg_zero, segD_zero]

/-- C08 (constructor): construction succeeds for every non-empty data set of matching lengths. -/
theorem C08_constructs (h : K) (vals derivs : List K) (hv : 0 < vals.length)
    (hlen : vals.length = derivs.length) : (CubicSpline.mk? h vals derivs).isSome := by
  obtain ⟨s, hs, _⟩ := mk?_spec h vals derivs hv hlen.le
  rw [hs]; rfl

/-- C11: data sampled from a polynomial of degree at most three are reproduced on the whole table. -/
theorem C11_reproduces_cubics (h : K) (hh : 0 < h) (a0 a1 a2 a3 : K) (vals derivs : List K)
    (hlen : vals.length = derivs.length)
    (hvals : ∀ i (hi : i < vals.length),
      vals[i] = a0 + a1 * (h * i) + a2 * (h * i) ^ 2 + a3 * (h * i) ^ 3)
    (hderivs : ∀ i (hi : i < derivs.length), derivs[i] = a1 + 2 * a2 * (h * i) + 3 * a3 * (h * i) ^ 2)
    (s : CubicSpline K) (hs : CubicSpline.mk? h vals derivs = some s)
    (r : K) (h0 : 0 ≤ r) (h1 : r < h * (vals.length - 1 : ℕ)) :
    s.evaluate r = .ret (a0 + a1 * r + a2 * r ^ 2 + a3 * r ^ 3) ∧
    s.evaluateDeriv r = .ret (a0 + a1 * r + a2 * r ^ 2 + a3 * r ^ 3, a1 + 2 * a2 * r + 3 * a3 * r ^ 2) := by
  obtain ⟨i, hi, hl, hr⟩ := exists_interval hh h0 h1
  have hi' : i + 1 < vals.length := by omega
  obtain ⟨e1, e2, _⟩ := eval_on hh (by omega) hlen.le hs hi' hl hr
  have v0 := hvals i (by omega)
  have v1 := hvals (i + 1) hi'
  have d0 := hderivs i (by omega)
  have d1 := hderivs (i + 1) (by omega)
  have hc : h * ((i + 1 : ℕ) : K) = h * i + h := by push_cast; ring
  rw [hc] at v1 d1
  rw [e1, e2, v0, v1, d0, d1, seg_eq_poly hh.ne', segD_eq_poly hh.ne']
  have : h * (i : K) + (r - h * i) = r := by ring
  rw [this]
  exact ⟨rfl, rfl⟩

/-- The data of the straight line `x` on three nodes meet the hypotheses of C08, C10, C11. -/
example : ∃ s, CubicSpline.mk? (1 : ℚ) [0, 1, 2] [1, 1, 1] = some s ∧
    s.evaluateDeriv (3 / 2) = .ret (3 / 2, 1) := by
  obtain ⟨s, hs, _⟩ := mk?_spec (1 : ℚ) [0, 1, 2] [1, 1, 1] (by simp) (by simp)
  refine ⟨s, hs, ?_⟩
  have := (C11_reproduces_cubics (1 : ℚ) one_pos 0 1 0 0 [0, 1, 2] [1, 1, 1] rfl
    (by intro i hi; simp at hi; interval_cases i <;> simp) (by intro i hi; simp at hi; interval_cases i <;> simp)
    s hs (3 / 2) (by norm_num) (by norm_num)).2
  rw [this]; norm_num

/-- Exact behaviour of the bounds check: with at least two nodes, `evaluate` throws exactly for
`r ≤ -h` and `r ≥ h*(n-1)`; otherwise it returns a value, never touching memory outside the table. -/
theorem C10_bounds_partial (h : K) (hh : 0 < h) (vals derivs : List K) (hn : 2 ≤ vals.length)
    (hlen : vals.length = derivs.length) (s : CubicSpline K) (hs : CubicSpline.mk? h vals derivs = some s)
    (r : K) :
    (s.evaluate r = .exc ↔ r ≤ -h ∨ h * (vals.length - 1 : ℕ) ≤ r) ∧
    (s.evaluateDeriv r = .exc ↔ r ≤ -h ∨ h * (vals.length - 1 : ℕ) ≤ r) ∧
    (s.evaluateDerivDivided r = .exc ↔ r ≤ -h ∨ h * (vals.length - 1 : ℕ) ≤ r) ∧
    s.evaluate r ≠ .ub ∧ s.evaluateDeriv r ≠ .ub ∧ s.evaluateDerivDivided r ≠ .ub := by
  obtain ⟨s', hs', e1, e2, e3⟩ := mk?_spec h vals derivs (by omega) hlen.le
  rw [hs] at hs'
  obtain rfl := Option.some.inj hs'
  have hc : (truncInt (r / s.h) < 0 ∨ truncInt (r / s.h) ≥ ((s.c.length / 4 : ℕ) : ℤ)) ↔
      (r ≤ -h ∨ h * (vals.length - 1 : ℕ) ≤ r) := by
    have h4 : s.c.length / 4 = vals.length - 1 := by rw [e2]; omega
    rw [h4, e1]
    refine or_congr ?_ ?_
    · rw [truncInt_neg_iff, div_le_iff₀ hh]; constructor <;> intro h' <;> linarith
    · rw [ge_iff_le, ← not_lt, truncInt_div_lt_iff hh (by omega), not_lt]
  unfold CubicSpline.evaluate CubicSpline.evaluateDeriv CubicSpline.evaluateDerivDivided
  by_cases hb : r ≤ -h ∨ h * (vals.length - 1 : ℕ) ≤ r
  · have hb' := hc.mpr hb
    simp only [if_pos hb']
    simp [hb]
  · have hb' := fun h => hb (hc.mp h)
    simp only [if_neg hb']
    have hpos : 0 ≤ truncInt (r / s.h) := by by_contra h'; exact hb' (Or.inl (by omega))
    have hlt : truncInt (r / s.h) < ((s.c.length / 4 : ℕ) : ℤ) := by
      by_contra h'; exact hb' (Or.inr (by omega))
    obtain ⟨k, hk⟩ := Int.eq_ofNat_of_zero_le hpos
    have hk' : k + 1 < vals.length := by rw [hk, e2] at hlt; omega
    rw [hk, e3 k hk']
    simp [hb]

end gen

/-- C10 as stated is violated: for `-h < r < 0` the C++ cast truncates to index 0, so `evaluate` does not throw
but extrapolates the first interval.  Witness: three nodes of the line `x`, `r = -1/2`. -/
theorem C10_violated_negative_r : ∃ (s : CubicSpline ℚ) (r : ℚ),
    CubicSpline.mk? (1 : ℚ) [0, 1, 2] [1, 1, 1] = some s ∧ r < 0 ∧ s.evaluate r ≠ .exc := by
  obtain ⟨s, hs, _⟩ := mk?_spec (1 : ℚ) [0, 1, 2] [1, 1, 1] (by simp) (by simp)
  refine ⟨s, -1 / 2, hs, by norm_num, ?_⟩
  have := (C10_bounds_partial (1 : ℚ) one_pos [0, 1, 2] [1, 1, 1] (by simp) rfl s hs (-1 / 2)).1
  rw [Ne, this]
  norm_num

section real

/-- C08 (right ends): inside interval `i` the spline tends to the data of node `i+1`. -/
theorem C08_right_end (h : ℝ) (hh : 0 < h) (vals derivs : List ℝ) (hlen : vals.length = derivs.length)
    (s : CubicSpline ℝ) (hs : CubicSpline.mk? h vals derivs = some s) (i : ℕ) (hi : i + 1 < vals.length) :
    ∃ f f' : ℝ → ℝ, (∀ r, h * i ≤ r → r < h * (i + 1) → s.evaluateDeriv r = .ret (f r, f' r)) ∧
      Tendsto f (𝓝[<] (h * (i + 1))) (𝓝 vals[i + 1]) ∧
      Tendsto f' (𝓝[<] (h * (i + 1))) (𝓝 derivs[i + 1]) := by
  refine ⟨fun r => seg h vals[i] derivs[i] vals[i + 1] derivs[i + 1] (r - h * i),
    fun r => segD h vals[i] derivs[i] vals[i + 1] derivs[i + 1] (r - h * i), ?_, ?_, ?_⟩
  · intro r h1 h2
    exact (eval_on hh (by omega) hlen.le hs hi h1 h2).2.1
  · have hc : Continuous fun r => seg h vals[i] derivs[i] vals[i + 1] derivs[i + 1] (r - h * i) := by
      have h1 : Continuous (seg h vals[i] derivs[i] vals[i + 1] derivs[i + 1]) :=
        continuous_iff_continuousAt.mpr fun x => (seg_hasDerivAt _ _ _ _ _ x).continuousAt
      exact h1.comp (by fun_prop)
    have := (hc.tendsto (h * (i + 1))).mono_left (nhdsWithin_le_nhds (s := Set.Iio (h * (i + 1))))
    have e : h * ((i : ℝ) + 1) - h * i = h := by ring
    simp only [e, seg_h hh.ne'] at this
    exact this
  · have hc : Continuous fun r => segD h vals[i] derivs[i] vals[i + 1] derivs[i + 1] (r - h * i) :=
      (segD_continuous _ _ _ _ _).comp (by fun_prop)
    have := (hc.tendsto (h * (i + 1))).mono_left (nhdsWithin_le_nhds (s := Set.Iio (h * (i + 1))))
    have e : h * ((i : ℝ) + 1) - h * i = h := by ring
    simp only [e, segD_h hh.ne'] at this
    exact this

/-- C09: on the table the three evaluators compute `f`, `(f, f')` and `(f, f'/r)` for a function `f` that is
continuously differentiable on `0 < r < h*(n-1)` (nodes included) with derivative `f'`. -/
theorem C09_derivative (h : ℝ) (hh : 0 < h) (vals derivs : List ℝ) (hv : 0 < vals.length)
    (hlen : vals.length = derivs.length) (s : CubicSpline ℝ) (hs : CubicSpline.mk? h vals derivs = some s) :
    ∃ f f' : ℝ → ℝ,
      (∀ r, 0 ≤ r → r < h * (vals.length - 1 : ℕ) → s.evaluate r = .ret (f r) ∧
        s.evaluateDeriv r = .ret (f r, f' r) ∧ s.evaluateDerivDivided r = .ret (f r, f' r / r)) ∧
      (∀ r, 0 < r → r < h * (vals.length - 1 : ℕ) → HasDerivAt f (f' r) r ∧ ContinuousAt f' r) := by
  -- read off the functions
  let f : ℝ → ℝ := fun r => match s.evaluateDeriv r with | .ret (a, _) => a | _ => 0
  let f' : ℝ → ℝ := fun r => match s.evaluateDeriv r with | .ret (_, b) => b | _ => 0
  let V : ℕ → ℝ := fun i => vals[i]?.getD 0
  let D : ℕ → ℝ := fun i => derivs[i]?.getD 0
  let g : ℕ → ℝ → ℝ := fun i r => seg h (V i) (D i) (V (i + 1)) (D (i + 1)) (r - h * i)
  let g' : ℕ → ℝ → ℝ := fun i r => segD h (V i) (D i) (V (i + 1)) (D (i + 1)) (r - h * i)
  have hev : ∀ i < vals.length - 1, ∀ r, h * i ≤ r → r < h * (i + 1) →
      s.evaluate r = .ret (g i r) ∧ s.evaluateDeriv r = .ret (g i r, g' i r) ∧
      s.evaluateDerivDivided r = .ret (g i r, g' i r / r) := by
    intro i hi r h1 h2
    have hi' : i + 1 < vals.length := by omega
    obtain ⟨e1, e2, e3, _⟩ := eval_on hh hv hlen.le hs hi' h1 h2
    have v0 : V i = vals[i] := by simp [V, show i < vals.length by omega]
    have v1 : V (i + 1) = vals[i + 1] := by simp [V, hi']
    have d0 : D i = derivs[i] := by simp [D, show i < derivs.length by omega]
    have d1 : D (i + 1) = derivs[i + 1] := by simp [D, show i + 1 < derivs.length by omega]
    simp only [g, g', v0, v1, d0, d1]
    exact ⟨e1, e2, e3⟩
  have hf : ∀ i < vals.length - 1, ∀ r, h * i ≤ r → r < h * (i + 1) → f r = g i r := by
    intro i hi r h1 h2
    simp only [f, (hev i hi r h1 h2).2.1]
  have hf' : ∀ i < vals.length - 1, ∀ r, h * i ≤ r → r < h * (i + 1) → f' r = g' i r := by
    intro i hi r h1 h2
    simp only [f', (hev i hi r h1 h2).2.1]
  have hm : ∀ i, i + 1 < vals.length - 1 → g i (h * (i + 1)) = g (i + 1) (h * (i + 1)) := by
    intro i _
    have e : h * ((i : ℝ) + 1) - h * i = h := by ring
    have e' : h * ((i : ℝ) + 1) - h * ((i + 1 : ℕ) : ℝ) = 0 := by push_cast; ring
    simp only [g, e, e', seg_h hh.ne', seg_zero]
  have hm' : ∀ i, i + 1 < vals.length - 1 → g' i (h * (i + 1)) = g' (i + 1) (h * (i + 1)) := by
    intro i _
    have e : h * ((i : ℝ) + 1) - h * i = h := by ring
    have e' : h * ((i : ℝ) + 1) - h * ((i + 1 : ℕ) : ℝ) = 0 := by push_cast; ring
    simp only [g', e, e', segD_h hh.ne', segD_zero]
  have hgd : ∀ i r, HasDerivAt (g i) (g' i r) r := by
    intro i r
    exact HasDerivAt.comp_sub_const r (h * i)
      (seg_hasDerivAt h (V i) (D i) (V (i + 1)) (D (i + 1)) (r - h * i))
  have hgc : ∀ i, Continuous (g' i) := fun i => (segD_continuous _ _ _ _ _).comp (by fun_prop)
  refine ⟨f, f', ?_, ?_⟩
  · intro r h0 h1
    obtain ⟨i, hi, hl, hr⟩ := exists_interval hh h0 h1
    obtain ⟨e1, e2, e3⟩ := hev i hi r hl hr
    rw [e1, e2, e3, hf i hi r hl hr, hf' i hi r hl hr]
    exact ⟨rfl, rfl, rfl⟩
  · intro r h0 h1
    constructor
    · obtain ⟨il, ir, hil, hir, c1, c2, c3, c4, c5, c6, c7⟩ := piecewise_near hh hf hm h0 h1
      have e1 : f' r = g' ir r := hf' ir hir r c6 c7
      have e2 : g' il r = g' ir r := by
        rcases c5 with rfl | ⟨rfl, hr⟩
        · rfl
        · rw [hr]; exact hm' il hir
      rw [e1]
      exact hasDerivAt_glue c1 c2 (e2 ▸ hgd il r) (hgd ir r) c3
    · obtain ⟨il, ir, hil, hir, c1, c2, c3, c4, c5, c6, c7⟩ := piecewise_near hh hf' hm' h0 h1
      exact continuousAt_glue c1 c2 (hgc il).continuousAt (hgc ir).continuousAt c3

example : ∃ s, CubicSpline.mk? (1 : ℝ) [0, 1, 5] [1, 0, 1] = some s := by
  obtain ⟨s, hs, _⟩ := mk?_spec (1 : ℝ) [0, 1, 5] [1, 0, 1] (by simp) (by simp)
  exact ⟨s, hs⟩

end real

section gen
variable {K : Type*} [Field K] [LinearOrder K] [IsStrictOrderedRing K] [FloorRing K]

/-- C12: for `0 ≤ r < h*(n-1)` slot `j` of the outputs of `CubicSplineSet` is what the `j`-th single spline
returns, other cells keep their value; for `r ≤ -h` or `r ≥ h*(n-1)` memory outside the table is accessed
(there is no range check). -/
theorem C12_set_equals_members (S n : ℕ) (vals derivs : List (List K)) (H : Rect S n vals derivs) (hS : 0 < S)
    (hn : 2 ≤ n) (h : K) (hh : 0 < h) :
    ∃ s : SplineSet K, SplineSet.mk? h vals derivs = some s ∧
      (∀ r, 0 ≤ r → r < h * (n - 1 : ℕ) → ∀ (base : ℕ) (st : Bufs Bool K), (∀ b, base + S ≤ (st b).length) →
        ∃ st', s.evaluateDerivs r base st = some st' ∧
          (∀ j (hj : j < S), ∃ sj y y', CubicSpline.mk? h (vals[j]'(by rw [H.hS]; exact hj))
              (derivs[j]'(by rw [H.hS']; exact hj)) = some sj ∧
            sj.evaluateDeriv r = .ret (y, y') ∧ (st' false)[base + j]? = some y ∧ (st' true)[base + j]? = some y') ∧
          (∀ b p, (p < base ∨ base + S ≤ p) → (st' b)[p]? = (st b)[p]?)) ∧
      (∀ r, 0 ≤ r → r < h * (n - 1 : ℕ) → ∀ v : List K, S ≤ v.length → ∃ v', s.evaluate r v = some v' ∧
          ∀ j (hj : j < S), ∃ sj y, CubicSpline.mk? h (vals[j]'(by rw [H.hS]; exact hj))
              (derivs[j]'(by rw [H.hS']; exact hj)) = some sj ∧ sj.evaluate r = .ret y ∧ v'[j]? = some y) ∧
      (∀ r, r ≤ -h ∨ h * (n - 1 : ℕ) ≤ r → ∀ base st v,
        s.evaluateDerivs r base st = none ∧ s.evaluate r v = none) := by
  obtain ⟨s, hs, -⟩ := SplineSet.mk?_spec h H hS (by omega)
  have hmember : ∀ (i : ℕ) (hi : i + 1 < n) r, h * i ≤ r → r < h * (i + 1) → ∀ j (hj : j < S),
      ∃ sj, CubicSpline.mk? h (vals[j]'(by rw [H.hS]; exact hj)) (derivs[j]'(by rw [H.hS']; exact hj)) = some sj ∧
        sj.evaluateDeriv r = .ret (seg h (at2 vals j i) (at2 derivs j i) (at2 vals j (i + 1)) (at2 derivs j (i + 1))
          (r - h * i), segD h (at2 vals j i) (at2 derivs j i) (at2 vals j (i + 1)) (at2 derivs j (i + 1))
          (r - h * i)) ∧
        sj.evaluate r = .ret (seg h (at2 vals j i) (at2 derivs j i) (at2 vals j (i + 1)) (at2 derivs j (i + 1))
          (r - h * i)) := by
    intro i hi r hl hr j hj
    have hjv : j < vals.length := by rw [H.hS]; exact hj
    have hjd : j < derivs.length := by rw [H.hS']; exact hj
    have lv : (vals[j]).length = n := H.hv _ (List.getElem_mem hjv)
    have ld : (derivs[j]).length = n := H.hd _ (List.getElem_mem hjd)
    obtain ⟨sj, hsj, -⟩ := mk?_spec h vals[j] derivs[j] (by omega) (by omega)
    have hev := eval_on hh (by omega) (by omega) hsj (show i + 1 < (vals[j]).length by omega) hl hr
    refine ⟨sj, hsj, ?_, ?_⟩
    · rw [hev.2.1]
      simp [at2, hjv, hjd, lv, ld, hi, show i < n by omega]
    · rw [hev.1]
      simp [at2, hjv, hjd, lv, ld, hi, show i < n by omega]
  refine ⟨s, hs, ?_, ?_, ?_⟩
  · intro r h0 h1 base st hst
    obtain ⟨i, hi, hl, hr⟩ := exists_interval hh h0 h1
    have hi' : i + 1 < n := by omega
    have hrun := SplineSet.evaluateDerivs_acts hh H hS (by omega) hs hi' hl hr (L := fun b => (st b).length)
      (base := base) hst st (fun _ => rfl)
    refine ⟨_, hrun, ?_, ?_⟩
    · intro j hj
      obtain ⟨sj, hsj, hev, -⟩ := hmember i hi' r hl hr j hj
      refine ⟨sj, _, _, hsj, hev, ?_, ?_⟩
      · have := hst false
        simp only [List.getElem?_mapIdx]
        rw [List.getElem?_eq_getElem (by omega)]
        simp [hj]
      · have := hst true
        simp only [List.getElem?_mapIdx]
        rw [List.getElem?_eq_getElem (by omega)]
        simp [hj]
    · intro b p hp
      simp only [List.getElem?_mapIdx]
      rcases hq : (st b)[p]? with _ | x
      · rfl
      · simp; omega
  · intro r h0 h1 v hv
    obtain ⟨i, hi, hl, hr⟩ := exists_interval hh h0 h1
    have hi' : i + 1 < n := by omega
    refine ⟨_, SplineSet.evaluate_run hh H hS (by omega) hs hi' hl hr v hv, ?_⟩
    intro j hj
    obtain ⟨sj, hsj, -, hev⟩ := hmember i hi' r hl hr j hj
    refine ⟨sj, _, hsj, hev, ?_⟩
    rw [List.getElem?_mapIdx, List.getElem?_eq_getElem (by omega)]
    simp [hj]
  · intro r hr base st v
    exact SplineSet.evaluateDerivs_oob hh H hS (by omega) hs hr base st v

example : Rect 2 3 ([[0, 1, 2], [5, 5, 5]] : List (List ℚ)) [[1, 1, 1], [0, 0, 0]] :=
  ⟨rfl, rfl, by simp, by simp⟩

/-- C13 (what holds): inside the table the Kokkos evaluators return exactly what the CPU ones return, and
`evaluate` never reads outside the table. Exact failure ranges: `evaluate_deriv` reads outside for
`h*(n-1) ≤ r < h*n`, `evaluate_deriv_divided` for `h*(n-1) ≤ r < h*(4*(n-1)+1)`. -/
theorem C13_kokkos_bounds_partial (h : K) (hh : 0 < h) (vals derivs : List K) (hn : 2 ≤ vals.length)
    (hlen : vals.length = derivs.length) (s : CubicSpline K) (hs : CubicSpline.mk? h vals derivs = some s)
    (r : K) :
    s.evaluateKokkos r ≠ .ub ∧
    (0 ≤ r → r < h * (vals.length - 1 : ℕ) → s.evaluateDerivKokkos r = s.evaluateDeriv r ∧
      s.evaluateDerivDividedKokkos r = s.evaluateDerivDivided r) ∧
    (s.evaluateDerivKokkos r = .ub ↔ h * (vals.length - 1 : ℕ) ≤ r ∧ r < h * vals.length) ∧
    (s.evaluateDerivDividedKokkos r = .ub ↔
      h * (vals.length - 1 : ℕ) ≤ r ∧ r < h * (4 * (vals.length - 1) + 1 : ℕ)) := by
  have hB := C10_bounds_partial h hh vals derivs hn hlen s hs r
  refine ⟨hB.2.2.2.1, ?_, ?_⟩
  · intro h0 h1
    obtain ⟨i, hi, hl, hr⟩ := exists_interval hh h0 h1
    obtain ⟨_, e2, e3, e4, e5⟩ := eval_on hh (by omega) hlen.le hs (show i + 1 < vals.length by omega) hl hr
    rw [e2, e3, e4, e5]; exact ⟨rfl, rfl⟩
  · obtain ⟨s', hs', e1, e2, e3⟩ := mk?_spec h vals derivs (by omega) hlen.le
    rw [hs] at hs'
    obtain rfl := Option.some.inj hs'
    have h4 : s.c.length / 4 = vals.length - 1 := by rw [e2]; omega
    have hcoef : ∀ i : ℤ, coeffs4 s.c i = none ↔ i < 0 ∨ ((vals.length - 1 : ℕ) : ℤ) ≤ i := by
      intro i
      by_cases hneg : i < 0
      · simp [coeffs4, hneg]
      · obtain ⟨k, rfl⟩ := Int.eq_ofNat_of_zero_le (by omega : 0 ≤ i)
        by_cases hk : k + 1 < vals.length
        · rw [e3 k hk]; simp; omega
        · have : s.c[4 * k]? = none := List.getElem?_eq_none (by rw [e2]; omega)
          simp [coeffs4, this]; omega
    have hub : ∀ (lim : ℕ), vals.length - 1 ≤ lim →
        ((¬ (truncInt (r / s.h) < 0 ∨ truncInt (r / s.h) > (lim : ℤ)) ∧
          coeffs4 s.c (truncInt (r / s.h)) = none) ↔ h * (vals.length - 1 : ℕ) ≤ r ∧ r < h * (lim + 1 : ℕ)) := by
      intro lim hlim
      have a1 : ((vals.length - 1 : ℕ) : ℤ) ≤ truncInt (r / s.h) ↔ h * (vals.length - 1 : ℕ) ≤ r := by
        rw [e1, ← not_lt, truncInt_div_lt_iff hh (by omega), not_lt]
      have a2 : truncInt (r / s.h) < ((lim + 1 : ℕ) : ℤ) ↔ r < h * (lim + 1 : ℕ) := by
        rw [e1, truncInt_div_lt_iff hh (by omega)]
      rw [hcoef, ← a1, ← a2]
      omega
    constructor
    · have := hub (vals.length - 1) le_rfl
      rw [show vals.length - 1 + 1 = vals.length by omega] at this
      rw [← this]
      unfold CubicSpline.evaluateDerivKokkos
      rw [h4]
      by_cases hc : truncInt (r / s.h) < 0 ∨ truncInt (r / s.h) > ((vals.length - 1 : ℕ) : ℤ)
      · simp only [if_pos hc]; simp [hc]
      · simp only [if_neg hc]
        cases hq : coeffs4 s.c (truncInt (r / s.h)) <;> simp [hc]
    · have := hub (4 * (vals.length - 1)) (by omega)
      rw [← this]
      unfold CubicSpline.evaluateDerivDividedKokkos
      rw [e2]
      by_cases hc : truncInt (r / s.h) < 0 ∨ truncInt (r / s.h) > ((4 * (vals.length - 1) : ℕ) : ℤ)
      · simp only [if_pos hc]; simp only [reduceCtorEq, hc, not_true_eq_false, false_and]
      · simp only [if_neg hc]
        cases hq : coeffs4 s.c (truncInt (r / s.h)) <;> simp only [hc, reduceCtorEq, not_false_eq_true, and_self, and_false]

end gen

/-- C13 as stated is violated: with two nodes at spacing 1, `evaluate_deriv(1)` and
`evaluate_deriv_divided(1)` of the Kokkos spline read past the table instead of throwing. -/
theorem C13_violated : ∃ (s : CubicSpline ℚ) (r : ℚ), CubicSpline.mk? (1 : ℚ) [0, 1] [1, 1] = some s ∧ 0 ≤ r ∧
    s.evaluateDerivKokkos r = .ub ∧ s.evaluateDerivDividedKokkos r = .ub := by
  obtain ⟨s, hs, _⟩ := mk?_spec (1 : ℚ) [0, 1] [1, 1] (by simp) (by simp)
  have := C13_kokkos_bounds_partial (1 : ℚ) one_pos [0, 1] [1, 1] (by simp) rfl s hs 1
  exact ⟨s, 1, hs, by norm_num, this.2.2.1.mpr (by norm_num), this.2.2.2.mpr (by norm_num)⟩

end Verif.Props
