import Verif.Lemmas.Rounding.Table
import Verif.Lemmas.Rounding.Format

/-! # Property theorems: splines in rounded arithmetic (C98) -/

namespace Verif.Props
open Verif.Spec Verif.Spline Verif.Rounding

/-- C98: rounding to nearest with `p` bits has relative error at most `2^-p`. -/
theorem C98_formats (p : ℕ) : IsRounding (roundTo p) (1 / 2 ^ p) := roundTo_err p

/-- C98: without rounding the operations are those of the exact model. -/
theorem C98_exact (h : ℝ) (vals derivs : List ℝ) :
    CubicSpline.mkR? (fun x => x) h vals derivs = CubicSpline.mk? h vals derivs ∧
    ∀ s : CubicSpline ℝ, ∀ r, s.evaluateR (fun x => x) r = s.evaluate r ∧ s.evaluateDerivR (fun x => x) r = s.evaluateDeriv r :=
  ⟨rfl, fun s r => by
    unfold CubicSpline.evaluateR CubicSpline.evaluateDerivR CubicSpline.evaluate CubicSpline.evaluateDeriv
    simp only [valueR, slopeR]
    rcases coeffs4 s.c (truncInt (r / s.h)) with _ | ⟨c0, c1, c2, c3⟩ <;> exact ⟨rfl, rfl⟩⟩

/-- C98 (what holds) for `CubicSpline`: for `r` below the end of the table by more than the relative rounding error, the evaluators read
inside the table and return value and derivative of the Hermite spline up to a multiple of the rounding error. -/
theorem C98_cubic_partial {fl : ℝ → ℝ} {u : ℝ} (hf : IsRounding fl u) {h : ℝ} (hh : 0 < h) (vals derivs : List ℝ) (hv : 0 < vals.length)
    (hlen : vals.length = derivs.length) (hu : u * vals.length ≤ 1 / 10000) {A : ℝ} (bv : ∀ x ∈ vals, |x| ≤ A)
    (bd : ∀ x ∈ derivs, |h * x| ≤ A) :
    ∃ s, CubicSpline.mkR? fl h vals derivs = some s ∧ ∀ r, 0 ≤ r → r * (1 + u) < h * (vals.length - 1 : ℕ) →
      ∃ v w, s.evaluateR fl r = .ret v ∧ s.evaluateDerivR fl r = .ret (v, w) ∧
        |v - hermite h (fun i => vals[i]?.getD 0) (fun i => derivs[i]?.getD 0) r| ≤ 420 * (u * vals.length) * A ∧
        |w - hermite' h (fun i => vals[i]?.getD 0) (fun i => derivs[i]?.getD 0) r| ≤ 855 * (u * vals.length) * (A / h) := by
  obtain ⟨c, hc, -, -⟩ := coeffsR_spec fl h vals derivs hv hlen.le
  have A0 : 0 ≤ A := (abs_nonneg _).trans (bv _ (List.getElem_mem hv))
  have n1 : (1 : ℝ) ≤ vals.length := by exact_mod_cast hv
  have u0 := hf.nonneg
  refine ⟨_, hc, fun r h0 hr => cubicR_near hf (by nlinarith) hu hh vals derivs hv hlen.le A0 ?_ bv bd hc h0 hr⟩
  have : ((vals.length - 1 : ℕ) : ℝ) ≤ vals.length := by exact_mod_cast Nat.sub_le _ _
  exact mul_le_mul_of_nonneg_left this u0

/-- C98 (what holds) for `RadialFunctionSetKokkos<Precision>` (and with `ca` the identity, `gl = fl` for `CubicSplineSet`): indices and powers
in `double` arithmetic `fl` with error `u`, storage `ca` and sums `gl` in `Precision` with error `us`. -/
theorem C98_radial_partial {fl ca gl : ℝ → ℝ} {u us : ℝ} (hf : IsRounding fl u) (hc : IsRounding ca us) (hg : IsRounding gl us) {h : ℝ}
    (hh : 0 < h) (vals derivs : List ℝ) (hv : 0 < vals.length) (hlen : vals.length = derivs.length)
    (hu : us + u * vals.length ≤ 1 / 10000) {A : ℝ} (bv : ∀ x ∈ vals, |x| ≤ A) (bd : ∀ x ∈ derivs, |h * x| ≤ A) (r : ℝ) (h0 : 0 ≤ r)
    (hr : r * (1 + u) < h * (vals.length - 1 : ℕ)) :
    ∃ v w, radialR fl ca gl h vals derivs r = some (v, w) ∧
      |v - hermite h (fun i => vals[i]?.getD 0) (fun i => derivs[i]?.getD 0) r| ≤ 420 * (us + u * vals.length) * A ∧
      |w - hermite' h (fun i => vals[i]?.getD 0) (fun i => derivs[i]?.getD 0) r| ≤ 855 * (us + u * vals.length) * (A / h) := by
  have A0 : 0 ≤ A := (abs_nonneg _).trans (bv _ (List.getElem_mem hv))
  have n1 : (1 : ℝ) ≤ vals.length := by exact_mod_cast hv
  have u0 := hf.nonneg
  have us0 := hg.nonneg
  refine radialR_near hf hc hg (by nlinarith) (by nlinarith) hu hh vals derivs hlen.le A0 ?_ bv bd h0 hr
  have : ((vals.length - 1 : ℕ) : ℝ) ≤ vals.length := by exact_mod_cast Nat.sub_le _ _
  have := mul_le_mul_of_nonneg_left this u0
  linarith

/-- `MACEKokkos<float>` with 256 nodes and values of size one: errors below `3e-5`. -/
example (h : ℝ) (hh : 0 < h) (vals derivs : List ℝ) (hv : vals.length = 256) (hlen : vals.length = derivs.length)
    (bv : ∀ x ∈ vals, |x| ≤ 1) (bd : ∀ x ∈ derivs, |h * x| ≤ 1) (r : ℝ) (h0 : 0 ≤ r) (hr : r ≤ h * 254) :
    ∃ v w, radialR (roundTo 53) (roundTo 24) (roundTo 24) h vals derivs r = some (v, w) ∧
      |v - hermite h (fun i => vals[i]?.getD 0) (fun i => derivs[i]?.getD 0) r| ≤ 3 / 10 ^ 5 := by
  obtain ⟨v, w, h1, h2, -⟩ := C98_radial_partial (roundTo_err 53) (roundTo_err 24) (roundTo_err 24) hh vals derivs (by omega) hlen
    (by rw [hv]; norm_num) bv bd r h0 (by
      rw [hv]; norm_num; nlinarith)
  refine ⟨v, w, h1, h2.trans ?_⟩
  rw [hv]
  norm_num

/-- C98 as stated is violated: with the `double` nearest to `0.1` as spacing and eleven nodes, `r = 1` lies below the end of the table but
`1.0/0.1` rounds to `10`: `CubicSpline` throws and the unchecked classes read past their table.  The exact evaluation succeeds. -/
theorem C98_violated : ∃ (h r : ℝ) (vals derivs : List ℝ) (s : CubicSpline ℝ), 0 < h ∧ 0 ≤ r ∧ vals.length = derivs.length ∧
    r < h * (vals.length - 1 : ℕ) ∧ CubicSpline.mkR? (roundTo 53) h vals derivs = some s ∧ s.evaluateR (roundTo 53) r = .exc ∧
    s.evaluateDerivR (roundTo 53) r = .exc ∧ radialR (roundTo 53) (fun x => x) (roundTo 53) h vals derivs r = none ∧
    radialR (roundTo 53) (roundTo 24) (roundTo 24) h vals derivs r = none := by
  obtain ⟨q1, q2⟩ := quotient
  obtain ⟨c, hc, hlen, -⟩ := coeffsR_spec (roundTo 53) tenth (List.replicate 11 0) (List.replicate 11 0) (by simp) (by simp)
  have ht : truncInt (roundTo 53 (1 / tenth)) = 10 := by
    rw [q1, truncInt_of_nonneg (by norm_num)]; norm_num
  have hb : (10 : ℤ) < 0 ∨ (10 : ℤ) ≥ (c.length / 4 : ℕ) := by rw [hlen]; simp
  have hs : ∀ ca, storedR (roundTo 53) ca tenth (List.replicate 11 0) (List.replicate 11 0) 10 = none := by
    intro ca; simp [storedR]
  refine ⟨tenth, 1, List.replicate 11 0, List.replicate 11 0, ⟨tenth, c⟩, by unfold tenth; norm_num, by norm_num, rfl, ?_, hc, ?_, ?_, ?_, ?_⟩
  · simpa using q2
  · simp only [CubicSpline.evaluateR, ht, if_pos hb]
  · simp only [CubicSpline.evaluateDerivR, ht, if_pos hb]
  · simp only [radialR, ht, hs, Option.bind_eq_bind, Option.bind_none]
  · simp only [radialR, ht, hs, Option.bind_eq_bind, Option.bind_none]

end Verif.Props
