import Verif.Spec.Spline
import Verif.Lemmas.SplineSet
import Verif.Lemmas.CubicSpline
import Mathlib.Analysis.Calculus.Deriv.Comp

/-! # The spline classes compute `Spec.hermite` -/

namespace Verif.Spline
open Verif.Spec

theorem floor_interval {h r : ℝ} (hh : 0 < h) {i : ℕ} (h1 : h * i ≤ r) (h2 : r < h * (i + 1)) : ⌊r / h⌋₊ = i := by
  have h0 : 0 ≤ r := le_trans (by positivity) h1
  rw [Nat.floor_eq_iff (div_nonneg h0 hh.le), le_div_iff₀ hh, div_lt_iff₀ hh]
  constructor <;> linarith

theorem hermite_eq_seg {h r : ℝ} (hh : 0 < h) {v d : ℕ → ℝ} {i : ℕ} (h1 : h * i ≤ r) (h2 : r < h * (i + 1)) :
    hermite h v d r = seg h (v i) (d i) (v (i + 1)) (d (i + 1)) (r - h * i) ∧
    hermite' h v d r = segD h (v i) (d i) (v (i + 1)) (d (i + 1)) (r - h * i) := by
  unfold hermite hermite'
  simp only [floor_interval hh h1 h2]
  have hn : h ≠ 0 := hh.ne'
  constructor
  · unfold hermite01 seg herm2 herm3
    field_simp
    ring
  · unfold hermite01' segD herm2 herm3
    field_simp
    ring

theorem hermite_hasDerivAt {h : ℝ} (hh : 0 < h) (v d : ℕ → ℝ) {r : ℝ} (h0 : 0 < r) :
    HasDerivAt (hermite h v d) (hermite' h v d r) r := by
  obtain ⟨m, hm⟩ := exists_nat_gt (r / h)
  have h1 : r < h * m := by rw [div_lt_iff₀ hh] at hm; linarith
  have hshift : ∀ (k : ℕ) (x : ℝ), HasDerivAt (fun x => seg h (v k) (d k) (v (k + 1)) (d (k + 1)) (x - h * k))
      (segD h (v k) (d k) (v (k + 1)) (d (k + 1)) (x - h * k)) x := by
    intro k x
    have := HasDerivAt.comp x (seg_hasDerivAt h (v k) (d k) (v (k + 1)) (d (k + 1)) (x - h * k)) ((hasDerivAt_id' x).sub_const (h * k))
    rw [mul_one] at this
    exact this
  have hend : ∀ k : ℕ, h * ((k : ℝ) + 1) - h * k = h := fun k => by ring
  have hbeg : ∀ k : ℕ, h * ((k : ℝ) + 1) - h * ((k + 1 : ℕ) : ℝ) = 0 := fun k => by push_cast; ring
  obtain ⟨il, ir, _, _, el, er, vl, _, hcase, b1, b2⟩ := piecewise_near hh (m := m) (f := hermite h v d)
    (g := fun k x => seg h (v k) (d k) (v (k + 1)) (d (k + 1)) (x - h * k))
    (fun i _ x h1 h2 => (hermite_eq_seg hh h1 h2).1) (fun i _ => by
      simp only [hend, hbeg]; rw [seg_h hh.ne', seg_zero]) h0 h1
  rw [(hermite_eq_seg hh b1 b2).2]
  refine hasDerivAt_glue el er ?_ (hshift ir r) vl
  rcases hcase with e | ⟨e, er⟩
  · rw [e]; exact hshift ir r
  · refine (hshift il r).congr_deriv ?_
    rw [e, er, hend, hbeg, segD_h hh.ne', segD_zero]

/-- Entries of a list as a function. -/
def ent (l : List ℝ) (i : ℕ) : ℝ := l[i]?.getD 0

theorem cubic_run {h : ℝ} (hh : 0 < h) {vals derivs : List ℝ} (hd : vals.length ≤ derivs.length) {s : CubicSpline ℝ}
    (hs : CubicSpline.mk? h vals derivs = some s) {r : ℝ} (h0 : 0 ≤ r) (h1 : r < h * (vals.length - 1 : ℕ)) :
    s.evaluate r = .ret (hermite h (ent vals) (ent derivs) r) ∧
    s.evaluateDeriv r = .ret (hermite h (ent vals) (ent derivs) r, hermite' h (ent vals) (ent derivs) r) := by
  obtain ⟨i, hi, b1, b2⟩ := exists_interval hh h0 h1
  have hi' : i + 1 < vals.length := by omega
  obtain ⟨e1, e2, _⟩ := eval_on hh (by omega) hd hs hi' b1 b2
  obtain ⟨g1, g2⟩ := hermite_eq_seg hh (v := ent vals) (d := ent derivs) b1 b2
  have v1 : ent vals i = vals[i] := by simp [ent, show i < vals.length by omega]
  have v2 : ent vals (i + 1) = vals[i + 1] := by simp [ent, hi']
  have v3 : ent derivs i = derivs[i]'(by omega) := by simp [ent, show i < derivs.length by omega]
  have v4 : ent derivs (i + 1) = derivs[i + 1]'(by omega) := by simp [ent, show i + 1 < derivs.length by omega]
  rw [v1, v2, v3, v4] at g1 g2
  rw [g1, g2]
  exact ⟨e1, e2⟩

theorem set_run {S n : ℕ} {vals derivs : List (List ℝ)} {h : ℝ} (hh : 0 < h) (H : Rect S n vals derivs) (hS : 0 < S)
    {s : SplineSet ℝ} (hs : SplineSet.mk? h vals derivs = some s) {r : ℝ} (h0 : 0 ≤ r) (h1 : r < h * (n - 1 : ℕ))
    {L : Bool → ℕ} {base : ℕ} (hL : ∀ b, base + S ≤ L b) :
    Acts L (s.evaluateDerivs r base)
      (fun b p x => if base ≤ p ∧ p < base + S then
        (if b = false then hermite h (at2 vals (p - base)) (at2 derivs (p - base)) r
          else hermite' h (at2 vals (p - base)) (at2 derivs (p - base)) r) else x) := by
  obtain ⟨i, hi, b1, b2⟩ := exists_interval hh h0 h1
  refine (SplineSet.evaluateDerivs_acts hh H hS (by omega) hs (by omega) b1 b2 hL).congr ?_
  intro b p hp x
  obtain ⟨g1, g2⟩ := hermite_eq_seg hh (v := at2 vals (p - base)) (d := at2 derivs (p - base)) b1 b2
  rw [g1, g2]

end Verif.Spline
