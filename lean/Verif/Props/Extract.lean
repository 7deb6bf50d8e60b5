import Verif.Model.Extract
import Verif.Props.Spline

/-! # Property theorems: radial tables of the extraction script (C54, C61) -/

namespace Verif.Props
open Verif.Spline Verif.Extract

theorem gridStep_mul {rcut : ℝ} {n : ℕ} (hn : 2 ≤ n) : gridStep rcut n * (n - 1 : ℕ) = rcut - 1e-12 := by
  have : ((n - 1 : ℕ) : ℝ) ≠ 0 := by
    have : n - 1 ≠ 0 := by omega
    exact_mod_cast this
  unfold gridStep
  field_simp

theorem gridStep_pos {rcut : ℝ} {n : ℕ} (hn : 2 ≤ n) (hr : 1e-12 < rcut) : 0 < gridStep rcut n := by
  have : (0 : ℝ) < ((n - 1 : ℕ) : ℝ) := by
    have : 0 < n - 1 := by omega
    exact_mod_cast this
  exact div_pos (by linarith) this

/-- C54, what holds: the table covers `0 ≤ r < r_cut - 1e-12`.
Missing: the last `1e-12`, see `C54_violated`. -/
theorem C54_covers_partial (rcut : ℝ) (n : ℕ) (hn : 2 ≤ n) (hr : 1e-12 < rcut) (S : ℕ) (hS : 0 < S) (vals derivs : List (List ℝ))
    (H : Rect S n vals derivs) : ∃ s, SplineSet.mk? (gridStep rcut n) vals derivs = some s ∧
      ∀ r, 0 ≤ r → r < rcut - 1e-12 → ∀ base (st : Bufs Bool ℝ), (∀ b, base + S ≤ (st b).length) →
        ∃ st', s.evaluateDerivs r base st = some st' := by
  obtain ⟨s, h1, h2, _⟩ := C12_set_equals_members S n vals derivs H hS hn (gridStep rcut n) (gridStep_pos hn hr)
  refine ⟨s, h1, fun r h0 hlt base st hst => ?_⟩
  obtain ⟨st', h3, _⟩ := h2 r h0 (by rw [gridStep_mul hn]; exact hlt) base st hst
  exact ⟨st', h3⟩

/-- C54 fails: for every cutoff and table size there is a distance below the cutoff at which `CubicSplineSet::evaluate_derivs` reads
past the end of its table (and `CubicSpline::evaluate` throws). -/
theorem C54_violated (rcut : ℝ) (n : ℕ) (hn : 2 ≤ n) (hr : 1e-12 < rcut) (S : ℕ) (hS : 0 < S) (vals derivs : List (List ℝ))
    (H : Rect S n vals derivs) (v d : List ℝ) (hv : v.length = n) (hd : d.length = n) : ∃ s s1,
      SplineSet.mk? (gridStep rcut n) vals derivs = some s ∧ CubicSpline.mk? (gridStep rcut n) v d = some s1 ∧
      ∃ r, 0 < r ∧ r < rcut ∧ (∀ base st, s.evaluateDerivs r base st = none) ∧ s1.evaluateDerivDivided r = .exc := by
  obtain ⟨s, h1, _, _, h2⟩ := C12_set_equals_members S n vals derivs H hS hn (gridStep rcut n) (gridStep_pos hn hr)
  obtain ⟨s1, hs1, _⟩ := mk?_spec (gridStep rcut n) v d (by omega) (by omega)
  refine ⟨s, s1, h1, hs1, rcut - 1e-12, by linarith, by norm_num, fun base st => ?_, ?_⟩
  · exact (h2 _ (Or.inr (by rw [gridStep_mul hn])) base st []).1
  · have := (C10_bounds_partial (gridStep rcut n) (gridStep_pos hn hr) v d (by omega) (by omega) s1 hs1 (rcut - 1e-12)).2.2.1
    rw [this, hv, gridStep_mul hn]
    exact Or.inr le_rfl

example : (2 : ℕ) ≤ 3 ∧ (1e-12 : ℝ) < 5 ∧ Rect 2 3 ([[0, 1, 2], [5, 5, 5]] : List (List ℝ)) [[1, 1, 1], [0, 0, 0]] :=
  ⟨by norm_num, by norm_num, rfl, rfl, by simp, by simp⟩

/-- C61, what holds: at `r = k h` (not the last node) the spline built from a table of the radial function `R` returns `R` at the grid
point, which is `k h + 1e-12`.  Missing: it should return `R (k h)`, see `C61_violated`. -/
theorem C61_nodes_partial (rcut : ℝ) (n : ℕ) (hr : 1e-12 < rcut) (R : ℝ → ℝ) (d : List ℝ) (hd : d.length = n)
    (s : CubicSpline ℝ) (hs : CubicSpline.mk? (gridStep rcut n) (tableOf rcut n R) d = some s) (k : ℕ) (hk : k + 1 < n) :
    s.evaluate (gridStep rcut n * k) = .ret (R (gridStep rcut n * k + 1e-12)) := by
  have hl : (tableOf rcut n R).length = n := by simp [tableOf]
  have := (C08_interpolates (gridStep rcut n) (gridStep_pos (by omega) hr) (tableOf rcut n R) d (by rw [hl, hd]) s hs k (by rw [hl]; exact hk)).1
  rw [this]
  congr 1
  simp only [tableOf, List.getElem_map, List.getElem_range]
  unfold gridPoint
  congr 1
  ring

/-- C61 fails for every cutoff and table size: with `R r = r` the spline is off by `1e-12` at every node. -/
theorem C61_violated (rcut : ℝ) (n : ℕ) (hr : 1e-12 < rcut) (d : List ℝ) (hd : d.length = n)
    (s : CubicSpline ℝ) (hs : CubicSpline.mk? (gridStep rcut n) (tableOf rcut n (fun r => r)) d = some s) (k : ℕ) (hk : k + 1 < n) :
    s.evaluate (gridStep rcut n * k) ≠ .ret (gridStep rcut n * k) := by
  rw [C61_nodes_partial rcut n hr _ d hd s hs k hk]
  intro h
  have := Out.ret.inj h
  norm_num at this

example : ∃ s, CubicSpline.mk? (gridStep 5 3) (tableOf 5 3 (fun r => r)) [1, 1, 1] = some s := by
  obtain ⟨s, hs, _⟩ := mk?_spec (gridStep 5 3) (tableOf 5 3 (fun r => r)) [1, 1, 1] (by simp [tableOf]) (by simp [tableOf])
  exact ⟨s, hs⟩

end Verif.Props
