import Mathlib.Data.Real.Basic

/-!
# Model of the radial grid of `symmetrix/source/symmetrix/extract_mace_data.py`

Lines 145, 204, 389: `r,h = np.linspace(1e-12, r_cut, num_spline_points, retstep=True)`; the spline values are those of the radial
functions at `r` (a `CubicSpline` through the points, evaluated at the points).
-/

namespace Verif.Extract

/-- The step `h`. -/
noncomputable def gridStep (rcut : ℝ) (n : ℕ) : ℝ := (rcut - 1e-12) / (n - 1 : ℕ)

/-- The grid point `r[k]`. -/
noncomputable def gridPoint (rcut : ℝ) (n k : ℕ) : ℝ := 1e-12 + k * gridStep rcut n

/-- `spl(r).tolist()` for the radial function `R`. -/
noncomputable def tableOf (rcut : ℝ) (n : ℕ) (R : ℝ → ℝ) : List ℝ := (List.range n).map (fun k => R (gridPoint rcut n k))

end Verif.Extract
