import Verif.Model.CubicSpline
import Mathlib.Data.Real.Archimedean

/-!
# Splines in rounded arithmetic

The operations of `cubic_spline.cpp`, `cubic_spline_set.cpp` and `radial_function_set_kokkos.cpp` once more, now with every arithmetic
operation followed by a rounding `fl`, in the order of the source.  Not modelled: contraction to fused multiply-add, overflow and
underflow.
-/

namespace Verif.Spline

/-- `(-3*v -2*h*d + 3*v' - h*d') / (h*h)`, cubic_spline.cpp:67 and radial_function_set_kokkos.cpp:29-31. -/
noncomputable def quadR (fl : ℝ → ℝ) (h v d v' d' : ℝ) : ℝ :=
  fl (fl (fl (fl (fl (-3 * v) - fl (fl (2 * h) * d)) + fl (3 * v')) - fl (h * d')) / fl (h * h))

/-- `(2*v + h*d - 2*v' + h*d') / (h*h*h)`, cubic_spline.cpp:68 and radial_function_set_kokkos.cpp:32-34. -/
noncomputable def cubR (fl : ℝ → ℝ) (h v d v' d' : ℝ) : ℝ :=
  fl (fl (fl (fl (fl (2 * v) + fl (h * d)) - fl (2 * v')) + fl (h * d')) / fl (fl (h * h) * h))

/-- Loop body of `CubicSpline::generate_coefficients`, cubic_spline.cpp:65-68. -/
noncomputable def genBodyR (fl : ℝ → ℝ) (h : ℝ) (vals derivs : List ℝ) (i : ℕ) (c : List ℝ) : Option (List ℝ) := do
  let v ← vals[i]?
  let c ← wr c (4 * i) v
  let d ← derivs[i]?
  let c ← wr c (4 * i + 1) d
  let c0 ← c[4 * i]?
  let c1 ← c[4 * i + 1]?
  let v' ← vals[i + 1]?
  let d' ← derivs[i + 1]?
  let c ← wr c (4 * i + 2) (quadR fl h c0 c1 v' d')
  wr c (4 * i + 3) (cubR fl h c0 c1 v' d')

/-- Constructor of `CubicSpline`, cubic_spline.cpp:6-13 and 57-71. -/
noncomputable def CubicSpline.mkR? (fl : ℝ → ℝ) (h : ℝ) (vals derivs : List ℝ) : Option (CubicSpline ℝ) :=
  (if vals.length = 0 then none
    else loop (vals.length - 1) (genBodyR fl h vals derivs) (List.replicate (4 * (vals.length - 1)) 0)).map (fun c => ⟨h, c⟩)

/-- `c0 + c1*x + c2*xx + c3*xxx`. -/
noncomputable def valueR (gl : ℝ → ℝ) (c0 c1 c2 c3 x xx xxx : ℝ) : ℝ := gl (gl (gl (c0 + gl (c1 * x)) + gl (c2 * xx)) + gl (c3 * xxx))

/-- `CubicSpline::evaluate`, cubic_spline.cpp:15-27. -/
noncomputable def CubicSpline.evaluateR (fl : ℝ → ℝ) (s : CubicSpline ℝ) (r : ℝ) : Out ℝ :=
  let i := truncInt (fl (r / s.h))
  if i < 0 ∨ i ≥ (s.c.length / 4 : ℕ) then .exc
  else
    let x := fl (r - fl (s.h * i))
    let xx := fl (x * x)
    match coeffs4 s.c i with
    | none => .ub
    | some (c0, c1, c2, c3) => .ret (valueR fl c0 c1 c2 c3 x xx (fl (xx * x)))

/-- `c1 + 2*c2*x + 3*c3*xx`, cubic_spline.cpp:40. -/
noncomputable def slopeR (fl : ℝ → ℝ) (c1 c2 c3 x xx : ℝ) : ℝ := fl (fl (c1 + fl (fl (2 * c2) * x)) + fl (fl (3 * c3) * xx))

/-- `CubicSpline::evaluate_deriv`, cubic_spline.cpp:29-41. -/
noncomputable def CubicSpline.evaluateDerivR (fl : ℝ → ℝ) (s : CubicSpline ℝ) (r : ℝ) : Out (ℝ × ℝ) :=
  let i := truncInt (fl (r / s.h))
  if i < 0 ∨ i ≥ (s.c.length / 4 : ℕ) then .exc
  else
    let x := fl (r - fl (s.h * i))
    let xx := fl (x * x)
    match coeffs4 s.c i with
    | none => .ub
    | some (c0, c1, c2, c3) => .ret (valueR fl c0 c1 c2 c3 x xx (fl (xx * x)), slopeR fl c1 c2 c3 x xx)

/-- The coefficients of interval `i` of one function as stored, radial_function_set_kokkos.cpp:25-35: computed in `double` (`fl`), cast to
`Precision` (`ca`).  There is no range check; `none`: `i` is not an interval of the table. -/
noncomputable def storedR (fl ca : ℝ → ℝ) (h : ℝ) (vals derivs : List ℝ) (i : ℤ) : Option (ℝ × ℝ × ℝ × ℝ) :=
  if i < 0 then none
  else do
    let v ← vals[i.toNat]?
    let d ← derivs[i.toNat]?
    let v' ← vals[i.toNat + 1]?
    let d' ← derivs[i.toNat + 1]?
    pure (ca v, ca d, ca (quadR fl h v d v' d'), ca (cubR fl h v d v' d'))

/-- What `RadialFunctionSetKokkos<Precision>::evaluate` writes to `R(ij,k)` and `R_deriv(ij,k)` for one function,
radial_function_set_kokkos.cpp:180-203: the powers of `x` in `double`, the sums in `Precision` (`gl`).  With `ca` the identity and
`gl = fl` these are also the operations of `CubicSplineSet::evaluate_derivs`, cubic_spline_set.cpp:50-84. -/
noncomputable def radialR (fl ca gl : ℝ → ℝ) (h : ℝ) (vals derivs : List ℝ) (r : ℝ) : Option (ℝ × ℝ) := do
  let n := truncInt (fl (r / h))
  let x := fl (r - fl (h * n))
  let xx := fl (x * x)
  let xxx := fl (xx * x)
  let twoX := fl (2 * x)
  let threeXX := fl (3 * xx)
  let c ← storedR fl ca h vals derivs n
  pure (valueR gl c.1 c.2.1 c.2.2.1 c.2.2.2 (ca x) (ca xx) (ca xxx),
    gl (gl (c.2.1 + gl (c.2.2.1 * ca twoX)) + gl (c.2.2.2 * ca threeXX)))

end Verif.Spline
