import Verif.Base.Loop
import Verif.Base.Trunc

/-!
# Model of `cubic_spline.cpp`, `cubic_spline_set.cpp`, `cubic_spline_kokkos.cpp`

`double` is an ordered field `K` with floor (`ℚ` for evaluation, `ℝ` for calculus).
-/

namespace Verif.Spline

variable {K : Type*} [Field K]

/-- Loop body of `CubicSpline::generate_coefficients`, cubic_spline.cpp:65-68. -/
def genBody (h : K) (vals derivs : List K) (i : ℕ) (c : List K) : Option (List K) := do
  let v ← vals[i]?
  let c ← wr c (4 * i) v
  let d ← derivs[i]?
  let c ← wr c (4 * i + 1) d
  let c0 ← c[4 * i]?
  let c1 ← c[4 * i + 1]?
  let v' ← vals[i + 1]?
  let d' ← derivs[i + 1]?
  let c ← wr c (4 * i + 2) ((-3 * c0 - 2 * h * c1 + 3 * v' - h * d') / (h * h))
  wr c (4 * i + 3) ((2 * c0 + h * c1 - 2 * v' + h * d') / (h * h * h))

/-- `CubicSpline::generate_coefficients`, cubic_spline.cpp:57-71.
`none`: `nodal_values` empty (the size computation `size()-1` wraps) or `nodal_derivs` too short. -/
def generateCoefficients (h : K) (vals derivs : List K) : Option (List K) :=
  if vals.length = 0 then none
  else loop (vals.length - 1) (genBody h vals derivs) (List.replicate (4 * (vals.length - 1)) 0)

/-- The object `CubicSpline` (cubic_spline.hpp): spacing and coefficient table. -/
structure CubicSpline (K : Type*) where
  h : K
  c : List K

/-- Constructor, cubic_spline.cpp:6-13. -/
def CubicSpline.mk? (h : K) (vals derivs : List K) : Option (CubicSpline K) :=
  (generateCoefficients h vals derivs).map (fun c => ⟨h, c⟩)

variable [LinearOrder K] [IsStrictOrderedRing K] [FloorRing K]

/-- The four coefficients of interval `i` (`c[4*i]`..`c[4*i+3]`); `none` = out-of-range read. -/
def coeffs4 (c : List K) (i : ℤ) : Option (K × K × K × K) :=
  if i < 0 then none
  else do
    let i4 := 4 * i.toNat
    let c0 ← c[i4]?
    let c1 ← c[i4 + 1]?
    let c2 ← c[i4 + 2]?
    let c3 ← c[i4 + 3]?
    pure (c0, c1, c2, c3)

/-- `CubicSpline::evaluate`, cubic_spline.cpp:15-27. -/
def CubicSpline.evaluate (s : CubicSpline K) (r : K) : Out K :=
  let i := truncInt (r / s.h)
  if i < 0 ∨ i ≥ (s.c.length / 4 : ℕ) then .exc
  else
    let x := r - s.h * i
    match coeffs4 s.c i with
    | none => .ub
    | some (c0, c1, c2, c3) => .ret (c0 + c1 * x + c2 * (x * x) + c3 * (x * x * x))

/-- `CubicSpline::evaluate_deriv`, cubic_spline.cpp:29-41. -/
def CubicSpline.evaluateDeriv (s : CubicSpline K) (r : K) : Out (K × K) :=
  let i := truncInt (r / s.h)
  if i < 0 ∨ i ≥ (s.c.length / 4 : ℕ) then .exc
  else
    let x := r - s.h * i
    match coeffs4 s.c i with
    | none => .ub
    | some (c0, c1, c2, c3) =>
      .ret (c0 + c1 * x + c2 * (x * x) + c3 * (x * x * x), c1 + 2 * c2 * x + 3 * c3 * (x * x))

/-- `CubicSpline::evaluate_deriv_divided`, cubic_spline.cpp:43-55. -/
def CubicSpline.evaluateDerivDivided (s : CubicSpline K) (r : K) : Out (K × K) :=
  let i := truncInt (r / s.h)
  if i < 0 ∨ i ≥ (s.c.length / 4 : ℕ) then .exc
  else
    let x := r - s.h * i
    match coeffs4 s.c i with
    | none => .ub
    | some (c0, c1, c2, c3) =>
      .ret (c0 + c1 * x + c2 * (x * x) + c3 * (x * x * x), (c1 + 2 * c2 * x + 3 * c3 * (x * x)) / r)

/-! ## Kokkos single spline: only the index checks differ -/

/-- `CubicSplineKokkos::evaluate`, cubic_spline_kokkos.cpp:26-48 (`c` has `num_coeffs` entries; on a host
back-end `create_mirror_view` is the view itself). -/
def CubicSpline.evaluateKokkos (s : CubicSpline K) (r : K) : Out K := s.evaluate r

/-- `CubicSplineKokkos::evaluate_deriv`, cubic_spline_kokkos.cpp:50-73: the check is `i > num_coeffs/4`. -/
def CubicSpline.evaluateDerivKokkos (s : CubicSpline K) (r : K) : Out (K × K) :=
  let i := truncInt (r / s.h)
  if i < 0 ∨ i > (s.c.length / 4 : ℕ) then .exc
  else
    let x := r - s.h * i
    match coeffs4 s.c i with
    | none => .ub
    | some (c0, c1, c2, c3) =>
      .ret (c0 + c1 * x + c2 * (x * x) + c3 * (x * x * x), c1 + 2 * c2 * x + 3 * c3 * (x * x))

/-- `CubicSplineKokkos::evaluate_deriv_divided`, cubic_spline_kokkos.cpp:75-95: the check is
`i > num_coeffs`. -/
def CubicSpline.evaluateDerivDividedKokkos (s : CubicSpline K) (r : K) : Out (K × K) :=
  let i := truncInt (r / s.h)
  if i < 0 ∨ i > (s.c.length : ℕ) then .exc
  else
    let x := r - s.h * i
    match coeffs4 s.c i with
    | none => .ub
    | some (c0, c1, c2, c3) =>
      .ret (c0 + c1 * x + c2 * (x * x) + c3 * (x * x * x), (c1 + 2 * c2 * x + 3 * c3 * (x * x)) / r)

/-! ## `CubicSplineSet` -/

/-- The object `CubicSplineSet` (cubic_spline_set.hpp). -/
structure SplineSet (K : Type*) where
  h : K
  num_nodes : ℕ
  num_splines : ℕ
  c : List K

omit [LinearOrder K] [IsStrictOrderedRing K] [FloorRing K] in
/-- Inner loop body of the constructor, cubic_spline_set.cpp:17-22. -/
def setBody (h : K) (vals derivs : List (List K)) (S i j : ℕ) (c : List K) : Option (List K) := do
  let vj ← vals[j]?
  let dj ← derivs[j]?
  let v ← vj[i]?
  let d ← dj[i]?
  let v' ← vj[i + 1]?
  let d' ← dj[i + 1]?
  let c ← wr c ((4 * i) * S + j) v
  let c ← wr c ((4 * i + 1) * S + j) d
  let c ← wr c ((4 * i + 2) * S + j) ((-3 * v - 2 * h * d + 3 * v' - h * d') / (h * h))
  wr c ((4 * i + 3) * S + j) ((2 * v + h * d - 2 * v' + h * d') / (h * h * h))

omit [LinearOrder K] [IsStrictOrderedRing K] [FloorRing K] in
/-- Constructor, cubic_spline_set.cpp:5-25.  `none`: no splines, no nodes, or an input row too short. -/
def SplineSet.mk? (h : K) (vals derivs : List (List K)) : Option (SplineSet K) :=
  match vals[0]? with
  | none => none
  | some v0 =>
    if v0.length = 0 then none
    else
      (loop (v0.length - 1) (fun i => loop vals.length (setBody h vals derivs vals.length i))
        (List.replicate (4 * vals.length * (v0.length - 1)) 0)).map
        (fun c => ⟨h, v0.length, vals.length, c⟩)

/-- Read `c_i[j]` where `c_i = c.data() + off` with a signed offset. -/
def readOff (c : List K) (off : ℤ) (j : ℕ) : Option K :=
  if off + j < 0 then none else c[(off + j).toNat]?

/-- One pass `for (j<num_splines) out[j] op= c_i[j]*factor` of `CubicSplineSet::evaluate*`.
The output span starts at position `base` of buffer `b`. -/
def rowPass {ι : Type} [DecidableEq ι] (b : ι) (base : ℕ) (c : List K) (off : ℤ) (n : ℕ) (f : K → K → K)
    (s : Bufs ι K) : Option (Bufs ι K) :=
  loop n (fun j s => do
    let x ← readOff c off j
    modAt b (base + j) (fun y => f y x) s) s

/-- `CubicSplineSet::evaluate`, cubic_spline_set.cpp:27-48 (`values` is the span that is written). -/
def SplineSet.evaluate (s : SplineSet K) (r : K) (values : List K) : Option (List K) := do
  let i := truncInt (r / s.h)
  let x := r - s.h * i
  let S : ℤ := s.num_splines
  let o := 4 * i * S
  let st : Bufs Unit K := fun _ => values
  let st ← rowPass () 0 s.c o s.num_splines (fun _ c => c) st
  let st ← rowPass () 0 s.c (o + S) s.num_splines (fun y c => y + c * x) st
  let st ← rowPass () 0 s.c (o + S + S) s.num_splines (fun y c => y + c * (x * x)) st
  let st ← rowPass () 0 s.c (o + S + S + S) s.num_splines (fun y c => y + c * (x * x * x)) st
  pure (st ())

/-- `CubicSplineSet::evaluate_derivs`, cubic_spline_set.cpp:50-84; output buffer `false` is `values`,
`true` is `derivs`; both spans start at position `base` of their buffers. -/
def SplineSet.evaluateDerivs (s : SplineSet K) (r : K) (base : ℕ) (st : Bufs Bool K) : Option (Bufs Bool K) := do
  let i := truncInt (r / s.h)
  let x := r - s.h * i
  let S : ℤ := s.num_splines
  let o := 4 * i * S
  let st ← rowPass false base s.c o s.num_splines (fun _ c => c) st
  let st ← rowPass false base s.c (o + S) s.num_splines (fun y c => y + x * c) st
  let st ← rowPass false base s.c (o + S + S) s.num_splines (fun y c => y + (x * x) * c) st
  let st ← rowPass false base s.c (o + S + S + S) s.num_splines (fun y c => y + (x * x * x) * c) st
  let o' := (4 * i + 1) * S
  let st ← rowPass true base s.c o' s.num_splines (fun _ c => c) st
  let st ← rowPass true base s.c (o' + S) s.num_splines (fun y c => y + (2 * x) * c) st
  rowPass true base s.c (o' + S + S) s.num_splines (fun y c => y + (3 * (x * x)) * c) st

end Verif.Spline
