import Verif.Model.MACE

/-!
# The evaluator in an arbitrary arithmetic

The files `Model/CubicSpline.lean`, `Model/Polynomial.lean`, `Model/MLP.lean`, `Model/ZBL.lean` and `Model/MACE.lean` read `double`
as a field.  Here the same functions of `mace.cpp` and of the classes it calls are written for a type `K` of numbers with operations
about which nothing is assumed: `A : Arith K` may be exact, rounded, or have infinities and a NaN.  The objects (`Params`, `State`,
`Graph`, `Poly`, `MLP`, `CubicSpline`, `SplineSet`) are the ones of the other files at this type.

The operations are written in the order of the C++ expressions.  Two places are kept open: the order in which a BLAS routine
accumulates an inner product (`Arith.dot`), and the elementary functions.  A BLAS routine with `beta = 0` does not read its output.
-/

namespace Verif.Num

/-- The operations on `double` the evaluator uses; there are no laws.  `lit` is a literal of the source, `ofInt` the conversion of an
`int`, `trunc` is `static_cast<int>`, `le` is `<=`, `pow` and `powi` are `std::pow` with a `double` and with an `int` exponent.
`dot t z ps` is the number a BLAS routine computes for `z + Σ x*y` (`z = none`: no accumulation) over the pairs `ps`; `t` says for
which entry of which shape of call, so that the order of the additions may depend on it. -/
class Arith (K : Type) where
  lit : ℚ → K
  ofInt : ℤ → K
  add : K → K → K
  sub : K → K → K
  mul : K → K → K
  div : K → K → K
  neg : K → K
  le : K → K → Bool
  trunc : K → ℤ
  exp : K → K
  pow : K → K → K
  powi : K → ℤ → K
  dot : List ℕ → Option K → List (K × K) → K

section
variable {K : Type} [A : Arith K]

scoped instance iZero : Zero K := ⟨A.lit 0⟩
scoped instance iOne : One K := ⟨A.lit 1⟩
scoped instance iAdd : Add K := ⟨A.add⟩
scoped instance iSub : Sub K := ⟨A.sub⟩
scoped instance iMul : Mul K := ⟨A.mul⟩
scoped instance iDiv : Div K := ⟨A.div⟩
scoped instance iNeg : Neg K := ⟨A.neg⟩

/-! ## BLAS -/

/-- An inner product of `k` pairs of numbers that are read from buffers. -/
def dotO (t : List ℕ) (k : ℕ) (z : Option K) (f : ℕ → Option (K × K)) : Option K :=
  (MACE.pushLoop k f []).map (A.dot t z)

/-- `cblas_dgemm(RowMajor, ta, tb, m, n, k, 1.0, a+aoff, lda, b+boff, ldb, 0.0, c+coff, ldc)`. -/
def gemm (ta tb : Bool) (m n k : ℕ) (a : List K) (aoff lda : ℕ) (b : List K) (boff ldb : ℕ) (coff ldc : ℕ) (c : List K) :
    Option (List K) :=
  loop m (fun i => loop n (fun j c => do
    let s ← dotO [m, n, k, i, j] k none (fun p => do
      let x ← a[Blas.mIdx ta aoff lda i p]?
      let y ← b[Blas.mIdx tb boff ldb p j]?
      pure (x, y))
    wr c (coff + i * ldc + j) s)) c

/-- `cblas_dgemv(RowMajor, tr, m, n, 1.0, a, lda, x+xoff, 1, acc ? 1.0 : 0.0, y+yoff, 1)`. -/
def gemv (tr : Bool) (m n : ℕ) (a : List K) (lda : ℕ) (x : List K) (xoff : ℕ) (acc : Bool) (yoff : ℕ) (y : List K) :
    Option (List K) :=
  loop (if tr then n else m) (fun i y => do
    let z ← (if acc then (y[yoff + i]?).map some else some none)
    let s ← dotO [m, n, i] (if tr then m else n) z (fun p => do
      let u ← a[Blas.mIdx tr 0 lda i p]?
      let v ← x[xoff + p]?
      pure (u, v))
    wr y (yoff + i) s) y

/-! ## Splines -/

/-- Loop body of `CubicSpline::generate_coefficients`, cubic_spline.cpp:65-68. -/
def genBody (h : K) (vals derivs : List K) (i : ℕ) (c : List K) : Option (List K) := do
  let v ← vals[i]?
  let c ← wr c (4 * i) v
  let d ← derivs[i]?
  let c ← wr c (4 * i + 1) d
  let c0 ← c[4 * i]?
  let c1 ← c[4 * i + 1]?
  let v' ← vals[i + 1]?
  let d' ← derivs[i + 1]?
  let c ← wr c (4 * i + 2) ((A.lit (-3) * c0 - A.lit 2 * h * c1 + A.lit 3 * v' - h * d') / (h * h))
  wr c (4 * i + 3) ((A.lit 2 * c0 + h * c1 - A.lit 2 * v' + h * d') / (h * h * h))

/-- `CubicSpline::generate_coefficients`, cubic_spline.cpp:57-71.
`none`: `nodal_values` empty (the size computation `size()-1` wraps) or `nodal_derivs` too short. -/
def generateCoefficients (h : K) (vals derivs : List K) : Option (List K) :=
  if vals.length = 0 then none
  else loop (vals.length - 1) (genBody h vals derivs) (List.replicate (4 * (vals.length - 1)) 0)

/-- Constructor, cubic_spline.cpp:6-13. -/
def splineMk? (h : K) (vals derivs : List K) : Option (Spline.CubicSpline K) :=
  (generateCoefficients h vals derivs).map (fun c => ⟨h, c⟩)

/-- The four coefficients of interval `i` (`c[4*i]`..`c[4*i+3]`); `none` = out-of-range read. -/
def coeffs4 (c : List K) (i : ℤ) : Option (K × K × K × K) :=
  if i < 0 then none
  else do
    let i4 := 4 * i.toNat
    let c0 ← c[i4]?
    let c1 ← c[i4 + 1]?
    let c2 ← c[i4 + 2]?
    let c3 ← c[i4 + 3]?
    pure (c0, c1, c2, c3)

/-- `CubicSpline::evaluate`, cubic_spline.cpp:15-27. -/
def splineValue (s : Spline.CubicSpline K) (r : K) : Out K :=
  let i := A.trunc (r / s.h)
  if i < 0 ∨ i ≥ (s.c.length / 4 : ℕ) then .exc
  else
    let x := r - s.h * A.ofInt i
    match coeffs4 s.c i with
    | none => .ub
    | some (c0, c1, c2, c3) => .ret (c0 + c1 * x + c2 * (x * x) + c3 * (x * x * x))

/-- `CubicSpline::evaluate_deriv`, cubic_spline.cpp:29-41. -/
def splineDeriv (s : Spline.CubicSpline K) (r : K) : Out (K × K) :=
  let i := A.trunc (r / s.h)
  if i < 0 ∨ i ≥ (s.c.length / 4 : ℕ) then .exc
  else
    let x := r - s.h * A.ofInt i
    match coeffs4 s.c i with
    | none => .ub
    | some (c0, c1, c2, c3) =>
      .ret (c0 + c1 * x + c2 * (x * x) + c3 * (x * x * x), c1 + A.lit 2 * c2 * x + A.lit 3 * c3 * (x * x))

/-- Inner loop body of the constructor, cubic_spline_set.cpp:17-22. -/
def setBody (h : K) (vals derivs : List (List K)) (S i j : ℕ) (c : List K) : Option (List K) := do
  let vj ← vals[j]?
  let dj ← derivs[j]?
  let v ← vj[i]?
  let d ← dj[i]?
  let v' ← vj[i + 1]?
  let d' ← dj[i + 1]?
  let c ← wr c ((4 * i) * S + j) v
  let c ← wr c ((4 * i + 1) * S + j) d
  let c ← wr c ((4 * i + 2) * S + j) ((A.lit (-3) * v - A.lit 2 * h * d + A.lit 3 * v' - h * d') / (h * h))
  wr c ((4 * i + 3) * S + j) ((A.lit 2 * v + h * d - A.lit 2 * v' + h * d') / (h * h * h))

/-- Constructor, cubic_spline_set.cpp:5-25.  `none`: no splines, no nodes, or an input row too short. -/
def setMk? (h : K) (vals derivs : List (List K)) : Option (Spline.SplineSet K) :=
  match vals[0]? with
  | none => none
  | some v0 =>
    if v0.length = 0 then none
    else
      (loop (v0.length - 1) (fun i => loop vals.length (setBody h vals derivs vals.length i))
        (List.replicate (4 * vals.length * (v0.length - 1)) 0)).map
        (fun c => ⟨h, v0.length, vals.length, c⟩)

/-- Read `c_i[j]` where `c_i = c.data() + off` with a signed offset. -/
def readOff (c : List K) (off : ℤ) (j : ℕ) : Option K :=
  if off + j < 0 then none else c[(off + j).toNat]?

/-- One pass `for (j<num_splines) out[j] op= c_i[j]*factor` of `CubicSplineSet::evaluate*`.
The output span starts at position `base` of buffer `b`. -/
def rowPass {ι : Type} [DecidableEq ι] (b : ι) (base : ℕ) (c : List K) (off : ℤ) (n : ℕ) (f : K → K → K)
    (s : Bufs ι K) : Option (Bufs ι K) :=
  loop n (fun j s => do
    let x ← readOff c off j
    modAt b (base + j) (fun y => f y x) s) s

/-- `CubicSplineSet::evaluate_derivs`, cubic_spline_set.cpp:50-84; output buffer `false` is `values`,
`true` is `derivs`; both spans start at position `base` of their buffers. -/
def setDerivs (s : Spline.SplineSet K) (r : K) (base : ℕ) (st : Bufs Bool K) : Option (Bufs Bool K) := do
  let i := A.trunc (r / s.h)
  let x := r - s.h * A.ofInt i
  let S : ℤ := s.num_splines
  let o := 4 * i * S
  let st ← rowPass false base s.c o s.num_splines (fun _ c => c) st
  let st ← rowPass false base s.c (o + S) s.num_splines (fun y c => y + x * c) st
  let st ← rowPass false base s.c (o + S + S) s.num_splines (fun y c => y + (x * x) * c) st
  let st ← rowPass false base s.c (o + S + S + S) s.num_splines (fun y c => y + (x * x * x) * c) st
  let o' := (4 * i + 1) * S
  let st ← rowPass true base s.c o' s.num_splines (fun _ c => c) st
  let st ← rowPass true base s.c (o' + S) s.num_splines (fun y c => y + (A.lit 2 * x) * c) st
  rowPass true base s.c (o' + S + S) s.num_splines (fun y c => y + (A.lit 3 * (x * x)) * c) st

/-! ## Polynomials -/

/-- Constructor, multivariate_polynomial.cpp:10-101.  The constructor parameters shadow the members, so the members
`coefficients` and `monomials` keep the input order. -/
def polyMk? (srt : List (List (List ℕ)) → List (List (List ℕ))) (nv : ℕ) (coeffs : List K)
    (monos : List (List ℕ)) : Option (Poly.Poly K) := do
  let map ← Poly.buildMap coeffs monos
  let S0 := Poly.nodeSet0 nv (map.map Prod.fst)
  let st ← Poly.auxLoop srt (S0.length + 1) S0.head? (S0, 0)
  let nodes := st.1
  let edges ← Poly.buildEdges srt nodes nodes
  let nc ← Poly.fillCoeffs nodes map 0 (List.replicate nodes.length 0)
  pure { numVariables := nv, coefficients := coeffs, monomials := monos, numAux := st.2, nodes := nodes,
         edges := edges, nodeCoefficients := nc, nodeValues := List.replicate nodes.length 0,
         nodeAdjoints := List.replicate nodes.length 0 }

/-- `initialize_forward_pass`, multivariate_polynomial.cpp:149-154. -/
def initForward (nv : ℕ) (x : List K) (vals : List K) : Option (List K) :=
  loop nv (fun i v => do
    let a ← x[i]?
    wr v i a) vals

/-- `forward_pass`, multivariate_polynomial.cpp:156-162. -/
def forwardPass (nv : ℕ) (edges : List (ℕ × ℕ)) (vals : List K) : Option (List K) :=
  loop edges.length (fun i v => do
    let e ← edges[i]?
    let a ← v[e.1]?
    let b ← v[e.2]?
    wr v (nv + i) (a * b)) vals

/-- `cblas_ddot(n, a, 1, b, 1)`. -/
def ddot (n : ℕ) (a b : List K) : Option K :=
  dotO [n] n none (fun i => do
    let x ← a[i]?
    let y ← b[i]?
    pure (x, y))

/-- `cblas_dcopy(n, a, 1, b, 1)`. -/
def dcopy1 (n : ℕ) (a b : List K) : Option (List K) :=
  loop n (fun i b => do
    let x ← a[i]?
    wr b i x) b

/-- `backward_pass`, multivariate_polynomial.cpp:171-178: `i` runs from `edges.size()-1` down to `0`. -/
def backwardPass (nv : ℕ) (edges : List (ℕ × ℕ)) (vals adjs : List K) : Option (List K) :=
  loop edges.length (fun k w => do
    let i := edges.length - 1 - k
    let e ← edges[i]?
    let a ← w[nv + i]?
    let v1 ← vals[e.2]?
    let w ← ad w e.1 (a * v1)
    let a ← w[nv + i]?
    let v0 ← vals[e.1]?
    ad w e.2 (a * v0)) adjs

/-- `extract_gradient_from_graph`, multivariate_polynomial.cpp:180-187. -/
def extractGradient (nv : ℕ) (adjs : List K) : Option (List K) :=
  loop nv (fun i g => do
    let a ← adjs[i]?
    wr g i a) (List.replicate nv 0)

/-- `evaluate_gradient`, multivariate_polynomial.cpp:114-127. -/
def polyGradient (P : Poly.Poly K) (x : List K) : Option (K × List K × Poly.Poly K) := do
  let v ← initForward P.numVariables x P.nodeValues
  let v ← forwardPass P.numVariables P.edges v
  let f ← ddot P.nodeCoefficients.length P.nodeCoefficients v
  let w ← dcopy1 P.nodeCoefficients.length P.nodeCoefficients P.nodeAdjoints
  let w ← backwardPass P.numVariables P.edges v w
  let g ← extractGradient P.numVariables w
  pure (f, g, { P with nodeValues := v, nodeAdjoints := w })

/-! ## The readout network -/

/-- Constructor, multilayer_perceptron.cpp:12-27. -/
def mlpMk? (shape : List ℕ) (weights : List (List K)) (scale : K) : Option (MLP.MLP K) := do
  let last ← shape.getLast?
  pure { shape, weights, scale
         nodeValues := shape.map (fun n => List.replicate n 0)
         nodeDerivs := shape.map (fun n => List.replicate (last * n) 0)
         nodeActDerivs := shape.map (fun n => List.replicate n 0) }

/-- `for i: b[i].resize(f*shape[i])`, multilayer_perceptron.cpp:35-37, 82-86, 159-161, 211-215. -/
def resizeAll (shape : List ℕ) (f : ℕ) (b : List (List K)) : Option (List (List K)) :=
  loop shape.length (fun i b => do
    let n ← shape[i]?
    MLP.modRow b i (fun r => some (resize r (f * n)))) b

/-- `std::copy(input.begin(), input.end(), node_values[0].begin())`. -/
def copyIn (input : List K) (b : List (List K)) : Option (List (List K)) :=
  MLP.modRow b 0 (fun r => if input.length ≤ r.length then some (input ++ r.drop input.length) else none)

/-- The activation as written in the gradient functions, multilayer_perceptron.cpp:106-107. -/
def act' (scale x : K) : K := scale * x * (1 / (1 + A.exp (-x)))

/-- Its derivative as written in the code, multilayer_perceptron.cpp:108-109. -/
def actD (scale x : K) : K :=
  scale * (1 / (1 + A.exp (-x))) + scale * x * (1 / (1 + A.exp (-x))) * (1 - 1 / (1 + A.exp (-x)))

/-- The product of layer `l`, multilayer_perceptron.cpp:41-53 (and 90-102). -/
def layerProduct (M : MLP.MLP K) (l : ℕ) (nv : List (List K)) : Option (List (List K)) := do
  let n1 ← M.shape[l + 1]?
  let n0 ← M.shape[l]?
  let w ← M.weights[l]?
  let x ← nv[l]?
  MLP.modRow nv (l + 1) (gemv false n1 n0 w n0 x 0 false 0)

/-- The final layer, multilayer_perceptron.cpp:60-72: weights `back()`, shapes `end()[-1]`, `end()[-2]`. -/
def finalLayer (M : MLP.MLP K) (nv : List (List K)) : Option (List (List K)) := do
  let m ← M.shape[M.shape.length - 1]?
  let n ← M.shape[M.shape.length - 2]?
  let w ← M.weights.getLast?
  let x ← nv[nv.length - 2]?
  MLP.modRow nv (nv.length - 1) (gemv false m n w n x 0 false 0)

/-- Hidden layer `l` in `evaluate_gradient`, multilayer_perceptron.cpp:89-111; state: values and activation
derivatives. -/
def layerG (M : MLP.MLP K) (l : ℕ) (s : List (List K) × List (List K)) :
    Option (List (List K) × List (List K)) := do
  let nv ← layerProduct M l s.1
  let n1 ← M.shape[l + 1]?
  let y ← nv[l + 1]?
  let d ← s.2[l + 1]?
  let yd ← loop n1 (fun i (yd : List K × List K) => do
    let x ← yd.1[i]?
    let y ← wr yd.1 i (act' M.scale x)
    let d ← wr yd.2 i (actD M.scale x)
    pure (y, d)) (y, d)
  pure (nv.set (l + 1) yd.1, s.2.set (l + 1) yd.2)

/-- One step of the backward sweep at layer `l`, multilayer_perceptron.cpp:129-147. -/
def backLayer (M : MLP.MLP K) (da : List (List K)) (l : ℕ) (nd : List (List K)) : Option (List (List K)) := do
  let o ← M.shape.getLast?
  let n1 ← M.shape[l + 1]?
  let n0 ← M.shape[l]?
  let w ← M.weights[l]?
  let d ← da[l + 1]?
  let nd ← MLP.modRow nd (l + 1) (loop o (fun i => loop n1 (fun j r => do
    let x ← d[j]?
    md r (i * n1 + j) (fun z => z * x))))
  let a ← nd[l + 1]?
  MLP.modRow nd l (gemm false false o n0 n1 a 0 n1 w 0 n0 0 n0)

/-- `evaluate_gradient`, multilayer_perceptron.cpp:76-150. -/
def mlpGradient (M : MLP.MLP K) (input : List K) : Option (List K × List K × MLP.MLP K) := do
  let o ← M.shape.getLast?
  let nv ← resizeAll M.shape 1 M.nodeValues
  let da ← resizeAll M.shape 1 M.nodeActDerivs
  let nd ← resizeAll M.shape o M.nodeDerivs
  let nv ← copyIn input nv
  let s ← loop (M.shape.length - 2) (layerG M) (nv, da)
  let nv ← finalLayer M s.1
  let w ← M.weights.getLast?
  let nd ← MLP.modRow nd (nd.length - 2) (fun _ => some w)
  let nd ← loop (M.shape.length - 2) (fun k => backLayer M s.2 (M.shape.length - 3 - k)) nd
  let out ← nv.getLast?
  let jac ← nd[0]?
  pure (out, jac, { M with nodeValues := nv, nodeDerivs := nd, nodeActDerivs := s.2 })

/-! ## ZBL -/

/-- Members of `ZBL` set by the constructor, zbl.hpp:38-43 and zbl.cpp:9-20. -/
structure ZBL (K : Type) where
  aExp : K
  aPre : K
  c : List K
  rad : List K
  p : ℤ

/-- `ZBL::compute_envelope`, zbl.cpp:73-82. -/
def computeEnvelope (r rMax : K) (p : ℤ) : K :=
  if A.le rMax r then 0
  else
    let x := r / rMax
    let q := A.ofInt p
    1 - ((q + 1) * (q + A.lit 2) / A.lit 2) * A.powi x p + q * (q + A.lit 2) * A.powi x (p + 1)
      - (q * (q + 1) / A.lit 2) * A.powi x (p + 2)

/-- `ZBL::compute_envelope_gradient`, zbl.cpp:84-94. -/
def computeEnvelopeGradient (r rMax : K) (p : ℤ) : K :=
  if A.le rMax r then 0
  else
    let x := r / rMax
    let q := A.ofInt p
    (-((q + 1) * (q + A.lit 2) / A.lit 2) * q * A.powi x (p - 1) + q * (q + A.lit 2) * (q + 1) * A.powi x p
      - (q * (q + 1) / A.lit 2) * (q + A.lit 2) * A.powi x (p + 1)) / rMax

/-- The screening length `a`, zbl.cpp:27-28, 47-48. -/
def zblLength (z : ZBL K) (Zu Zv : ℕ) : K :=
  z.aPre * A.lit 0.529 / (A.pow (A.ofInt Zu) z.aExp + A.pow (A.ofInt Zv) z.aExp)

/-- `ZBL::compute`, zbl.cpp:22-40 (constants zbl.hpp:46-50); table reads are checked. -/
def zblCompute (z : ZBL K) (Zu Zv : ℕ) (r : K) : Option K := do
  let ru ← z.rad[Zu]?
  let rv ← z.rad[Zv]?
  let q := r / zblLength z Zu Zv
  let c0 ← z.c[0]?
  let c1 ← z.c[1]?
  let c2 ← z.c[2]?
  let c3 ← z.c[3]?
  let phi := c0 * A.exp (A.lit (-3.2) * q) + c1 * A.exp (A.lit (-0.9423) * q) + c2 * A.exp (A.lit (-0.4028) * q)
    + c3 * A.exp (A.lit (-0.2016) * q)
  let v := A.lit 14.3996 * A.ofInt Zu * A.ofInt Zv / r * phi
  pure (v * (A.lit 0.5 * computeEnvelope r (ru + rv) z.p))

/-- `ZBL::compute_gradient`, zbl.cpp:42-71. -/
def zblGradient (z : ZBL K) (Zu Zv : ℕ) (r : K) : Option K := do
  let ru ← z.rad[Zu]?
  let rv ← z.rad[Zv]?
  let a := zblLength z Zu Zv
  let q := r / a
  let c0 ← z.c[0]?
  let c1 ← z.c[1]?
  let c2 ← z.c[2]?
  let c3 ← z.c[3]?
  let e0 := c0 * A.exp (A.lit (-3.2) * q)
  let e1 := c1 * A.exp (A.lit (-0.9423) * q)
  let e2 := c2 * A.exp (A.lit (-0.4028) * q)
  let e3 := c3 * A.exp (A.lit (-0.2016) * q)
  let phi := e0 + e1 + e2 + e3
  let dphi := (A.lit (-3.2) * e0 + A.lit (-0.9423) * e1 + A.lit (-0.4028) * e2 + A.lit (-0.2016) * e3) / a
  let v := A.lit 14.3996 * A.ofInt Zu * A.ofInt Zv / r * phi
  let dv := A.lit 14.3996 * A.ofInt Zu * A.ofInt Zv * (r * dphi - phi) / (r * r)
  let env := computeEnvelope r (ru + rv) z.p
  let denv := computeEnvelopeGradient r (ru + rv) z.p
  pure (A.lit 0.5 * (v * denv + dv * env))

/-- Body of the neighbour loop of `ZBL::compute_ZBL`, zbl.cpp:111-121.
Output buffer `false` is `node_energies`, `true` is `node_forces`. -/
def zblEdge (z : ZBL K) (i Zi : ℕ) (neighTypes atomicNumbers : List ℕ) (r xyz : List K) (ij : ℕ) (st : Bufs Bool K) :
    Option (Bufs Bool K) := do
  let tj ← neighTypes[ij]?
  let Zj ← atomicNumbers[tj]?
  let rij ← r[ij]?
  let f ← zblCompute z Zi Zj rij
  let st ← modAt false i (fun x => x + f) st
  let g ← zblGradient z Zi Zj rij
  let x ← xyz[3 * ij]?
  let st ← modAt true (3 * ij) (fun w => w - x / rij * g) st
  let y ← xyz[3 * ij + 1]?
  let st ← modAt true (3 * ij + 1) (fun w => w - y / rij * g) st
  let zc ← xyz[3 * ij + 2]?
  modAt true (3 * ij + 2) (fun w => w - zc / rij * g) st

/-- `ZBL::compute_ZBL`, zbl.cpp:96-125; `ij` is the running edge counter. -/
def zblAll (z : ZBL K) (numNodes : ℕ) (nodeTypes numNeigh neighTypes atomicNumbers : List ℕ) (r xyz : List K) (st : Bufs Bool K) :
    Option (Bufs Bool K) := do
  let q ← loop numNodes (fun i (q : ℕ × Bufs Bool K) => do
    let ti ← nodeTypes[i]?
    let Zi ← atomicNumbers[ti]?
    let n ← numNeigh[i]?
    edgesFrom n (zblEdge z i Zi neighTypes atomicNumbers r xyz) q) (0, st)
  pure q.2

/-! ## Radial functions -/

/-- `compute_R0`/`compute_R1`, mace.cpp:66-90, 92-116.  Output spans are positions of the whole buffer. -/
def radial (nE : ℕ) (spl : List (Spline.SplineSet K)) (g : MACE.Graph K)
    (R Rd : List K) : Option (List K × List K) := do
  let s0 ← spl[0]?
  let S := s0.num_splines
  let R := resize R (g.r.length * S)
  let Rd := resize Rd R.length
  let q ← loop g.N (fun i (q : ℕ × Bufs Bool K) => do
    let ti ← g.types[i]?
    let n ← g.nn[i]?
    edgesFrom n (fun ij st => do
      let tj ← g.ntypes[ij]?
      let s ← spl[MACE.pairIndex nE ti tj]?
      let rij ← g.r[ij]?
      setDerivs s rij (ij * S) st) q) (0, fun b => if b then Rd else R)
  pure (q.2 false, q.2 true)

def computeR0 (P : MACE.Params K) (g : MACE.Graph K) (s : MACE.State K) :
    Option (MACE.State K) := do
  let q ← radial P.atomicNumbers.length P.splSet0 g s.R0 s.R0d
  pure { s with R0 := q.1, R0d := q.2 }

def computeR1 (P : MACE.Params K) (g : MACE.Graph K) (s : MACE.State K) :
    Option (MACE.State K) := do
  let q ← radial P.atomicNumbers.length P.splSet1 g s.R1 s.R1d
  pure { s with R1 := q.1, R1d := q.2 }

/-! ## Spherical harmonics -/

/-- The shuffle, mace.cpp:126-131. -/
def shuffle (num : ℕ) (xyz sh : List K) : Option (List K) :=
  loop num (fun i sh => do
    let a ← xyz[3 * i + 2]?
    let sh ← wr sh (3 * i) a
    let a ← xyz[3 * i]?
    let sh ← wr sh (3 * i + 1) a
    let a ← xyz[3 * i + 1]?
    wr sh (3 * i + 2) a) sh

/-- sphericart's values, layout `Y[i*num_lm+lm]`, mace.cpp:133. -/
def sphValues (M : ℕ) (sph : K → K → K → ℕ → K) (num : ℕ) (sh Y : List K) : Option (List K) :=
  loop num (fun i => loop M (fun lm Y => do
    let x ← sh[3 * i]?
    let y ← sh[3 * i + 1]?
    let z ← sh[3 * i + 2]?
    wr Y (i * M + lm) (sph x y z lm))) Y

/-- sphericart's gradients, layout `Y_grad[3*i*num_lm+c*num_lm+lm]`, mace.cpp:133. -/
def sphGrads (M : ℕ) (dsph : K → K → K → ℕ → ℕ → K) (num : ℕ) (sh Yg : List K) : Option (List K) :=
  loop num (fun i => loop 3 (fun c => loop M (fun lm Yg => do
    let x ← sh[3 * i]?
    let y ← sh[3 * i + 1]?
    let z ← sh[3 * i + 2]?
    wr Yg (3 * i * M + c * M + lm) (dsph x y z c lm)))) Yg

/-- `for (i<b.size()) b[i] *= c`, mace.cpp:135-138. -/
def scaleAll (c : K) (b : List K) : Option (List K) := loop b.length (fun i b => md b i (fun y => y * c)) b

/-- The unshuffle of the gradient, mace.cpp:140-147; `old` is the copy `Y_grad_shuffled`. -/
def unshuffle (M num : ℕ) (old b : List K) : Option (List K) :=
  loop num (fun i => loop M (fun lm b => do
    let a ← old[3 * i * M + 1 * M + lm]?
    let b ← wr b (3 * i * M + 0 * M + lm) a
    let a ← old[3 * i * M + 2 * M + lm]?
    let b ← wr b (3 * i * M + 1 * M + lm) a
    let a ← old[3 * i * M + 0 * M + lm]?
    wr b (3 * i * M + 2 * M + lm) a)) b

/-- `compute_Y`, mace.cpp:118-148. -/
def computeY (P : MACE.Params K) (g : MACE.Graph K) (s : MACE.State K) : Option (MACE.State K) :=
  if g.xyz.length = 0 then some s
  else do
    let num := g.xyz.length / 3
    let sh ← shuffle num g.xyz (resize s.xyzs (3 * num))
    let Y ← sphValues P.M P.sph num sh (resize s.Y (num * P.M))
    let Yg ← sphGrads P.M P.dsph num sh (resize s.Yg (3 * num * P.M))
    let Y ← scaleAll P.nrm Y
    let Yg ← scaleAll P.nrm Yg
    let Yg ← unshuffle P.M num Yg Yg
    pure { s with Y := Y, Yg := Yg, xyzs := sh }

/-! ## First layer -/

/-- Contribution of edge `ij` to `Phi0_i`, mace.cpp:161-177. -/
def phi0Edge (P : MACE.Params K) (g : MACE.Graph K) (Y R0 : List K) (ij : ℕ) (phi : List K) : Option (List K) := do
  let tj ← g.ntypes[ij]?
  loop (P.lmax + 1) (fun l => loop (2 * l + 1) (fun mm phi => do
    let lm := l * l + mm
    let y ← Y[ij * P.M + lm]?
    loop P.C (fun k phi => do
      let R ← R0[ij * (P.lmax + 1) * P.C + l * P.C + k]?
      let h ← P.H0w[tj * P.C + k]?
      ad phi (lm * P.C + k) (R * y * h)) phi)) phi

/-- `compute_A0`, mace.cpp:150-201. -/
def computeA0 (P : MACE.Params K) (g : MACE.Graph K) (s : MACE.State K) : Option (MACE.State K) := do
  let q ← loop g.N (fun i (q : ℕ × List K) => do
    let n ← g.nn[i]?
    let e ← edgesFrom n (phi0Edge P g s.Y s.R0) (q.1, List.replicate (P.M * P.C) 0)
    let A ← loop (P.lmax + 1) (fun l A => do
      let ti ← g.types[i]?
      let Wt ← P.A0w[ti]?
      let w ← Wt[l]?
      gemm false false (2 * l + 1) P.C P.C e.2 (l * l * P.C) P.C w 0 P.C ((i * P.M + l * l) * P.C) P.C A) q.2
    pure (e.1, A)) (0, resize s.A0 (g.N * P.M * P.C))
  pure { s with A0 := q.2 }

/-- `-adj * (x/r * R' * Y * H + R * Ygrad * H)`, the force increment of mace.cpp:255-263 and 565-573. -/
def forceTerm (adj x r Rd y h R yg : K) : K := -adj * (x / r * Rd * y * h + R * yg * h)

/-- Force update of edge `ij` from `Phi0_adj_i`, mace.cpp:236-268. -/
def phi0Force (P : MACE.Params K) (g : MACE.Graph K) (s : MACE.State K) (adj : List K) (ij : ℕ) (F : List K) : Option (List K) := do
  let tj ← g.ntypes[ij]?
  let r ← g.r[ij]?
  loop (P.lmax + 1) (fun l => loop (2 * l + 1) (fun mm F => do
    let lm := l * l + mm
    let y ← s.Y[ij * P.M + lm]?
    loop P.C (fun k => loop 3 (fun a F => do
      let yg ← s.Yg[ij * 3 * P.M + a * P.M + lm]?
      let x ← g.xyz[ij * 3 + a]?
      let R ← s.R0[ij * (P.lmax + 1) * P.C + l * P.C + k]?
      let Rd ← s.R0d[ij * (P.lmax + 1) * P.C + l * P.C + k]?
      let h ← P.H0w[tj * P.C + k]?
      let p ← adj[lm * P.C + k]?
      ad F (ij * 3 + a) (forceTerm p x r Rd y h R yg))) F)) F

/-- `reverse_A0`, mace.cpp:203-271. -/
def reverseA0 (P : MACE.Params K) (g : MACE.Graph K) (s : MACE.State K) : Option (MACE.State K) := do
  let q ← loop g.N (fun i (q : ℕ × List K) => do
    let adj ← loop (P.lmax + 1) (fun l adj => do
      let ti ← g.types[i]?
      let Wt ← P.A0w[ti]?
      let w ← Wt[l]?
      gemm false true (2 * l + 1) P.C P.C s.A0a ((i * P.M + l * l) * P.C) P.C w 0 P.C (l * l * P.C) P.C adj)
      (List.replicate (P.M * P.C) 0)
    let n ← g.nn[i]?
    edgesFrom n (phi0Force P g s adj) q) (0, s.nodeForces)
  pure { s with nodeForces := q.2 }

/-! ## Rescaling by the density -/

/-- The loop accumulating the scale factor of node `i`, mace.cpp:284-292, 317-325, 692-700, 728-736. -/
def scaleFactor (nE : ℕ) (spl : List (Spline.CubicSpline K)) (g : MACE.Graph K) (ti n : ℕ) (ij : ℕ) : Option (ℕ × K) :=
  edgesFrom n (fun ij acc => do
    let tj ← g.ntypes[ij]?
    let s ← spl[MACE.pairIndex nE ti tj]?
    let r ← g.r[ij]?
    let v ← MACE.ofOut (splineValue s r)
    pure (acc + v)) (ij, 1)

/-- `compute_A0_scaled`/`compute_A1_scaled`, mace.cpp:273-297, 681-705; `len = num_lm*num_channels`. -/
def scaleForward (nE : ℕ) (spl : List (Spline.CubicSpline K)) (len : ℕ) (g : MACE.Graph K) (A : List K) : Option (List K) := do
  let q ← loop g.N (fun i (q : ℕ × List K) => do
    let ti ← g.types[i]?
    let n ← g.nn[i]?
    let f ← scaleFactor nE spl g ti n q.1
    let A ← loop len (fun p A => md A (i * len + p) (fun x => x / f.2)) q.2
    pure (f.1, A)) (0, A)
  pure q.2

/-- `reverse_A0_scaled`/`reverse_A1_scaled` (the common part), mace.cpp:309-345, 720-756.
State: counter, (forces, adjoint). -/
def scaleReverse (nE : ℕ) (spl : List (Spline.CubicSpline K)) (len : ℕ) (g : MACE.Graph K) (A : List K) (st : List K × List K) :
    Option (List K × List K) := do
  let q ← loop g.N (fun i (q : ℕ × List K × List K) => do
    let ti ← g.types[i]?
    let n ← g.nn[i]?
    let f ← scaleFactor nE spl g ti n q.1
    let dot ← sumO len (fun p => do
      let x ← q.2.2[i * len + p]?
      let y ← A[i * len + p]?
      pure (x * y))
    let e ← edgesFrom n (fun ij F => do
      let tj ← g.ntypes[ij]?
      let sp ← spl[MACE.pairIndex nE ti tj]?
      let r ← g.r[ij]?
      let fd ← MACE.ofOut (splineDeriv sp r)
      loop 3 (fun a F => do
        let x ← g.xyz[ij * 3 + a]?
        ad F (ij * 3 + a) (dot / f.2 * fd.2 * x / r)) F) (f.1 - n, q.2.1)
    let adj ← loop len (fun p B => md B (i * len + p) (fun x => x / f.2)) q.2.2
    pure (e.1, e.2, adj)) (0, st)
  pure q.2

/-- `compute_A0_scaled`, mace.cpp:273-297. -/
def computeA0Scaled (P : MACE.Params K) (g : MACE.Graph K) (s : MACE.State K) : Option (MACE.State K) :=
  if P.A0scaled then do
    let A ← scaleForward P.atomicNumbers.length P.A0splines (P.M * P.C) g s.A0
    pure { s with A0 := A }
  else some s

/-- `reverse_A0_scaled`, mace.cpp:299-346. -/
def reverseA0Scaled (P : MACE.Params K) (g : MACE.Graph K) (s : MACE.State K) : Option (MACE.State K) :=
  if P.A0scaled then do
    let q ← scaleReverse P.atomicNumbers.length P.A0splines (P.M * P.C) g s.A0 (s.nodeForces, s.A0a)
    pure { s with nodeForces := q.1, A0a := q.2 }
  else some s

/-- `compute_A1_scaled`, mace.cpp:681-705. -/
def computeA1Scaled (P : MACE.Params K) (g : MACE.Graph K) (s : MACE.State K) : Option (MACE.State K) :=
  if P.A1scaled then do
    let A ← scaleForward P.atomicNumbers.length P.A1splines (P.M * P.C) g s.A1
    pure { s with A1 := A }
  else some s

/-- `reverse_A1_scaled`, mace.cpp:707-757. -/
def reverseA1Scaled (P : MACE.Params K) (g : MACE.Graph K) (zeroDxyz : Bool) (s : MACE.State K) : Option (MACE.State K) :=
  if P.A1scaled then do
    let F := resize s.nodeForces g.xyz.length
    let F := if zeroDxyz then List.replicate F.length 0 else F
    let q ← scaleReverse P.atomicNumbers.length P.A1splines (P.M * P.C) g s.A1 (F, s.A1a)
    pure { s with nodeForces := q.1, A1a := q.2 }
  else some s


/-! ## Products -/

/-- `cblas_dcopy(n, a+aoff, ainc, b+boff, binc)`. -/
def dcopy (n : ℕ) (a : List K) (aoff ainc : ℕ) (boff binc : ℕ) (b : List K) : Option (List K) :=
  loop n (fun j b => do
    let v ← a[aoff + j * ainc]?
    wr b (boff + j * binc) v) b

/-- Work of one call of a product polynomial, mace.cpp:361-364, 770-773: `out[opos] = f`, gradient to
`grad[gpos + lm*num_channels]`.  State: scratch `x`, `out`, `grad`, polynomial objects. -/
def productStep (P : MACE.Params K) (A : List K) (apos poly opos gpos : ℕ)
    (st : List K × List K × List K × List (Poly.Poly K)) :
    Option (List K × List K × List K × List (Poly.Poly K)) := do
  let x ← dcopy P.M A apos P.C 0 1 st.1
  let p ← st.2.2.2[poly]?
  let fg ← polyGradient p x
  let out ← wr st.2.1 opos fg.1
  let grad ← dcopy P.M fg.2.1 0 1 gpos P.C st.2.2.1
  pure (x, out, grad, st.2.2.2.set poly fg.2.2)

/-- `compute_M0`, mace.cpp:348-370; the scratch vector `x` is local to the node. -/
def computeM0 (P : MACE.Params K) (g : MACE.Graph K) (s : MACE.State K) : Option (MACE.State K) := do
  let q ← loop g.N (fun i (st : List K × List K × List (Poly.Poly K)) => do
    let q ← loop P.LM (fun lm => cnt P.C (fun k lmk st => do
      let ti ← g.types[i]?
      productStep P s.A0 (i * P.M * P.C + k) (ti * P.LM * P.C + lmk) (i * P.LM * P.C + lmk)
        (i * P.LM * P.C * P.M + (lm * P.M * P.C + k)) st)) (0, List.replicate P.M 0, st)
    pure q.2.2)
    (resize s.M0 (g.N * P.LM * P.C), resize s.M0g (g.N * P.C * P.LM * P.M), s.P0)
  pure { s with M0 := q.1, M0g := q.2.1, P0 := q.2.2 }

/-- `reverse_M0`, mace.cpp:372-395. -/
def reverseM0 (P : MACE.Params K) (g : MACE.Graph K) (s : MACE.State K) : Option (MACE.State K) := do
  let A ← loop g.N (fun i => loop P.M (fun lm => loop P.LM (fun lmp => loop P.C (fun k A => do
    let d ← s.M0g[i * P.LM * P.M * P.C + lmp * P.M * P.C + lm * P.C + k]?
    let a ← s.M0a[i * P.LM * P.C + lmp * P.C + k]?
    ad A (i * P.M * P.C + lm * P.C + k) (d * a))))) (List.replicate s.A0.length 0)
  pure { s with A0a := A }

/-- `compute_H1`, mace.cpp:397-423. -/
def computeH1 (P : MACE.Params K) (g : MACE.Graph K) (s : MACE.State K) : Option (MACE.State K) := do
  let H ← loop g.N (fun i => loop (P.Lmax + 1) (fun l =>
    gemm false false (2 * l + 1) P.C P.C s.M0 ((i * P.LM + l * l) * P.C) P.C P.H1w (l * P.C * P.C) P.C
      ((i * P.LM + l * l) * P.C) P.C)) (resize s.H1 s.M0.length)
  pure { s with H1 := H }

/-- `reverse_H1`, mace.cpp:425-451. -/
def reverseH1 (P : MACE.Params K) (g : MACE.Graph K) (s : MACE.State K) : Option (MACE.State K) := do
  let H ← loop g.N (fun i => loop (P.Lmax + 1) (fun l =>
    gemm false true (2 * l + 1) P.C P.C s.H1a ((i * P.LM + l * l) * P.C) P.C P.H1w (l * P.C * P.C) P.C
      ((i * P.LM + l * l) * P.C) P.C)) (resize s.M0a s.M0.length)
  pure { s with M0a := H }

/-! ## Second layer -/

/-- The loops over `lel1l2`, `lm1`, `lm2` with the running counter `lelm1lm2`, mace.cpp:470-488, 545-577, 588-602. -/
def tripleLoop {σ : Type} (P : MACE.Params K) (body : ℕ → ℕ → ℕ → ℕ → σ → Option σ) (s : σ) : Option σ := do
  let q ← loop P.phil.length (fun le (q : ℕ × σ) => do
    let l1 ← P.phil1[le]?
    let l2 ← P.phil2[le]?
    loop (2 * l1 + 1) (fun m1 => cnt (2 * l2 + 1) (fun m2 c s => body le (l1 * l1 + m1) (l2 * l2 + m2) c s)) q) (0, s)
  pure q.2

/-- Contribution of edge `ij` to `Phi1r_i`, mace.cpp:466-490. -/
def phi1Edge (P : MACE.Params K) (g : MACE.Graph K) (s : MACE.State K) (i ij : ℕ) (phi : List K) : Option (List K) := do
  let s0 ← P.splSet1[0]?
  let v ← g.idx[ij]?
  tripleLoop P (fun le lm1 lm2 q phi => do
    let y ← s.Y[ij * P.M + lm1]?
    loop P.C (fun k phi => do
      let R ← s.R1[ij * s0.num_splines + le * P.C + k]?
      let h ← s.H1[v * P.LM * P.C + lm2 * P.C + k]?
      ad phi (i * P.numLelm * P.C + q * P.C + k) (R * y * h)) phi) phi

/-- Accumulation with Clebsch-Gordan coefficients: `dst[i, dstIdx p] += cg[p] * src[i, srcIdx p]`,
mace.cpp:491-501 and 517-527. -/
def cgPass (C N : ℕ) (cg : List K) (nd ns : ℕ) (di si : List ℕ) (src : List K) (dst : List K) : Option (List K) :=
  loop N (fun i => loop cg.length (fun p d => do
    let a ← di[p]?
    let c ← cg[p]?
    let b ← si[p]?
    loop C (fun k d => do
      let x ← src[i * ns * C + b * C + k]?
      ad d (i * nd * C + a * C + k) (c * x)) d)) dst

/-- `compute_Phi1`, mace.cpp:453-502. -/
def computePhi1 (P : MACE.Params K) (g : MACE.Graph K) (s : MACE.State K) : Option (MACE.State K) := do
  let q ← loop g.N (fun i (q : ℕ × List K) => do
    let n ← g.nn[i]?
    edgesFrom n (phi1Edge P g s i) q) (0, List.replicate (g.N * P.numLelm * P.C) 0)
  let phi ← cgPass P.C g.N P.cg P.numLme P.numLelm P.philme P.philelm q.2
    (List.replicate (g.N * P.numLme * P.C) 0)
  pure { s with Phi1r := q.2, Phi1 := phi }

/-- Force update of edge `ij`, mace.cpp:535-579. -/
def phi1Force (P : MACE.Params K) (g : MACE.Graph K) (s : MACE.State K) (dr : List K) (i ij : ℕ) (F : List K) : Option (List K) := do
  let s0 ← P.splSet1[0]?
  let v ← g.idx[ij]?
  let r ← g.r[ij]?
  tripleLoop P (fun le lm1 lm2 q F => do
    let y ← s.Y[ij * P.M + lm1]?
    loop P.C (fun k => loop 3 (fun a F => do
      let yg ← s.Yg[ij * 3 * P.M + a * P.M + lm1]?
      let x ← g.xyz[3 * ij + a]?
      let R ← s.R1[ij * s0.num_splines + le * P.C + k]?
      let Rd ← s.R1d[ij * s0.num_splines + le * P.C + k]?
      let h ← s.H1[v * P.LM * P.C + lm2 * P.C + k]?
      let p ← dr[i * P.numLelm * P.C + q * P.C + k]?
      ad F (3 * ij + a) (forceTerm p x r Rd y h R yg))) F) F

/-- Update of `H1_adj` from edge `ij`, mace.cpp:585-604. -/
def phi1Adj (P : MACE.Params K) (g : MACE.Graph K) (s : MACE.State K) (dr : List K) (i ij : ℕ) (Ha : List K) : Option (List K) := do
  let s0 ← P.splSet1[0]?
  let v ← g.idx[ij]?
  tripleLoop P (fun le lm1 lm2 q Ha => do
    loop P.C (fun k Ha => do
      let R ← s.R1[ij * s0.num_splines + le * P.C + k]?
      let y ← s.Y[ij * P.M + lm1]?
      let p ← dr[i * P.numLelm * P.C + q * P.C + k]?
      ad Ha (v * P.LM * P.C + lm2 * P.C + k) (R * y * p)) Ha) Ha

/-- `reverse_Phi1`, mace.cpp:504-605. -/
def reversePhi1 (P : MACE.Params K) (g : MACE.Graph K) (zeroDxyz zeroH1 : Bool) (s : MACE.State K) : Option (MACE.State K) := do
  let dr ← cgPass P.C g.N P.cg P.numLelm P.numLme P.philelm P.philme s.dPhi1 (List.replicate s.Phi1r.length 0)
  let F := resize s.nodeForces g.xyz.length
  let F := if zeroDxyz then List.replicate F.length 0 else F
  let q ← loop g.N (fun i (q : ℕ × List K) => do
    let n ← g.nn[i]?
    edgesFrom n (phi1Force P g s dr i) q) (0, F)
  let Ha := resize s.H1a s.H1.length
  let Ha := if zeroH1 then List.replicate Ha.length 0 else Ha
  let h ← loop g.N (fun i (q : ℕ × List K) => do
    let n ← g.nn[i]?
    edgesFrom n (phi1Adj P g s dr i) q) (0, Ha)
  pure { s with dPhi1r := dr, nodeForces := q.2, H1a := h.2 }

/-- The local `num_e`, mace.cpp:614-618, 651-655. -/
def numE (P : MACE.Params K) : Option (List ℕ) :=
  loop P.phil.length (fun j ne => do
    let l ← P.phil[j]?
    ad ne l 1) (List.replicate (P.lmax + 1) 0)

/-- `compute_A1`, mace.cpp:607-642; state of the `l` loop: the two running offsets and the buffer. -/
def computeA1 (P : MACE.Params K) (g : MACE.Graph K) (s : MACE.State K) : Option (MACE.State K) := do
  let ne ← numE P
  let A ← loop g.N (fun i A => do
    let q ← loop (P.lmax + 1) (fun l (q : ℕ × ℕ × List K) => do
      let e ← ne[l]?
      let w ← P.A1w[l]?
      let A ← gemm false false (2 * l + 1) P.C (e * P.C) s.Phi1 q.1 (e * P.C) w 0 P.C q.2.1 P.C q.2.2
      pure (q.1 + (2 * l + 1) * e * P.C, q.2.1 + (2 * l + 1) * P.C, A))
      (i * MACE.sumLme P.phil * P.C, i * P.M * P.C, A)
    pure q.2.2) (resize s.A1 (g.N * P.M * P.C))
  pure { s with A1 := A }

/-- `reverse_A1`, mace.cpp:644-679. -/
def reverseA1 (P : MACE.Params K) (g : MACE.Graph K) (s : MACE.State K) : Option (MACE.State K) := do
  let ne ← numE P
  let D ← loop g.N (fun i D => do
    let q ← loop (P.lmax + 1) (fun l (q : ℕ × ℕ × List K) => do
      let e ← ne[l]?
      let w ← P.A1w[l]?
      let D ← gemm false true (2 * l + 1) (e * P.C) P.C s.A1a q.1 P.C w 0 P.C q.2.1 (e * P.C) q.2.2
      pure (q.1 + (2 * l + 1) * P.C, q.2.1 + (2 * l + 1) * e * P.C, D))
      (i * P.M * P.C, i * MACE.sumLme P.phil * P.C, D)
    pure q.2.2) (resize s.dPhi1 s.Phi1.length)
  pure { s with dPhi1 := D }

/-- `compute_M1`, mace.cpp:759-777. -/
def computeM1 (P : MACE.Params K) (g : MACE.Graph K) (s : MACE.State K) : Option (MACE.State K) := do
  let q ← loop g.N (fun i (st : List K × List K × List (Poly.Poly K)) => do
    let q ← loop P.C (fun k st => do
      let ti ← g.types[i]?
      productStep P s.A1 (i * P.M * P.C + k) (ti * P.C + k) (i * P.C + k) (i * P.C * P.M + k) st)
      (List.replicate P.M 0, st)
    pure q.2)
    (resize s.M1 (g.N * P.C), resize s.M1g (g.N * P.C * P.M * P.C), s.P1)
  pure { s with M1 := q.1, M1g := q.2.1, P1 := q.2.2 }

/-- `reverse_M1`, mace.cpp:779-794. -/
def reverseM1 (P : MACE.Params K) (g : MACE.Graph K) (s : MACE.State K) : Option (MACE.State K) := do
  let A ← loop g.N (fun i => loop P.M (fun lm => loop P.C (fun k A => do
    let d ← s.M1g[(i * P.M + lm) * P.C + k]?
    let a ← s.M1a[i * P.C + k]?
    wr A ((i * P.M + lm) * P.C + k) (d * a)))) (resize s.A1a s.A1.length)
  pure { s with A1a := A }

/-- `compute_H2`, mace.cpp:796-832. -/
def computeH2 (P : MACE.Params K) (g : MACE.Graph K) (s : MACE.State K) : Option (MACE.State K) := do
  let H ← loop g.N (fun i H => do
    let ti ← g.types[i]?
    let w ← P.H2wH1[ti]?
    let H ← gemv true P.C P.C w P.C s.H1 (i * P.LM * P.C) false (i * P.C) H
    gemv true P.C P.C P.H2wM1 P.C s.M1 (i * P.C) true (i * P.C) H) (resize s.H2 (g.N * P.C))
  pure { s with H2 := H }

/-- `reverse_H2`, mace.cpp:834-874. -/
def reverseH2 (P : MACE.Params K) (g : MACE.Graph K) (zeroH1 : Bool) (s : MACE.State K) : Option (MACE.State K) := do
  let Ha := resize s.H1a s.H1.length
  let Ma := resize s.M1a s.M1.length
  let Ha := if zeroH1 then List.replicate Ha.length 0 else Ha
  let q ← loop g.N (fun i (q : List K × List K) => do
    let ti ← g.types[i]?
    let w ← P.H2wH1[ti]?
    let Ha ← gemv false P.C P.C w P.C s.H2a (i * P.C) true (i * P.LM * P.C) q.1
    let Ma ← gemv false P.C P.C P.H2wM1 P.C s.H2a (i * P.C) false (i * P.C) q.2
    pure (Ha, Ma)) (Ha, Ma)
  pure { s with H1a := q.1, M1a := q.2 }

/-- `compute_readouts`, mace.cpp:876-903; `x` is the copy of the row of `H2`. -/
def computeReadouts (P : MACE.Params K) (g : MACE.Graph K) (s : MACE.State K) : Option (MACE.State K) := do
  let q ← loop g.N (fun i (q : List K × List K × List K × MLP.MLP K) => do
    let ti ← g.types[i]?
    let e ← P.atomicEnergies[ti]?
    let E ← ad q.1 i e
    let q1 ← loop P.C (fun k (q : List K × List K) => do
      let w ← P.ro1[k]?
      let h ← s.H1[i * P.LM * P.C + k]?
      let E ← ad q.1 i (w * h)
      let Ha ← wr q.2 (i * P.LM * P.C + k) w
      pure (E, Ha)) (E, q.2.1)
    let x ← (if (i + 1) * P.C ≤ s.H2.length then some ((s.H2.drop (i * P.C)).take P.C) else none)
    let fg ← mlpGradient q.2.2.2 x
    let f0 ← fg.1[0]?
    let E ← ad q1.1 i f0
    let H2a ← loop P.C (fun k b => do
      let v ← fg.2.1[k]?
      wr b (i * P.C + k) v) q.2.2.1
    pure (E, q1.2, H2a, fg.2.2))
    (resize s.nodeEnergies g.N, List.replicate s.H1.length 0, resize s.H2a s.H2.length, s.ro2)
  pure { s with nodeEnergies := q.1, H1a := q.2.1, H2a := q.2.2.1, ro2 := q.2.2.2 }

/-! ## The whole evaluation -/

/-- Stages of `compute_node_energies_forces` after the ZBL call, mace.cpp:38-63. -/
def pipeline (P : MACE.Params K) (g : MACE.Graph K) (s : MACE.State K) : Option (MACE.State K) := do
  let s ← computeY P g s
  let s ← computeR0 P g s
  let s ← computeA0 P g s
  let s ← computeA0Scaled P g s
  let s ← computeM0 P g s
  let s ← computeH1 P g s
  let s ← computeR1 P g s
  let s ← computePhi1 P g s
  let s ← computeA1 P g s
  let s ← computeA1Scaled P g s
  let s ← computeM1 P g s
  let s ← computeH2 P g s
  let s ← computeReadouts P g s
  let s ← reverseH2 P g false s
  let s ← reverseM1 P g s
  let s ← reverseA1Scaled P g false s
  let s ← reverseA1 P g s
  let s ← reversePhi1 P g false false s
  let s ← reverseH1 P g s
  let s ← reverseM0 P g s
  let s ← reverseA0Scaled P g s
  reverseA0 P g s

/-- `compute_node_energies_forces`, mace.cpp:17-64; `zbl = none` iff `!has_zbl`. -/
def compute (zbl : Option (ZBL K)) (P : MACE.Params K) (g : MACE.Graph K) (s : MACE.State K) :
    Option (MACE.State K) := do
  let E := List.replicate g.N (0 : K)
  let F := List.replicate g.xyz.length (0 : K)
  let st : Bufs Bool K := fun b => if b then F else E
  let st ← match zbl with
    | some z => zblAll z g.N g.types g.nn g.ntypes P.atomicNumbers g.r g.xyz st
    | none => some st
  pipeline P g { s with nodeEnergies := st false, nodeForces := st true }

/-! ## Loading -/

/-- `load_from_json`, mace.cpp:905-1030, on a new object (`sph`, `dsph`: sphericart; `srt`: `std::sort`).
The file contains real numbers (decimal fractions); `φ` is the
conversion to `double`, and `nrm` the value of `2*std::sqrt(std::numbers::pi)`. -/
def load (srt : List (List (List ℕ)) → List (List (List ℕ))) (φ : ℝ → K) (sph : K → K → K → ℕ → K)
    (dsph : K → K → K → ℕ → ℕ → K) (nrm : K) (f : MACE.File) : Option (MACE.Params K × MACE.State K) := do
  let numLm := (f.lmax + 1) * (f.lmax + 1)
  let numLM := (f.Lmax + 1) * (f.Lmax + 1)
  let spl0 ← MACE.pushLoop f.vals0.length (fun i => do
    let v ← f.vals0[i]?
    let d ← f.ders0[i]?
    setMk? (φ f.splH) (v.map (·.map φ)) (d.map (·.map φ))) []
  let spl1 ← MACE.pushLoop f.vals1.length (fun i => do
    let v ← f.vals1[i]?
    let d ← f.ders1[i]?
    setMk? (φ f.splH) (v.map (·.map φ)) (d.map (·.map φ))) []
  let A0spl ← (if f.A0scaled then MACE.pushLoop f.A0vals.length (fun i => do
    let v ← f.A0vals[i]?
    let d ← f.A0ders[i]?
    splineMk? (φ f.A0h) (v.map φ) (d.map φ)) [] else some [])
  let P0 ← loop f.atomicNumbers.length (fun a => loop numLM (fun lm =>
    MACE.pushLoop f.numChannels (fun k => polyMk? srt numLm ((f.M0w a lm k).map φ) (f.M0mon lm)))) []
  let numLelm ← loop f.phil.length (fun le n => do
    let l1 ← f.phil1[le]?
    let l2 ← f.phil2[le]?
    pure (n + (2 * l1 + 1) * (2 * l2 + 1))) 0
  let A1spl ← (if f.A1scaled then MACE.pushLoop f.A1vals.length (fun i => do
    let v ← f.A1vals[i]?
    let d ← f.A1ders[i]?
    splineMk? (φ f.A1h) (v.map φ) (d.map φ)) [] else some [])
  let P1 ← loop f.atomicNumbers.length (fun a =>
    MACE.pushLoop f.numChannels (fun k => polyMk? srt numLm ((f.M1w a k).map φ) f.M1mon)) []
  let ro2 ← mlpMk? [f.numChannels, 16, 1] [f.ro2w1.map φ, f.ro2w2.map φ] (φ f.ro2scale)
  pure ({ C := f.numChannels, lmax := f.lmax, Lmax := f.Lmax, atomicNumbers := f.atomicNumbers
          atomicEnergies := f.atomicEnergies.map φ, splSet0 := spl0, splSet1 := spl1, H0w := f.H0w.map φ, A0w := f.A0w.map (·.map (·.map φ))
          A0scaled := f.A0scaled, A0splines := A0spl, H1w := f.H1w.map φ, phil := f.phil, phil1 := f.phil1, phil2 := f.phil2
          philme := f.philme, cg := f.cg.map φ, philelm := f.philelm, numLelm := numLelm, numLme := MACE.sumLme f.phil
          A1w := f.A1w.map (·.map φ), A1scaled := f.A1scaled, A1splines := A1spl, H2wH1 := f.H2wH1.map (·.map φ), H2wM1 := f.H2wM1.map φ, ro1 := f.ro1.map φ
          sph := sph, dsph := dsph, nrm := nrm, ex := A.exp },
        { nodeEnergies := [], nodeForces := [], R0 := [], R0d := [], R1 := [], R1d := [], Y := [], Yg := [], xyzs := []
          A0 := [], A0a := [], M0 := [], M0g := [], M0a := [], H1 := [], H1a := [], Phi1r := [], dPhi1r := [], Phi1 := []
          dPhi1 := [], A1 := [], A1a := [], M1 := [], M1g := [], M1a := [], H2 := [], H2a := []
          P0 := P0, P1 := P1, ro2 := ro2 })

/-- The object `zbl`, mace.cpp:923-930. -/
def loadZbl (φ : ℝ → K) (z : ZBLModel.ZBL) : ZBL K := ⟨φ z.aExp, φ z.aPre, z.c.map φ, z.rad.map φ, z.p⟩

end

end Verif.Num
