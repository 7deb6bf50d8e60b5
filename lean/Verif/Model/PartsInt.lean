import Verif.Model.IntIndex

/-!
# `int` arithmetic in the polynomial, perceptron and spline classes and in `sphericart_complex`

As `Model/IntIndex.lean` (`ev`, `narrow`, `each`), for the parts left out there: `MultivariatePolynomial` (evaluation; the constructor is left
out), `MultilayerPerceptron`, `CubicSpline`, the constructor of `CubicSplineSet`, `sphericart_complex`, and the constructor of
`MultilayerPerceptronKokkos`.  Expressions with a `size_t` operand are not `int` expressions and left out, as are the insides of BLAS and
sphericart.  A counter compared with a `size_t` has to reach it (`narrow`).
-/

namespace Verif.IntIndex

section
variable (nv nodes : ℕ) (edges : List (ℕ × ℕ)) (B : ℕ)

/-- `forward_pass`, multivariate_polynomial.cpp:156-162; `nv` is `num_variables`. -/
def polyForward : Option Unit := do
  narrow edges.length
  each edges.length (fun i => ev ((nv : Ex) + (i : Ex)))

/-- `backward_pass`, multivariate_polynomial.cpp:171-178; `int i=edges.size()-1` (-1 without edges). -/
def polyBackward : Option Unit := do
  narrow (edges.length - 1)
  each edges.length (fun k => do
    let i := edges.length - 1 - k
    ev ((nv : Ex) + (i : Ex))
    ev ((nv : Ex) + (i : Ex)))

/-- `evaluate`, multivariate_polynomial.cpp:103-112; the length `nodes` of `node_coefficients` is an `int` argument of `cblas_ddot`. -/
def polyEvaluate : Option Unit := do
  polyForward nv edges
  narrow nodes

/-- `evaluate_gradient`, multivariate_polynomial.cpp:114-127. -/
def polyGradient : Option Unit := do
  polyForward nv edges
  narrow nodes
  narrow nodes
  polyBackward nv edges

/-- `batched_initialize_forward_pass`, multivariate_polynomial.cpp:189-197. -/
def polyBInit : Option Unit :=
  each nv (fun i => each B (fun j => do
    ev ((i : Ex) * (B : Ex) + (j : Ex))
    ev ((j : Ex) * (nv : Ex) + (i : Ex))))

/-- `batched_forward_pass`, multivariate_polynomial.cpp:199-211. -/
def polyBForward : Option Unit := do
  narrow edges.length
  each edges.length (fun i => do
    let e := edges.getD i (0, 0)
    ev (((nv : Ex) + (i : Ex)) * (B : Ex))
    ev ((e.1 : Ex) * (B : Ex))
    ev ((e.2 : Ex) * (B : Ex)))

/-- The loops over nodes and batch, multivariate_polynomial.cpp:136-141 and 217-221. -/
def polyBNodes : Option Unit := do
  narrow nodes
  each nodes (fun i => each B (fun j => ev ((i : Ex) * (B : Ex) + (j : Ex))))

/-- `batched_backward_pass`, multivariate_polynomial.cpp:224-239. -/
def polyBBackward : Option Unit := do
  narrow (edges.length - 1)
  each edges.length (fun k => do
    let i := edges.length - 1 - k
    let e := edges.getD i (0, 0)
    ev (((nv : Ex) + (i : Ex)) * (B : Ex))
    ev ((e.1 : Ex) * (B : Ex))
    ev ((e.2 : Ex) * (B : Ex))
    ev ((e.1 : Ex) * (B : Ex))
    ev ((e.2 : Ex) * (B : Ex)))

/-- `batched_extract_gradient_from_graph`, multivariate_polynomial.cpp:241-250. -/
def polyBExtract : Option Unit := do
  ev ((nv : Ex) * (B : Ex))
  each nv (fun i => each B (fun j => do
    ev ((j : Ex) * (nv : Ex) + (i : Ex))
    ev ((i : Ex) * (B : Ex) + (j : Ex))))

/-- `evaluate_batch`, multivariate_polynomial.cpp:129-147. -/
def polyBatch : Option Unit := do
  polyBInit nv B
  polyBForward nv edges B
  polyBNodes nodes B
  polyBNodes nodes B
  polyBBackward nv edges B
  polyBExtract nv B

end

section
variable (shape : List ℕ) (B : ℕ)

/-- `shape[i]` -/
def sh (i : ℕ) : ℕ := shape.getD i 0

/-- `shape.back()` -/
def lastSh : ℕ := shape.getLastD 0

/-- Constructor, multilayer_perceptron.cpp:12-27. -/
def mlpCtor : Option Unit := do
  narrow shape.length
  each shape.length (fun i => ev ((lastSh shape : Ex) * (sh shape i : Ex)))

/-- `evaluate`, multilayer_perceptron.cpp:29-74. -/
def mlpEvaluate : Option Unit := do
  narrow shape.length
  each (shape.length - 2) (fun l => ev ((l : Ex) + 1))

/-- `evaluate_gradient`, multilayer_perceptron.cpp:76-150. -/
def mlpGradient : Option Unit := do
  narrow shape.length
  each shape.length (fun i => ev ((lastSh shape : Ex) * (sh shape i : Ex)))
  each (shape.length - 2) (fun l => ev ((l : Ex) + 1))
  each (shape.length - 2) (fun k => do
    let l := shape.length - 3 - k
    ev ((l : Ex) + 1)
    each (lastSh shape) (fun i => each (sh shape (l + 1)) (fun j => ev ((i : Ex) * (sh shape (l + 1) : Ex) + (j : Ex)))))

/-- `evaluate_batch`, multilayer_perceptron.cpp:152-202; the counter of the loop over `node_values[l+1]` is an `int`. -/
def mlpBatch : Option Unit := do
  narrow shape.length
  each shape.length (fun i => ev ((B : Ex) * (sh shape i : Ex)))
  each (shape.length - 2) (fun l => do
    ev ((l : Ex) + 1)
    narrow (B * sh shape (l + 1)))

/-- `evaluate_gradient_batch`, multilayer_perceptron.cpp:204-287. -/
def mlpGradientBatch : Option Unit := do
  narrow shape.length
  each shape.length (fun i => do
    ev ((B : Ex) * (sh shape i : Ex))
    ev ((B : Ex) * (sh shape i : Ex))
    ev ((B : Ex) * (lastSh shape : Ex) * (sh shape i : Ex)))
  each (shape.length - 2) (fun l => do
    ev ((l : Ex) + 1)
    narrow (B * sh shape (l + 1)))
  each (shape.length - 2) (fun k => do
    let l := shape.length - 3 - k
    let s := sh shape (l + 1)
    each B (fun i => each (lastSh shape) (fun j => each s (fun p => do
      ev ((i : Ex) * (lastSh shape : Ex) * (s : Ex) + (j : Ex) * (s : Ex) + (p : Ex))
      ev ((i : Ex) * (s : Ex) + (p : Ex)))))
    ev ((B : Ex) * (lastSh shape : Ex)))

/-- Constructor of `MultilayerPerceptronKokkos`, multilayer_perceptron_kokkos.cpp:10-40. -/
def mlpKokkosCtor : Option Unit := do
  narrow shape.length
  each (shape.length - 1) (fun l => do
    ev ((l : Ex) + 1)
    each (sh shape (l + 1)) (fun i => each (sh shape l) (fun j => ev ((i : Ex) * (sh shape l : Ex) + (j : Ex)))))

end

/-- `generate_coefficients`, cubic_spline.cpp:57-71; `n` is `nodal_values.size()`. -/
def splineCtor (n : ℕ) : Option Unit := do
  narrow (n - 1)
  each (n - 1) (fun i => do
    ev (4 * (i : Ex))
    ev (4 * (i : Ex) + 1)
    ev (4 * (i : Ex) + 2)
    ev (4 * (i : Ex) + 3)
    ev ((i : Ex) + 1))

/-- `evaluate`, `evaluate_deriv`, `evaluate_deriv_divided`, cubic_spline.cpp:15-55, after the check of `i`: `i4 = 4*i`, `c[i4+1]`, … -/
def splineEval (i : ℕ) : Option Unit := do
  ev (4 * (i : Ex))
  ev (4 * (i : Ex) + 1)
  ev (4 * (i : Ex) + 2)
  ev (4 * (i : Ex) + 3)

/-- Constructor of `CubicSplineSet`, cubic_spline_set.cpp:5-25; `n` is `num_nodes`, `S` is `num_splines`. -/
def splineSetCtor (n S : ℕ) : Option Unit := do
  narrow n
  narrow S
  ev (4 * (S : Ex) * ((n - 1 : ℕ) : Ex))
  each (n - 1) (fun i => each S (fun j => do
    ev (4 * (i : Ex) * (S : Ex) + (j : Ex))
    ev ((4 * (i : Ex) + 1) * (S : Ex) + (j : Ex))
    ev ((4 * (i : Ex) + 2) * (S : Ex) + (j : Ex))
    ev ((i : Ex) + 1)
    ev ((4 * (i : Ex) + 3) * (S : Ex) + (j : Ex))))

/-- `CubicSplineSet::evaluate`, cubic_spline_set.cpp:27-48 (`evaluate_derivs`: `evaluateDerivs`). -/
def splineSetEval (S i : ℕ) : Option Unit := ev (4 * (i : Ex) * (S : Ex))

/-- `sphericart_complex`, spherical_harmonic.cpp:73-101; `n` is `n_samples`.  Differences are not larger than sums evaluated before;
`i0+l*(l+1)+|m|` occurs for every `m ≠ 0`. -/
def sphericartComplex (lmax n : ℕ) : Option Unit := do
  narrow n
  ev ((n : Ex) * ((lmax : Ex) + 1) * ((lmax : Ex) + 1))
  ev ((n : Ex) * ((lmax : Ex) + 1) * ((lmax : Ex) + 1))
  each n (fun i => do
    ev ((i : Ex) * ((lmax : Ex) + 1) * ((lmax : Ex) + 1))
    each (lmax + 1) (fun l => do
      ev ((l : Ex) + 1)
      each (l + 1) (fun m => ev (((i * (lmax + 1) * (lmax + 1) : ℕ) : Ex) + (l : Ex) * ((l : Ex) + 1) + (m : Ex)))))

end Verif.IntIndex
