import Verif.Model.Kokkos.Pair
import Verif.Model.Polynomial

/-!
# Model of `libsymmetrix/source/multivariate_polynomial_kokkos.cpp`

`shared`: the default memory space of Kokkos is accessible from the host (serial, OpenMP and threads back ends).  Otherwise a mirror view is
a new allocation (initialised with zeros), and a host loop that touches a view is undefined.  Rank-1 views are lists with checked accesses;
`KokkosBlas::dot` is its contract.
-/

namespace Verif.Kokkos
open Verif.Par Verif.Par.Prog Verif.Poly

/-- Members of `MultivariatePolynomialKokkos` (multivariate_polynomial_kokkos.hpp:20-31). -/
structure PolyK (K : Type) where
  shared : Bool
  numVariables : ℕ
  coefficients : List K
  monomials : View ℤ
  numAux : ℕ
  nodes : View ℤ
  edges : View ℕ
  nodeCoefficients : List K
  nodeValues : List K
  nodeAdjoints : List K

/-- `Kokkos::create_mirror_view`. -/
def mirrorI (shared : Bool) (v : View ℤ) : View ℤ := if shared then v else View.new v.ext 0

/-- A table of rows of different lengths: the view is filled with -1, the mirror's entries are set and copied back,
multivariate_polynomial_kokkos.cpp:21-29 (35-41). -/
def rowsView (shared : Bool) (rows : List (List ℕ)) (width : ℕ) : Option (View ℤ) :=
  loop rows.length (fun i h => do
    let m ← rows[i]?
    loop m.length (fun j h => do
      let a ← m[j]?
      h.set [i, j] (a : ℤ)) h) (mirrorI shared (View.new [rows.length, width] (-1)))

/-- The edges, multivariate_polynomial_kokkos.cpp:42-47. -/
def edgesView (edges : List (ℕ × ℕ)) : Option (View ℕ) :=
  loop edges.length (fun i h => do
    let e ← edges[i]?
    let h ← h.set [i, 0] e.1
    h.set [i, 1] e.2) (View.new [edges.length, 2] 0)

section
variable {K : Type}

/-- Constructor, multivariate_polynomial_kokkos.cpp:9-51. -/
def PolyK.mk? [CommRing K] (srt : List (List (List ℕ)) → List (List (List ℕ))) (shared : Bool) (nv : ℕ) (coeffs : List K) (monos : List (List ℕ)) :
    Option (PolyK K) := do
  let width := monos.foldl (fun w m => if m.length > w then m.length else w) 0
  let monomials ← rowsView shared monos width
  let mp ← Poly.mk? srt nv coeffs monos
  let nodes ← rowsView shared mp.nodes width
  let edges ← edgesView mp.edges
  some { shared := shared, numVariables := nv, coefficients := coeffs, monomials := monomials, numAux := mp.numAux, nodes := nodes,
         edges := edges, nodeCoefficients := mp.nodeCoefficients, nodeValues := mp.nodeValues, nodeAdjoints := mp.nodeAdjoints }

variable [Field K]

/-- Kernels that copy `n` entries: `initialize_forward_pass`, `initialize_backward_pass`, the copy of `extract_gradient_from_graph`,
multivariate_polynomial_kokkos.cpp:130-139, 151-159, 175-180. -/
def copyK (n : ℕ) (x : List K) (E : Unit → List ℕ) : Prog Unit K := parFor n (fun i => opt x[i]? (fun a => put E () [i] a))

/-- Run of such a kernel. -/
def copyTo (L : Launcher K) (n : ℕ) (x v : List K) : Option (List K) :=
  (L.launch1 (copyK n x (fun _ => [v.length])) ⟨[v.length], v⟩).map View.data

/-- `forward_pass`, multivariate_polynomial_kokkos.cpp:141-149: a host loop. -/
def PolyK.forwardPass (P : PolyK K) (v : List K) : Option (List K) :=
  loop (P.edges.extent 0) (fun i v => if P.shared then do
    let i0 ← P.edges.get [i, 0]
    let i1 ← P.edges.get [i, 1]
    let a ← v[i0]?
    let b ← v[i1]?
    wr v (P.numVariables + i) (a * b) else none) v

/-- `backward_pass`, multivariate_polynomial_kokkos.cpp:161-169: a host loop. -/
def PolyK.backwardPass (P : PolyK K) (vals adjs : List K) : Option (List K) :=
  loop (P.edges.extent 0) (fun k w => if P.shared then do
    let i := P.edges.extent 0 - 1 - k
    let i0 ← P.edges.get [i, 0]
    let i1 ← P.edges.get [i, 1]
    let a ← w[P.numVariables + i]?
    let v1 ← vals[i1]?
    let w ← ad w i0 (a * v1)
    let a ← w[P.numVariables + i]?
    let v0 ← vals[i0]?
    ad w i1 (a * v0) else none) adjs

/-- `evaluate`, multivariate_polynomial_kokkos.cpp:52-58. -/
def PolyK.evaluate (V : Env K) (P : PolyK K) (x : List K) : Option (K × PolyK K) := do
  let v ← copyTo V.L P.numVariables x P.nodeValues
  let v ← P.forwardPass v
  let f ← ddot P.nodeCoefficients.length P.nodeCoefficients v
  some (f, { P with nodeValues := v })

/-- `evaluate_gradient`, multivariate_polynomial_kokkos.cpp:80-91, 171-181; `g` is the view passed in. -/
def PolyK.evaluateGradient (V : Env K) (P : PolyK K) (x g : List K) : Option (K × List K × PolyK K) := do
  let v ← copyTo V.L P.numVariables x P.nodeValues
  let v ← P.forwardPass v
  let f ← ddot P.nodeCoefficients.length P.nodeCoefficients v
  let w ← copyTo V.L P.nodeCoefficients.length P.nodeCoefficients P.nodeAdjoints
  let w ← P.backwardPass v w
  let g ← copyTo V.L P.numVariables w (List.replicate g.length 0)
  some (f, g, { P with nodeValues := v, nodeAdjoints := w })

/-- Indexing with an `int`. -/
def atInt {α : Type} (x : List α) (i : ℤ) : Option α := if 0 ≤ i then x[i.toNat]? else none

/-- The factors `j, j+1, ...` (`n` of them) of monomial `i`, with the break at -1, multivariate_polynomial_kokkos.cpp:69-73 (103-107). -/
def factors (mon : View ℤ) (x : List K) (i : ℕ) : ℕ → ℕ → K → Option K
  | 0, _, y => some y
  | n + 1, j, y => do
    let m ← mon.get [i, j]
    if m = -1 then some y else do
      let a ← atInt x m
      factors mon x i n (j + 1) (y * a)

/-- `double monomial = ...`, multivariate_polynomial_kokkos.cpp:68-73 (102-107). -/
def PolyK.monoValue (P : PolyK K) (x : List K) (i : ℕ) : Option K := do
  let m ← P.monomials.get [i, 0]
  let a ← atInt x m
  factors P.monomials x i (P.monomials.extent 1 - 1) 1 a

/-- The reduction of `evaluate_simple`, multivariate_polynomial_kokkos.cpp:64-76 (98-110). -/
def PolyK.valueK (P : PolyK K) (x : List K) : Prog Unit K :=
  .par P.coefficients.length (fun i => opt (both (P.monoValue x i) P.coefficients[i]?) (fun q => .ret [q.2 * q.1])) (fun vs => .ret [red 0 vs])

/-- `evaluate_simple`, multivariate_polynomial_kokkos.cpp:60-78. -/
def PolyK.evaluateSimple (V : Env K) (P : PolyK K) (x : List K) : Option K := Pair.reduceTo V.L (P.valueK x)

/-- `monomial_deriv`: the factors `k, k+1, ...` (`n` of them) except `j`, multivariate_polynomial_kokkos.cpp:119-123. -/
def derivs (mon : View ℤ) (x : List K) (i j : ℕ) : ℕ → ℕ → K → Option K
  | 0, _, y => some y
  | n + 1, k, y => do
    let m ← mon.get [i, k]
    if m = -1 then some y else
      if j = k then derivs mon x i j n (k + 1) y else do
        let a ← atInt x m
        derivs mon x i j n (k + 1) (y * a)

/-- The loop over the factors of monomial `i` with plain additions to `g`, multivariate_polynomial_kokkos.cpp:116-125. -/
def PolyK.gradLoop (P : PolyK K) (x : List K) (i : ℕ) (E : Unit → List ℕ) : ℕ → ℕ → Prog Unit K
  | 0, _ => .ret []
  | n + 1, j => opt (P.monomials.get [i, j]) (fun m => if m = -1 then .ret [] else
      opt (both (derivs P.monomials x i j (P.monomials.extent 1) 0 1) P.coefficients[i]?) (fun q =>
        opt (if 0 ≤ m then some m.toNat else none) (fun v =>
          seq (plus E () [v] (q.2 * q.1)) (P.gradLoop x i E n (j + 1)))))

/-- The kernel of `evaluate_gradient_simple`, multivariate_polynomial_kokkos.cpp:112-126. -/
def PolyK.gradK (P : PolyK K) (x : List K) (E : Unit → List ℕ) : Prog Unit K :=
  parFor P.coefficients.length (fun i => P.gradLoop x i E (P.monomials.extent 1) 0)

/-- `evaluate_gradient_simple`, multivariate_polynomial_kokkos.cpp:93-128. -/
def PolyK.evaluateGradientSimple (V : Env K) (P : PolyK K) (x g : List K) : Option (K × List K) := do
  let f ← Pair.reduceTo V.L (P.valueK x)
  let g ← V.L.launch1 (P.gradK x (fun _ => [g.length])) ⟨[g.length], List.replicate g.length 0⟩
  some (f, g.data)

/-- States an object can reach by completed calls. -/
inductive ReachK (P0 : PolyK K) : PolyK K → Prop
  | init : ReachK P0 P0
  | evaluate {V : Env K} {P P' : PolyK K} {x : List K} {f : K} : ReachK P0 P → P.evaluate V x = some (f, P') → ReachK P0 P'
  | evaluateGradient {V : Env K} {P P' : PolyK K} {x g g' : List K} {f : K} :
      ReachK P0 P → P.evaluateGradient V x g = some (f, g', P') → ReachK P0 P'

end

end Verif.Kokkos
