import Verif.Model.Kokkos.Classes

/-!
# Constructor of `CubicSplineSetKokkos` from views

cubic_spline_set_kokkos.cpp:32-71.  `Kokkos::realloc(c, num_nodes-1, num_splines)` states two extents of the three of `c`; `x` is what
Kokkos takes for the third (0 or 1; a version that checks the number of extents stops with an error instead).
-/

namespace Verif.Kokkos
open Verif.Par Verif.Par.Prog

variable {K : Type} [Field K]

/-- `InitializeCoefficientsFunctor`, cubic_spline_set_kokkos.cpp:42-50, over all pairs `i`, `j`. -/
def setViewsK (h : K) (nI S : ℕ) (vals derivs : View K) (E : Unit → List ℕ) : Prog Unit K :=
  parFor nI (fun i => parFor S (fun j =>
    opt (both (both (vals.get [j, i]) (derivs.get [j, i])) (both (vals.get [j, i + 1]) (derivs.get [j, i + 1]))) (fun q =>
      seq (put E () [i, 0, j] q.1.1) (seq (put E () [i, 1, j] q.1.2)
        (seq (put E () [i, 2, j] ((-3 * q.1.1 - 2 * h * q.1.2 + 3 * q.2.1 - h * q.2.2) / (h * h)))
          (put E () [i, 3, j] ((2 * q.1.1 + h * q.1.2 - 2 * q.2.1 + h * q.2.2) / (h * h * h))))))))

/-- Constructor from views, cubic_spline_set_kokkos.cpp:54-71. `none`: no nodes, or an access out of range. -/
def SetK.mkViews? (V : Env K) (x : ℕ) (h : K) (vals derivs : View K) : Option (SetK K) := do
  let S := vals.extent 0
  let n := vals.extent 1
  let nI ← less1 n
  let c ← V.L.launch1 (setViewsK h nI S vals derivs (fun _ => [nI, S, x])) (View.new [nI, S, x] 0)
  some ⟨h, n, S, c⟩

end Verif.Kokkos
