import Verif.Model.Kokkos.Load
import Verif.Model.CubicSpline

/-!
# Model of `cubic_spline_kokkos.cpp`, `cubic_spline_set_kokkos.cpp` and of `MultilayerPerceptronKokkos` as a class

`shared`: the memory of the default execution space is the memory of the host and launches have finished when they return (Serial,
OpenMP, Threads).  Otherwise (CUDA, HIP) the host cannot read the views and kernels cannot read host memory.
-/

namespace Verif.Kokkos
open Verif.Par Verif.Par.Prog

variable {K : Type} [Field K]

/-! ## `CubicSplineKokkos` -/

/-- The object (cubic_spline_kokkos.hpp). -/
structure SplineK (K : Type) where
  shared : Bool
  h : K
  c : View K

/-- The kernel of `generate_coefficients`, cubic_spline_kokkos.cpp:122-127. -/
def genK (h : K) (vals derivs : List K) (E : Unit → List ℕ) : Prog Unit K :=
  parFor (vals.length - 1) (fun i => opt (both (both vals[i]? derivs[i]?) (both vals[i + 1]? derivs[i + 1]?)) (fun q =>
    seq (put E () [4 * i] q.1.1) (seq (put E () [4 * i + 1] q.1.2)
      (seq (put E () [4 * i + 2] ((-3 * q.1.1 - 2 * h * q.1.2 + 3 * q.2.1 - h * q.2.2) / (h * h)))
        (put E () [4 * i + 3] ((2 * q.1.1 + h * q.1.2 - 2 * q.2.1 + h * q.2.2) / (h * h * h)))))))

/-- Constructor, cubic_spline_kokkos.cpp:6-24, with both `generate_coefficients` (97-128; the copy of the vectors to the device is
the identity).  `none`: no nodes (`4*(size()-1)` wraps) or `nodal_derivs` too short. -/
def SplineK.mk? (V : Env K) (shared : Bool) (h : K) (vals derivs : List K) : Option (SplineK K) :=
  if vals.length = 0 then none
  else (V.L.launch1 (genK h vals derivs (fun _ => [4 * (vals.length - 1)])) (View.new [4 * (vals.length - 1)] 0)).map
    (fun c => ⟨shared, h, c⟩)

/-- `h_c = create_mirror_view(c)`, cubic_spline_kokkos.cpp:38, 62, 87: `c` itself, or a new view (filled with zeros); nothing is
copied into it. -/
def SplineK.mirror (s : SplineK K) : Spline.CubicSpline K := ⟨s.h, if s.shared then s.c.data else List.replicate s.c.data.length 0⟩

section
variable [LinearOrder K] [IsStrictOrderedRing K] [FloorRing K]

/-- cubic_spline_kokkos.cpp:26-48. -/
def SplineK.evaluate (s : SplineK K) (r : K) : Out K := s.mirror.evaluateKokkos r

/-- cubic_spline_kokkos.cpp:50-73. -/
def SplineK.evaluateDeriv (s : SplineK K) (r : K) : Out (K × K) := s.mirror.evaluateDerivKokkos r

/-- cubic_spline_kokkos.cpp:75-95. -/
def SplineK.evaluateDerivDivided (s : SplineK K) (r : K) : Out (K × K) := s.mirror.evaluateDerivDividedKokkos r

end

/-! ## `CubicSplineSetKokkos` -/

/-- The object (cubic_spline_set_kokkos.hpp). -/
structure SetK (K : Type) where
  h : K
  numNodes : ℕ
  numSplines : ℕ
  c : View K

/-- Loop body of the constructor, cubic_spline_set_kokkos.cpp:20-25. -/
def setCells (h : K) (vals derivs : List (List K)) (i j : ℕ) (c : View K) : Option (View K) := do
  let vj ← vals[j]?
  let dj ← derivs[j]?
  let v ← vj[i]?
  let c ← c.set [i, 0, j] v
  let d ← dj[i]?
  let c ← c.set [i, 1, j] d
  let v' ← vj[i + 1]?
  let d' ← dj[i + 1]?
  let c ← c.set [i, 2, j] ((-3 * v - 2 * h * d + 3 * v' - h * d') / (h * h))
  c.set [i, 3, j] ((2 * v + h * d - 2 * v' + h * d') / (h * h * h))

/-- Constructor from vectors, cubic_spline_set_kokkos.cpp:5-30 (the mirror filled by the host and copied is one view).
`none`: no splines, no nodes, or an input row too short.  The constructor from views (54-71) is in
`SplineSetViews.lean`. -/
def SetK.mk? (h : K) (vals derivs : List (List K)) : Option (SetK K) := do
  let v0 ← vals[0]?
  let nI ← less1 v0.length
  let c ← loop nI (fun i => loop vals.length (setCells h vals derivs i)) (View.new [nI, 4, vals.length] 0)
  some ⟨h, v0.length, vals.length, c⟩

/-- The four coefficients `c(i,0..3,j)`; `none` = out-of-range read. -/
def SetK.coeffs (s : SetK K) (i : ℤ) (j : ℕ) : Option ((K × K) × (K × K)) :=
  if i < 0 then none
  else both (both (s.c.get [i.toNat, 0, j]) (s.c.get [i.toNat, 1, j])) (both (s.c.get [i.toNat, 2, j]) (s.c.get [i.toNat, 3, j]))

/-- `c(i,q,j)`. -/
def SetK.coef (s : SetK K) (i : ℤ) (q j : ℕ) : Option K := if i < 0 then none else s.c.get [i.toNat, q, j]

section
variable [LinearOrder K] [IsStrictOrderedRing K] [FloorRing K]

/-- The kernel of `evaluate`, cubic_spline_set_kokkos.cpp:78-90. -/
def SetK.evalK (s : SetK K) (r : K) (E : Unit → List ℕ) : Prog Unit K :=
  let i := truncInt (r / s.h)
  let x := r - s.h * i
  parFor s.numSplines (fun j => opt (s.coeffs i j) (fun q =>
    put E () [j] (q.1.1 + q.1.2 * x + q.2.1 * (x * x) + q.2.2 * (x * x * x))))

/-- `evaluate(double, View)`, cubic_spline_set_kokkos.cpp:73-93. -/
def SetK.evaluate (V : Env K) (s : SetK K) (r : K) (values : View K) : Option (View K) :=
  V.L.launch1 (s.evalK r (fun _ => values.ext)) values

/-- The kernel of `evaluate_derivs`, cubic_spline_set_kokkos.cpp:100-119; `false` is `values`, `true` is `derivs`. -/
def SetK.derivK (s : SetK K) (r : K) (E : Bool → List ℕ) : Prog Bool K :=
  let i := truncInt (r / s.h)
  let x := r - s.h * i
  parFor s.numSplines (fun j => opt (s.coeffs i j) (fun q =>
    seq (put E false [j] (q.1.1 + q.1.2 * x + q.2.1 * (x * x) + q.2.2 * (x * x * x)))
      (put E true [j] (q.1.2 + 2 * x * q.2.1 + 3 * (x * x) * q.2.2))))

/-- `evaluate_derivs(double, View, View)`, cubic_spline_set_kokkos.cpp:95-121. -/
def SetK.evaluateDerivs (V : Env K) (s : SetK K) (r : K) (values derivs : View K) : Option (View K × View K) :=
  V.L.launch2 (s.derivK r (fun b => if b then derivs.ext else values.ext)) values derivs

/-- One range `for (j<num_splines) out(i,j) op= c(ii,q,j)*…`. -/
def SetK.passK (s : SetK K) (E : Bool → List ℕ) (b : Bool) (i : ℕ) (ii : ℤ) (q : ℕ) (f : K → K → K) : Prog Bool K :=
  parFor s.numSplines (fun j => opt (s.coef ii q j) (fun a => upd E b [i, j] (fun y => f y a)))

/-- The kernel of the batched `evaluate_derivs`, cubic_spline_set_kokkos.cpp:138-188.  There is no barrier between the last range
over `values` and the first over `derivs`, which are different views. -/
def SetK.batchK (s : SetK K) (r : List K) (E : Bool → List ℕ) : Prog Bool K :=
  parFor r.length (fun i => opt r[i]? (fun ri =>
    let ii := truncInt (ri / s.h)
    let x := ri - s.h * ii
    seq (s.passK E false i ii 0 (fun _ a => a)) (seq (s.passK E false i ii 1 (fun y a => y + a * x))
      (seq (s.passK E false i ii 2 (fun y a => y + a * (x * x))) (seq (s.passK E false i ii 3 (fun y a => y + a * (x * x * x)))
        (seq (s.passK E true i ii 1 (fun _ a => a)) (seq (s.passK E true i ii 2 (fun y a => y + a * (2 * x)))
          (s.passK E true i ii 3 (fun y a => y + a * (3 * (x * x)))))))))))

/-- `evaluate_derivs(View, View, View)`, cubic_spline_set_kokkos.cpp:123-189. -/
def SetK.evaluateDerivsBatch (V : Env K) (s : SetK K) (r : List K) (values derivs : View K) : Option (View K × View K) :=
  V.L.launch2 (s.batchK r (fun b => if b then derivs.ext else values.ext)) values derivs

/-- `evaluate(double, span)`, cubic_spline_set_kokkos.cpp:192-223.  `input_value_view` has the memory space of the device but the
pointer of the span: its copies are defined only in shared memory, where the mirror is `test_view` itself. -/
def SetK.evaluateSpan (V : Env K) (shared : Bool) (s : SetK K) (r : K) (values : List K) : Option (List K) := do
  let test : View K ← if shared then some ⟨[values.length], values⟩ else none
  let test ← s.evaluate V r test
  pure test.data

/-- `evaluate_derivs(double, span, span)`, cubic_spline_set_kokkos.cpp:225-263. -/
def SetK.evaluateDerivsSpan (V : Env K) (shared : Bool) (s : SetK K) (r : K) (values derivs : List K) : Option (List K × List K) := do
  let tv : View K ← if shared then some ⟨[values.length], values⟩ else none
  let td : View K ← if shared then some ⟨[derivs.length], derivs⟩ else none
  let q ← s.evaluateDerivs V r tv td
  pure (q.1.data, q.2.data)

end

/-! ## `MultilayerPerceptronKokkos` -/

/-- The object (multilayer_perceptron_kokkos.hpp:19-26). -/
structure MLPK (K : Type) where
  net : Percep K
  nv : ℕ → View K
  nd : ℕ → View K

/-- Constructor, multilayer_perceptron_kokkos.cpp:10-40; the views in `node_values` and `node_derivatives` are empty. -/
def MLPK.mk? (shape : List ℕ) (weights : List (List K)) (scale : K) : Option (MLPK K) :=
  (Percep.mk? shape weights scale).map (fun s => ⟨s, fun _ => ⟨[0, 0], []⟩, fun _ => ⟨[0, 0], []⟩⟩)

/-- `if (extents differ) realloc(v, B, n)`, multilayer_perceptron_kokkos.cpp:57-60. -/
def fitted (v : View K) (B n : ℕ) : View K := if v.extent 0 ≠ B ∨ v.extent 1 ≠ n then View.new [B, n] 0 else v

/-- The loop multilayer_perceptron_kokkos.cpp:56-61 for one of the two arrays. -/
def Percep.fit (s : Percep K) (B : ℕ) (nv : ℕ → View K) : ℕ → View K := fun l =>
  match s.shape[l]? with
  | some m => fitted (nv l) B m
  | none => nv l

/-- `SerialGemv<NoTranspose, Unblocked>(1.0, w, in, 0.0, out)` for row `i` of the views, executed by the host,
multilayer_perceptron_kokkos.cpp:67-71. -/
def gemvRow (shared : Bool) (w : View K) (i : ℕ) (inp out : View K) : Option (View K) :=
  if shared then
    loop (w.extent 0) (fun p out => do
      let t ← loop (w.extent 1) (fun q t => do
        let a ← w.get [p, q]
        let x ← inp.get [i, q]
        pure (t + a * x)) 0
      out.set [i, p] t) out
  else none

/-- The activation kernel, multilayer_perceptron_kokkos.cpp:76-79. -/
def activK (ex : K → K) (scale : K) (n i : ℕ) (E : Unit → List ℕ) : Prog Unit K :=
  parFor n (fun j => upd E () [i, j] (fun x => scale * x / (1 + ex (-x))))

/-- Round `l` of the inner loop, multilayer_perceptron_kokkos.cpp:67-79. -/
def evalLayer (V : Env K) (shared : Bool) (ex : K → K) (s : Percep K) (i l : ℕ) (nv : ℕ → View K) : Option (ℕ → View K) := do
  let out ← gemvRow shared (s.w l) i (nv l) (nv (l + 1))
  let out ← (if l + 2 = s.shape.length then some out else do
    let n ← s.shape[l + 1]?
    V.L.launch1 (activK ex s.scale n i (fun _ => out.ext)) out)
  pure (fun l' => if l' = l + 1 then out else nv l')

/-- `f(b) = v(b, 0)`: `deep_copy(f, subview(v, ALL, 0))`. -/
def copyCol (B : ℕ) (v f : View K) : Option (View K) :=
  if f.extent 0 = B then loop B (fun i f => do
    let a ← v.get [i, 0]
    f.set [i] a) f
  else none

/-- `evaluate`, multilayer_perceptron_kokkos.cpp:51-85. -/
def MLPK.evaluate (V : Env K) (shared : Bool) (ex : K → K) (o : MLPK K) (x f : View K) : Option (View K × MLPK K) := do
  let B := x.extent 0
  let nv := o.net.fit B o.nv
  let nd := o.net.fit B o.nd
  let n0 ← o.net.shape[0]?
  let v0 ← copyRows B (nv 0) x n0
  let nv : ℕ → View K := fun l => if l = 0 then v0 else nv l
  let nv ← loop B (fun i => loop (o.net.shape.length - 1) (fun l => evalLayer V shared ex o.net i l)) nv
  let f ← copyCol B (nv (o.net.shape.length - 1)) f
  pure (f, ⟨o.net, nv, nd⟩)

/-- `evaluate_gradient`, multilayer_perceptron_kokkos.cpp:87-172; the copies into `f` and `g` throw unless the extents are equal. -/
def MLPK.evaluateGradient (V : Env K) (ex : K → K) (o : MLPK K) (x f g : View K) : Option (View K × View K × MLPK K) := do
  let B := x.extent 0
  let q ← o.net.evaluateGradient V ex B x f g o.nv o.nd
  if f.extent 0 = B ∧ g.extent 0 = B then pure (q.1, q.2.1, ⟨o.net, q.2.2.1, q.2.2.2⟩) else none

/-- Objects reached from `o0` by calls with arguments of matching extents (`m` inputs), each under any execution order. -/
inductive MLPK.Reach (ex : K → K) (m : ℕ) (o0 : MLPK K) : MLPK K → Prop
  | start : Reach ex m o0 o0
  | value {o o' : MLPK K} {V : Env K} {B : ℕ} {x f f' : View K} (h : Reach ex m o0 o) (hx : x.Ok) (hx' : x.ext = [B, m]) (hf : f.Ok)
      (hf' : f.ext = [B]) (e : o.evaluate V true ex x f = some (f', o')) : Reach ex m o0 o'
  | grad {o o' : MLPK K} {V : Env K} {B : ℕ} {x f g f' g' : View K} (h : Reach ex m o0 o) (hx : x.Ok) (hx' : x.ext = [B, m])
      (hf : f.Ok) (hf' : f.ext = [B]) (hg : g.Ok) (hg' : g.ext = [B, m]) (e : o.evaluateGradient V ex x f g = some (f', g', o')) :
      Reach ex m o0 o'

end Verif.Kokkos
