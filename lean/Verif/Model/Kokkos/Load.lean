import Verif.Model.Kokkos.Eval
import Verif.Model.Kokkos.Tools

/-!
# Model of `MACEKokkos::load_from_json`, mace_kokkos.cpp:1544-1887

with the constructors of `RadialFunctionSetKokkos` and `MultilayerPerceptronKokkos`.  A mirror view that is filled by the host and
then copied is one view.  `toKokkosView` of a vector that stays a one-dimensional read-only view is the list itself (the copy is
modelled in `Tools.lean`).  `load_from_json` is modelled on a new object.
-/

namespace Verif.Kokkos
open Verif.MACE

section parts
variable {K : Type}

/-- `v(is) op= …`. -/
def mdV (v : View K) (is : List ℕ) (f : K → K) : Option (View K) := (v.get is).bind (fun x => v.set is (f x))

/-- Allocation with extents `ns` where the second is `n-1` for an `int` or `size_t` `n`: negative, or wrapped around, for `n = 0`. -/
def less1 (n : ℕ) : Option ℕ := if n = 0 then none else some (n - 1)

/-- The four coefficients of interval `i` of function `j`, radial_function_set_kokkos.cpp:27-35 and mace_kokkos.cpp:1588-1593;
`value`, `deriv` are the entries of the function in the file. -/
def cubicCells [Field K] (h : K) (value deriv : ℕ → Option K) (a i j : ℕ) (v : View K) : Option (View K) := do
  let x ← value i
  let v ← v.set [a, i, 0, j] x
  let d ← deriv i
  let v ← v.set [a, i, 1, j] d
  let x' ← value (i + 1)
  let d' ← deriv (i + 1)
  let v ← v.set [a, i, 2, j] ((-3 * x - 2 * h * d + 3 * x' - h * d') / (h * h))
  v.set [a, i, 3, j] ((2 * x + h * d - 2 * x' + h * d') / (h * h * h))

/-- Constructor, radial_function_set_kokkos.cpp:12-42. -/
def RadialSet.mk? [Field K] (h : K) (values derivs : List (List (List K))) : Option (RadialSet K) := do
  let v0 ← values[0]?
  let v00 ← v0[0]?
  let nI ← less1 v00.length
  let c ← loop values.length (fun a => loop nI (fun i => loop v0.length (fun j =>
    cubicCells h (fun i => ((values[a]?).bind (fun t => t[j]?)).bind (fun w => w[i]?))
      (fun i => ((derivs[a]?).bind (fun t => t[j]?)).bind (fun w => w[i]?)) a i j))) (View.new [values.length, nI, 4, v0.length] 0)
  pure { h := h, numTypes := values.length, numFun := v0.length, c := c }

/-- Constructor, multilayer_perceptron_kokkos.cpp:10-40. -/
def Percep.mk? [Zero K] (shape : List ℕ) (weights : List (List K)) (scale : K) : Option (Percep K) := do
  let nL ← less1 shape.length
  let ws ← pushLoop nL (fun l => do
    let m ← shape[l + 1]?
    let n ← shape[l]?
    let w ← (if l < weights.length then weights[l]? else none)
    loop m (fun i => loop n (fun j v => do
      let x ← w[i * n + j]?
      v.set [i, j] x)) (View.new [m, n] 0)) []
  pure { shape := shape, w := fun l => ws.getD l ⟨[], []⟩, scale := scale }

/-- Coefficients of pair `(a, b)` from the file, mace_kokkos.cpp:1586-1595. -/
def R0values [Field K] (h : K) (values derivs : List (List K)) (nI S ab : ℕ) (v : View K) : Option (View K) :=
  loop nI (fun i => loop S (fun lk => cubicCells h (fun i => (values[lk]?).bind (fun w => w[i]?))
    (fun i => (derivs[lk]?).bind (fun w => w[i]?)) ab i lk)) v

/-- "add H0_weights", mace_kokkos.cpp:1596-1606. -/
def R0embed [Field K] (C : ℕ) (H0w : List K) (nI S ab b : ℕ) (v : View K) : Option (View K) :=
  loop nI (fun i => loop S (fun lk v => do
    let w ← H0w[b * C + lk % C]?
    let v ← mdV v [ab, i, 0, lk] (fun x => x * w)
    let v ← mdV v [ab, i, 1, lk] (fun x => x * w)
    let v ← mdV v [ab, i, 2, lk] (fun x => x * w)
    mdV v [ab, i, 3, lk] (fun x => x * w))) v

/-- `vector(&v(ab,i,s,first), &v(ab,i,s,first)+n)`. -/
def copyRow (v : View K) (ab i s first n : ℕ) : Option (List K) := pushLoop n (fun k => v.get [ab, i, s, first + k]) []

/-- Four assignments of zero, mace_kokkos.cpp:1616-1619. -/
def zeroCells [Zero K] (ab i j : ℕ) (v : View K) : Option (View K) := do
  let v ← v.set [ab, i, 0, j] 0
  let v ← v.set [ab, i, 1, j] 0
  let v ← v.set [ab, i, 2, j] 0
  v.set [ab, i, 3, j] 0

/-- Four additions of products, mace_kokkos.cpp:1621-1624; `wo` is the weight, `c0` … `c3` the copied rows. -/
def mixCells [Field K] (wo : Option K) (c0 c1 c2 c3 : List K) (kp ab i j : ℕ) (v : View K) : Option (View K) := do
  let w ← wo
  let x0 ← c0[kp]?
  let v ← mdV v [ab, i, 0, j] (fun y => y + w * x0)
  let x1 ← c1[kp]?
  let v ← mdV v [ab, i, 1, j] (fun y => y + w * x1)
  let x2 ← c2[kp]?
  let v ← mdV v [ab, i, 2, j] (fun y => y + w * x2)
  let x3 ← c3[kp]?
  mdV v [ab, i, 3, j] (fun y => y + w * x3)

/-- "add A0_weights", mace_kokkos.cpp:1607-1628. -/
def R0mix [Field K] (C lmax : ℕ) (A0w : List (List (List K))) (nI a ab : ℕ) (v : View K) : Option (View K) :=
  loop nI (fun i => loop (lmax + 1) (fun l v => do
    let c0 ← copyRow v ab i 0 (l * C) C
    let c1 ← copyRow v ab i 1 (l * C) C
    let c2 ← copyRow v ab i 2 (l * C) C
    let c3 ← copyRow v ab i 3 (l * C) C
    loop C (fun k v => do
      let v ← zeroCells ab i (l * C + k) v
      loop C (fun kp => mixCells (((A0w[a]?).bind (fun t => t[l]?)).bind (fun t => t[kp * C + k]?)) c0 c1 c2 c3 kp ab i (l * C + k)) v)
      v)) v

/-- "R0", mace_kokkos.cpp:1571-1633. -/
def R0coeffs [Field K] (C lmax nT : ℕ) (h : K) (vals ders : List (List (List K))) (H0w : List K) (A0w : List (List (List K))) :
    Option (View K) := do
  let v00 ← (vals[0]?).bind (fun t => t[0]?)
  let nI ← less1 v00.length
  let S := (lmax + 1) * C
  loop nT (fun a => loop nT (fun b v => do
    let ab := a * nT + b
    let u := if a ≤ b then a * (2 * nT - a - 1) / 2 + b else b * (2 * nT - b - 1) / 2 + a
    let values ← vals[u]?
    let derivs ← ders[u]?
    let v ← R0values h values derivs nI S ab v
    let v ← R0embed C H0w nI S ab b v
    R0mix C lmax A0w nI a ab v)) (View.new [nT * nT, nI, 4, S] 0)

/-- Entries `(a,k,w)` of `M0_weights(LM)`, mace_kokkos.cpp:1661-1669, and `M1_weights`, mace_kokkos.cpp:1820-1826; `n` terms. -/
def weightsView [Zero K] (junk : ℕ → K) (nT C n : ℕ) (ws : ℕ → ℕ → List K) : Option (View K) :=
  loop nT (fun a => loop C (fun k => loop n (fun w v => do
    let x ← (ws a k)[w]?
    v.set [a, k, w] x))) (uninit junk [nT, C, n])

/-- `M0_monomials(LM)`, mace_kokkos.cpp:1670-1680, and `M1_monomials`, mace_kokkos.cpp:1827-1834: three columns, unused entries `-1`. -/
def monomialsView (n : ℕ) (mo : List (List ℕ)) : Option (View ℤ) :=
  loop n (fun i v => do
    let m ← mo[i]?
    loop m.length (fun j v => do
      let x ← m[j]?
      v.set [i, j] (x : ℤ)) v) (View.new [n, 3] (-1))

/-- `M0_poly_spec(LM)`, mace_kokkos.cpp:1691-1699 (allocated without initialisation), and `M1_poly_spec`,
mace_kokkos.cpp:1846-1852 (zeroed by `realloc`); `junk` is what the memory holds. -/
def specView (junk : ℕ → ℕ) (edges : List (ℕ × ℕ)) : Option (View ℕ) :=
  loop edges.length (fun p v => do
    let e ← edges[p]?
    let v ← v.set [p, 0] e.1
    v.set [p, 1] e.2) (uninit junk [edges.length, 2])

/-- `M0_poly_coeff(LM)`, mace_kokkos.cpp:1709-1724. -/
def M0coeffView [CommRing K] (srt : List (List (List ℕ)) → List (List (List ℕ))) (junk : ℕ → K) (nT C M : ℕ) (ws : ℕ → ℕ → List K)
    (mo : List (List ℕ)) : Option (View K) := do
  let P ← Poly.Poly.mk? srt M (ws 0 0) mo
  loop nT (fun a => loop C (fun k v => do
    let P ← Poly.Poly.mk? srt M (ws a k) mo
    loop P.nodeCoefficients.length (fun p v => do
      let x ← P.nodeCoefficients[p]?
      v.set [a, p, k] x) v)) (uninit junk [nT, P.nodeCoefficients.length, C])

/-- `M1_poly_coeff`, mace_kokkos.cpp:1854-1863; `ps` is `P1`. -/
def M1coeffView [CommRing K] (nT C n : ℕ) (ps : List (Poly.Poly K)) : Option (View K) :=
  loop nT (fun a => loop n (fun p => loop C (fun k v => do
    let P ← ps[a * C + k]?
    let x ← P.nodeCoefficients[p]?
    v.set [a, p, k] x))) (View.new [nT, n, C] 0)

/-- `Phi1_lm1`, `Phi1_lm2`, `Phi1_lel1l2`, mace_kokkos.cpp:1757-1773. -/
def phi1Tables (n : ℕ) (phil1 phil2 : List ℕ) : Option (List ℕ × List ℕ × List ℕ) :=
  loop n (fun le t => do
    let l1 ← phil1[le]?
    let l2 ← phil2[le]?
    loop (l1 * (l1 + 2) + 1 - l1 * l1) (fun i => loop (l2 * (l2 + 2) + 1 - l2 * l2) (fun j t =>
      some (t.1 ++ [l1 * l1 + i], t.2.1 ++ [l2 * l2 + j], t.2.2 ++ [le]))) t) ([], [], [])

/-- `A1_weights(l)` and `A1_weights_trans(l)`, mace_kokkos.cpp:1786-1801. -/
def A1view [Zero K] (junk : ℕ → ℕ → K) (C : ℕ) (phil : List ℕ) (w : List (List K)) (l : ℕ) : Option (View K × View K) := do
  let nE ← loop phil.length (fun i n => (phil[i]?).map (fun l' => if l' = l then n + 1 else n)) 0
  loop (nE * C) (fun i => loop C (fun j q => do
    let x ← (w[l]?).bind (fun t => t[i * C + j]?)
    let v ← q.1.set [i, j] x
    let y ← (w[l]?).bind (fun t => t[i * C + j]?)
    let vt ← q.2.set [j, i] y
    pure (v, vt))) (uninit (junk 0) [nE * C, C], uninit (junk 1) [C, nE * C])

/-- `H2_weights_for_H1`, mace_kokkos.cpp:1866-1874. -/
def H2view [Zero K] (nE C : ℕ) (w : List (List K)) : Option (View K) :=
  loop nE (fun i => loop (C * C) (fun j v => do
    let x ← (w[i]?).bind (fun t => t[j]?)
    v.set [i, j] x)) (View.new [nE, C * C] 0)

/-- `num_lme` and `num_lelm1lm2`, mace_kokkos.cpp:1746-1754. -/
def phi1Counts (phil phil1 phil2 : List ℕ) : Option (ℕ × ℕ) := do
  let a ← loop phil.length (fun i n => (phil[i]?).map (fun l => n + (2 * l + 1))) 0
  let b ← loop phil.length (fun le n => do
    let l1 ← phil1[le]?
    let l2 ← phil2[le]?
    pure (n + (2 * l1 + 1) * (2 * l2 + 1))) 0
  pure (a, b)

end parts

/-- `load_from_json`; `numElements` is the file entry `num_elements` (which `MACE::load_from_json` does not use), the other entries are
those of `MACE.File`; `sph`, `dsph`: sphericart, `srt`: `std::sort` in the polynomial constructor, `junk`: uninitialised memory
(its integer part in views of integers). -/
noncomputable def load (srt : List (List (List ℕ)) → List (List (List ℕ))) (sph : ℝ → ℝ → ℝ → ℕ → ℝ)
    (dsph : ℝ → ℝ → ℝ → ℕ → ℕ → ℝ) (junk : ℕ → ℕ → ℝ) (numElements : ℕ) (f : File) : Option (Params ℝ × State ℝ) := do
  let nT := f.atomicNumbers.length
  let M := (f.lmax + 1) * (f.lmax + 1)
  let LM := (f.Lmax + 1) * (f.Lmax + 1)
  let R0c ← R0coeffs f.numChannels f.lmax nT f.splH f.vals0 f.ders0 f.H0w f.A0w
  let radial1 ← RadialSet.mk? f.splH f.vals1 f.ders1
  let A0spl ← (if f.A0scaled then (RadialSet.mk? f.A0h (f.A0vals.map (fun v => [v])) (f.A0ders.map (fun v => [v]))).map some
    else some none)
  let _M0weights ← pushLoop LM (fun lm => weightsView (junk lm) nT f.numChannels (f.M0mon lm).length (fun a k => f.M0w a lm k)) []
  let _M0monomials ← pushLoop LM (fun lm => monomialsView (f.M0mon lm).length (f.M0mon lm)) []
  let M0spec ← pushLoop LM (fun lm => do
    let P ← Poly.Poly.mk? srt M (f.M0w 0 lm 0) (f.M0mon lm)
    specView (fun p => ⌊junk lm p⌋₊) P.edges) []
  let M0coeff ← pushLoop LM (fun lm => M0coeffView srt (junk lm) nT f.numChannels M (fun a k => f.M0w a lm k) (f.M0mon lm)) []
  let H1w ← setView ⟨[0, 0, 0], []⟩ f.H1w [f.Lmax + 1, f.numChannels, f.numChannels]
  let cnt ← phi1Counts f.phil f.phil1 f.phil2
  let t ← phi1Tables f.phil.length f.phil1 f.phil2
  let A1 ← pushLoop (f.lmax + 1) (A1view junk f.numChannels f.phil f.A1w) []
  let A1spl ← (if f.A1scaled then (RadialSet.mk? f.A1h (f.A1vals.map (fun v => [v])) (f.A1ders.map (fun v => [v]))).map some
    else some none)
  let _M1weights ← weightsView (fun _ => 0) nT f.numChannels (f.M1w 0 0).length f.M1w
  let _M1monomials ← monomialsView (f.M1w 0 0).length f.M1mon
  let P1 ← loop nT (fun a => pushLoop f.numChannels (fun k => Poly.Poly.mk? srt M (f.M1w a k) f.M1mon)) []
  let P10 ← P1[0]?
  let M1spec ← specView (fun _ => 0) P10.edges
  let M1coeff ← M1coeffView nT f.numChannels (M + P10.edges.length) P1
  let H2wH1 ← H2view numElements f.numChannels f.H2wH1
  let mlp ← Percep.mk? [f.numChannels, 16, 1] [f.ro2w1, f.ro2w2] f.ro2scale
  pure ({ C := f.numChannels, lmax := f.lmax, Lmax := f.Lmax, atomicNumbers := f.atomicNumbers, atomicEnergies := f.atomicEnergies
          R0h := f.splH, R0c := R0c, radial1 := radial1, A0spl := A0spl, M0spec := fun lm => M0spec.getD lm ⟨[], []⟩
          M0coeff := fun lm => M0coeff.getD lm ⟨[], []⟩, H1w := H1w, phil := f.phil
          tables := { lm1 := t.1, lm2 := t.2.1, lel := t.2.2, lme := f.philme, lelm := f.philelm }
          cg := f.cg, numLelm := cnt.2, numLme := cnt.1, A1w := fun l => (A1.getD l (⟨[], []⟩, ⟨[], []⟩)).1
          A1wt := fun l => (A1.getD l (⟨[], []⟩, ⟨[], []⟩)).2, A1spl := A1spl, M1spec := M1spec, M1coeff := M1coeff, H2wH1 := H2wH1
          H2wM1 := f.H2wM1, ro1 := f.ro1, mlp := mlp, sph := sph, dsph := dsph, nrm := 2 * Real.sqrt Real.pi, ex := Real.exp },
        State.init ℝ)

end Verif.Kokkos
