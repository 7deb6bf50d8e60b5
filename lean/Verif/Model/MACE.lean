import Verif.Base.Writes
import Verif.Model.Blas
import Verif.Model.CubicSpline
import Verif.Model.MLP
import Verif.Model.Polynomial
import Verif.Model.ZBL

/-!
# Model of `libsymmetrix/source/mace.cpp` (class `MACE`)

The members of the class are split into `Params` (set by `load_from_json`, never changed) and `State` (the buffers, and
the polynomial/MLP objects whose internal buffers change when they are evaluated).  Each method is a function
`Params → Graph → State → Option State`; `none` is an out-of-range access or an exception.

Pointer arithmetic `buf.data()+off`, `p[k]` becomes a checked read of the whole buffer at `off + k`.
The loop `for (m=-l; m<=l; ++m)` with `lm = l*l+l+m` is written with `mm = m+l ∈ [0, 2l]`, `lm = l*l+mm`.
The three statements for the force components `0,1,2` are a loop over the component.
-/

namespace Verif.MACE
open Verif.Blas Verif.Spline

/-- Result of a call that may throw. -/
def ofOut {α : Type} : Out α → Option α
  | .ret a => some a
  | _ => none

/-- Constant members, mace.hpp:17-155.  `sph`, `dsph` stand for sphericart (`dsph x y z c lm` is component `c` of the gradient),
`nrm` for `2*std::sqrt(std::numbers::pi)`, `ex` for `std::exp`. -/
structure Params (K : Type) where
  C : ℕ
  lmax : ℕ
  Lmax : ℕ
  atomicNumbers : List ℕ
  atomicEnergies : List K
  splSet0 : List (SplineSet K)
  splSet1 : List (SplineSet K)
  H0w : List K
  A0w : List (List (List K))
  A0scaled : Bool
  A0splines : List (CubicSpline K)
  H1w : List K
  phil : List ℕ
  phil1 : List ℕ
  phil2 : List ℕ
  philme : List ℕ
  cg : List K
  philelm : List ℕ
  numLelm : ℕ
  numLme : ℕ
  A1w : List (List K)
  A1scaled : Bool
  A1splines : List (CubicSpline K)
  H2wH1 : List (List K)
  H2wM1 : List K
  ro1 : List K
  sph : K → K → K → ℕ → K
  dsph : K → K → K → ℕ → ℕ → K
  nrm : K
  ex : K → K

/-- `num_lm`, mace.cpp:916. -/
def Params.M {K : Type} (P : Params K) : ℕ := (P.lmax + 1) * (P.lmax + 1)

/-- `num_LM`, mace.cpp:918. -/
def Params.LM {K : Type} (P : Params K) : ℕ := (P.Lmax + 1) * (P.Lmax + 1)

/-- Mutable members. -/
structure State (K : Type) where
  nodeEnergies : List K
  nodeForces : List K
  R0 : List K
  R0d : List K
  R1 : List K
  R1d : List K
  Y : List K
  Yg : List K
  xyzs : List K
  A0 : List K
  A0a : List K
  M0 : List K
  M0g : List K
  M0a : List K
  H1 : List K
  H1a : List K
  Phi1r : List K
  dPhi1r : List K
  Phi1 : List K
  dPhi1 : List K
  A1 : List K
  A1a : List K
  M1 : List K
  M1g : List K
  M1a : List K
  H2 : List K
  H2a : List K
  P0 : List (Poly.Poly K)
  P1 : List (Poly.Poly K)
  ro2 : MLP.MLP K

/-- Arguments of `compute_node_energies_forces`, mace.cpp:17-24. -/
structure Graph (K : Type) where
  N : ℕ
  types : List ℕ
  nn : List ℕ
  idx : List ℕ
  ntypes : List ℕ
  xyz : List K
  r : List K

/-- `type_ij`, mace.cpp:80-82 (repeated at 106-108, 288-290, 321-323, 333-335, 696-698, 732-734, 744-746);
`n = atomic_numbers.size()`. -/
def pairIndex (n ti tj : ℕ) : ℕ :=
  if ti ≤ tj then ti * (2 * n - ti - 1) / 2 + tj else tj * (2 * n - tj - 1) / 2 + ti

section stages
variable {K : Type} [Field K]

/-! ## Radial functions -/

/-- `compute_R0`/`compute_R1`, mace.cpp:66-90, 92-116.  Output spans are positions of the whole buffer. -/
def radial [LinearOrder K] [IsStrictOrderedRing K] [FloorRing K] (nE : ℕ) (spl : List (SplineSet K)) (g : Graph K)
    (R Rd : List K) : Option (List K × List K) := do
  let s0 ← spl[0]?
  let S := s0.num_splines
  let R := resize R (g.r.length * S)
  let Rd := resize Rd R.length
  let q ← loop g.N (fun i (q : ℕ × Bufs Bool K) => do
    let ti ← g.types[i]?
    let n ← g.nn[i]?
    edgesFrom n (fun ij st => do
      let tj ← g.ntypes[ij]?
      let s ← spl[pairIndex nE ti tj]?
      let rij ← g.r[ij]?
      s.evaluateDerivs rij (ij * S) st) q) (0, fun b => if b then Rd else R)
  pure (q.2 false, q.2 true)

def computeR0 [LinearOrder K] [IsStrictOrderedRing K] [FloorRing K] (P : Params K) (g : Graph K) (s : State K) :
    Option (State K) := do
  let q ← radial P.atomicNumbers.length P.splSet0 g s.R0 s.R0d
  pure { s with R0 := q.1, R0d := q.2 }

def computeR1 [LinearOrder K] [IsStrictOrderedRing K] [FloorRing K] (P : Params K) (g : Graph K) (s : State K) :
    Option (State K) := do
  let q ← radial P.atomicNumbers.length P.splSet1 g s.R1 s.R1d
  pure { s with R1 := q.1, R1d := q.2 }

/-! ## Spherical harmonics -/

/-- The shuffle, mace.cpp:126-131. -/
def shuffle (num : ℕ) (xyz sh : List K) : Option (List K) :=
  loop num (fun i sh => do
    let a ← xyz[3 * i + 2]?
    let sh ← wr sh (3 * i) a
    let a ← xyz[3 * i]?
    let sh ← wr sh (3 * i + 1) a
    let a ← xyz[3 * i + 1]?
    wr sh (3 * i + 2) a) sh

/-- sphericart's values, layout `Y[i*num_lm+lm]`, mace.cpp:133. -/
def sphValues (M : ℕ) (sph : K → K → K → ℕ → K) (num : ℕ) (sh Y : List K) : Option (List K) :=
  loop num (fun i => loop M (fun lm Y => do
    let x ← sh[3 * i]?
    let y ← sh[3 * i + 1]?
    let z ← sh[3 * i + 2]?
    wr Y (i * M + lm) (sph x y z lm))) Y

/-- sphericart's gradients, layout `Y_grad[3*i*num_lm+c*num_lm+lm]`, mace.cpp:133. -/
def sphGrads (M : ℕ) (dsph : K → K → K → ℕ → ℕ → K) (num : ℕ) (sh Yg : List K) : Option (List K) :=
  loop num (fun i => loop 3 (fun c => loop M (fun lm Yg => do
    let x ← sh[3 * i]?
    let y ← sh[3 * i + 1]?
    let z ← sh[3 * i + 2]?
    wr Yg (3 * i * M + c * M + lm) (dsph x y z c lm)))) Yg

/-- `for (i<b.size()) b[i] *= c`, mace.cpp:135-138. -/
def scaleAll (c : K) (b : List K) : Option (List K) := loop b.length (fun i b => md b i (fun y => y * c)) b

/-- The unshuffle of the gradient, mace.cpp:140-147; `old` is the copy `Y_grad_shuffled`. -/
def unshuffle (M num : ℕ) (old b : List K) : Option (List K) :=
  loop num (fun i => loop M (fun lm b => do
    let a ← old[3 * i * M + 1 * M + lm]?
    let b ← wr b (3 * i * M + 0 * M + lm) a
    let a ← old[3 * i * M + 2 * M + lm]?
    let b ← wr b (3 * i * M + 1 * M + lm) a
    let a ← old[3 * i * M + 0 * M + lm]?
    wr b (3 * i * M + 2 * M + lm) a)) b

/-- `compute_Y`, mace.cpp:118-148. -/
def computeY (P : Params K) (g : Graph K) (s : State K) : Option (State K) :=
  if g.xyz.length = 0 then some s
  else do
    let num := g.xyz.length / 3
    let sh ← shuffle num g.xyz (resize s.xyzs (3 * num))
    let Y ← sphValues P.M P.sph num sh (resize s.Y (num * P.M))
    let Yg ← sphGrads P.M P.dsph num sh (resize s.Yg (3 * num * P.M))
    let Y ← scaleAll P.nrm Y
    let Yg ← scaleAll P.nrm Yg
    let Yg ← unshuffle P.M num Yg Yg
    pure { s with Y := Y, Yg := Yg, xyzs := sh }

/-! ## First layer -/

/-- Contribution of edge `ij` to `Phi0_i`, mace.cpp:161-177. -/
def phi0Edge (P : Params K) (g : Graph K) (Y R0 : List K) (ij : ℕ) (phi : List K) : Option (List K) := do
  let tj ← g.ntypes[ij]?
  loop (P.lmax + 1) (fun l => loop (2 * l + 1) (fun mm phi => do
    let lm := l * l + mm
    let y ← Y[ij * P.M + lm]?
    loop P.C (fun k phi => do
      let R ← R0[ij * (P.lmax + 1) * P.C + l * P.C + k]?
      let h ← P.H0w[tj * P.C + k]?
      ad phi (lm * P.C + k) (R * y * h)) phi)) phi

/-- `compute_A0`, mace.cpp:150-201. -/
def computeA0 (P : Params K) (g : Graph K) (s : State K) : Option (State K) := do
  let q ← loop g.N (fun i (q : ℕ × List K) => do
    let n ← g.nn[i]?
    let e ← edgesFrom n (phi0Edge P g s.Y s.R0) (q.1, List.replicate (P.M * P.C) 0)
    let A ← loop (P.lmax + 1) (fun l A => do
      let ti ← g.types[i]?
      let Wt ← P.A0w[ti]?
      let w ← Wt[l]?
      gemm false false (2 * l + 1) P.C P.C 1 e.2 (l * l * P.C) P.C w 0 P.C 0 ((i * P.M + l * l) * P.C) P.C A) q.2
    pure (e.1, A)) (0, resize s.A0 (g.N * P.M * P.C))
  pure { s with A0 := q.2 }

/-- `-adj * (x/r * R' * Y * H + R * Ygrad * H)`, the force increment of mace.cpp:255-263 and 565-573. -/
def forceTerm (adj x r Rd y h R yg : K) : K := -adj * (x / r * Rd * y * h + R * yg * h)

/-- Force update of edge `ij` from `Phi0_adj_i`, mace.cpp:236-268. -/
def phi0Force (P : Params K) (g : Graph K) (s : State K) (adj : List K) (ij : ℕ) (F : List K) : Option (List K) := do
  let tj ← g.ntypes[ij]?
  let r ← g.r[ij]?
  loop (P.lmax + 1) (fun l => loop (2 * l + 1) (fun mm F => do
    let lm := l * l + mm
    let y ← s.Y[ij * P.M + lm]?
    loop P.C (fun k => loop 3 (fun a F => do
      let yg ← s.Yg[ij * 3 * P.M + a * P.M + lm]?
      let x ← g.xyz[ij * 3 + a]?
      let R ← s.R0[ij * (P.lmax + 1) * P.C + l * P.C + k]?
      let Rd ← s.R0d[ij * (P.lmax + 1) * P.C + l * P.C + k]?
      let h ← P.H0w[tj * P.C + k]?
      let p ← adj[lm * P.C + k]?
      ad F (ij * 3 + a) (forceTerm p x r Rd y h R yg))) F)) F

/-- `reverse_A0`, mace.cpp:203-271. -/
def reverseA0 (P : Params K) (g : Graph K) (s : State K) : Option (State K) := do
  let q ← loop g.N (fun i (q : ℕ × List K) => do
    let adj ← loop (P.lmax + 1) (fun l adj => do
      let ti ← g.types[i]?
      let Wt ← P.A0w[ti]?
      let w ← Wt[l]?
      gemm false true (2 * l + 1) P.C P.C 1 s.A0a ((i * P.M + l * l) * P.C) P.C w 0 P.C 0 (l * l * P.C) P.C adj)
      (List.replicate (P.M * P.C) 0)
    let n ← g.nn[i]?
    edgesFrom n (phi0Force P g s adj) q) (0, s.nodeForces)
  pure { s with nodeForces := q.2 }

/-! ## Rescaling by the density -/

section scaled
variable [LinearOrder K] [IsStrictOrderedRing K] [FloorRing K]

/-- The loop accumulating the scale factor of node `i`, mace.cpp:284-292, 317-325, 692-700, 728-736. -/
def scaleFactor (nE : ℕ) (spl : List (CubicSpline K)) (g : Graph K) (ti n : ℕ) (ij : ℕ) : Option (ℕ × K) :=
  edgesFrom n (fun ij acc => do
    let tj ← g.ntypes[ij]?
    let s ← spl[pairIndex nE ti tj]?
    let r ← g.r[ij]?
    let v ← ofOut (s.evaluate r)
    pure (acc + v)) (ij, 1)

/-- `compute_A0_scaled`/`compute_A1_scaled`, mace.cpp:273-297, 681-705; `len = num_lm*num_channels`. -/
def scaleForward (nE : ℕ) (spl : List (CubicSpline K)) (len : ℕ) (g : Graph K) (A : List K) : Option (List K) := do
  let q ← loop g.N (fun i (q : ℕ × List K) => do
    let ti ← g.types[i]?
    let n ← g.nn[i]?
    let f ← scaleFactor nE spl g ti n q.1
    let A ← loop len (fun p A => md A (i * len + p) (fun x => x / f.2)) q.2
    pure (f.1, A)) (0, A)
  pure q.2

/-- `reverse_A0_scaled`/`reverse_A1_scaled` (the common part), mace.cpp:309-345, 720-756.
State: counter, (forces, adjoint). -/
def scaleReverse (nE : ℕ) (spl : List (CubicSpline K)) (len : ℕ) (g : Graph K) (A : List K) (st : List K × List K) :
    Option (List K × List K) := do
  let q ← loop g.N (fun i (q : ℕ × List K × List K) => do
    let ti ← g.types[i]?
    let n ← g.nn[i]?
    let f ← scaleFactor nE spl g ti n q.1
    let dot ← sumO len (fun p => do
      let x ← q.2.2[i * len + p]?
      let y ← A[i * len + p]?
      pure (x * y))
    let e ← edgesFrom n (fun ij F => do
      let tj ← g.ntypes[ij]?
      let sp ← spl[pairIndex nE ti tj]?
      let r ← g.r[ij]?
      let fd ← ofOut (sp.evaluateDeriv r)
      loop 3 (fun a F => do
        let x ← g.xyz[ij * 3 + a]?
        ad F (ij * 3 + a) (dot / f.2 * fd.2 * x / r)) F) (f.1 - n, q.2.1)
    let adj ← loop len (fun p B => md B (i * len + p) (fun x => x / f.2)) q.2.2
    pure (e.1, e.2, adj)) (0, st)
  pure q.2

/-- `compute_A0_scaled`, mace.cpp:273-297. -/
def computeA0Scaled (P : Params K) (g : Graph K) (s : State K) : Option (State K) :=
  if P.A0scaled then do
    let A ← scaleForward P.atomicNumbers.length P.A0splines (P.M * P.C) g s.A0
    pure { s with A0 := A }
  else some s

/-- `reverse_A0_scaled`, mace.cpp:299-346. -/
def reverseA0Scaled (P : Params K) (g : Graph K) (s : State K) : Option (State K) :=
  if P.A0scaled then do
    let q ← scaleReverse P.atomicNumbers.length P.A0splines (P.M * P.C) g s.A0 (s.nodeForces, s.A0a)
    pure { s with nodeForces := q.1, A0a := q.2 }
  else some s

/-- `compute_A1_scaled`, mace.cpp:681-705. -/
def computeA1Scaled (P : Params K) (g : Graph K) (s : State K) : Option (State K) :=
  if P.A1scaled then do
    let A ← scaleForward P.atomicNumbers.length P.A1splines (P.M * P.C) g s.A1
    pure { s with A1 := A }
  else some s

/-- `reverse_A1_scaled`, mace.cpp:707-757. -/
def reverseA1Scaled (P : Params K) (g : Graph K) (zeroDxyz : Bool) (s : State K) : Option (State K) :=
  if P.A1scaled then do
    let F := resize s.nodeForces g.xyz.length
    let F := if zeroDxyz then List.replicate F.length 0 else F
    let q ← scaleReverse P.atomicNumbers.length P.A1splines (P.M * P.C) g s.A1 (F, s.A1a)
    pure { s with nodeForces := q.1, A1a := q.2 }
  else some s

end scaled

/-! ## Products -/

/-- `cblas_dcopy(n, a+aoff, ainc, b+boff, binc)`. -/
def dcopy (n : ℕ) (a : List K) (aoff ainc : ℕ) (boff binc : ℕ) (b : List K) : Option (List K) :=
  loop n (fun j b => do
    let v ← a[aoff + j * ainc]?
    wr b (boff + j * binc) v) b

/-- Work of one call of a product polynomial, mace.cpp:361-364, 770-773: `out[opos] = f`, gradient to
`grad[gpos + lm*num_channels]`.  State: scratch `x`, `out`, `grad`, polynomial objects. -/
def productStep (P : Params K) (A : List K) (apos poly opos gpos : ℕ)
    (st : List K × List K × List K × List (Poly.Poly K)) :
    Option (List K × List K × List K × List (Poly.Poly K)) := do
  let x ← dcopy P.M A apos P.C 0 1 st.1
  let p ← st.2.2.2[poly]?
  let fg ← p.evaluateGradient x
  let out ← wr st.2.1 opos fg.1
  let grad ← dcopy P.M fg.2.1 0 1 gpos P.C st.2.2.1
  pure (x, out, grad, st.2.2.2.set poly fg.2.2)

/-- `compute_M0`, mace.cpp:348-370; the scratch vector `x` is local to the node. -/
def computeM0 (P : Params K) (g : Graph K) (s : State K) : Option (State K) := do
  let q ← loop g.N (fun i (st : List K × List K × List (Poly.Poly K)) => do
    let q ← loop P.LM (fun lm => cnt P.C (fun k lmk st => do
      let ti ← g.types[i]?
      productStep P s.A0 (i * P.M * P.C + k) (ti * P.LM * P.C + lmk) (i * P.LM * P.C + lmk)
        (i * P.LM * P.C * P.M + (lm * P.M * P.C + k)) st)) (0, List.replicate P.M 0, st)
    pure q.2.2)
    (resize s.M0 (g.N * P.LM * P.C), resize s.M0g (g.N * P.C * P.LM * P.M), s.P0)
  pure { s with M0 := q.1, M0g := q.2.1, P0 := q.2.2 }

/-- `reverse_M0`, mace.cpp:372-395. -/
def reverseM0 (P : Params K) (g : Graph K) (s : State K) : Option (State K) := do
  let A ← loop g.N (fun i => loop P.M (fun lm => loop P.LM (fun lmp => loop P.C (fun k A => do
    let d ← s.M0g[i * P.LM * P.M * P.C + lmp * P.M * P.C + lm * P.C + k]?
    let a ← s.M0a[i * P.LM * P.C + lmp * P.C + k]?
    ad A (i * P.M * P.C + lm * P.C + k) (d * a))))) (List.replicate s.A0.length 0)
  pure { s with A0a := A }

/-- `compute_H1`, mace.cpp:397-423. -/
def computeH1 (P : Params K) (g : Graph K) (s : State K) : Option (State K) := do
  let H ← loop g.N (fun i => loop (P.Lmax + 1) (fun l =>
    gemm false false (2 * l + 1) P.C P.C 1 s.M0 ((i * P.LM + l * l) * P.C) P.C P.H1w (l * P.C * P.C) P.C 0
      ((i * P.LM + l * l) * P.C) P.C)) (resize s.H1 s.M0.length)
  pure { s with H1 := H }

/-- `reverse_H1`, mace.cpp:425-451. -/
def reverseH1 (P : Params K) (g : Graph K) (s : State K) : Option (State K) := do
  let H ← loop g.N (fun i => loop (P.Lmax + 1) (fun l =>
    gemm false true (2 * l + 1) P.C P.C 1 s.H1a ((i * P.LM + l * l) * P.C) P.C P.H1w (l * P.C * P.C) P.C 0
      ((i * P.LM + l * l) * P.C) P.C)) (resize s.M0a s.M0.length)
  pure { s with M0a := H }

/-! ## Second layer -/

/-- The loops over `lel1l2`, `lm1`, `lm2` with the running counter `lelm1lm2`, mace.cpp:470-488, 545-577, 588-602. -/
def tripleLoop {σ : Type} (P : Params K) (body : ℕ → ℕ → ℕ → ℕ → σ → Option σ) (s : σ) : Option σ := do
  let q ← loop P.phil.length (fun le (q : ℕ × σ) => do
    let l1 ← P.phil1[le]?
    let l2 ← P.phil2[le]?
    loop (2 * l1 + 1) (fun m1 => cnt (2 * l2 + 1) (fun m2 c s => body le (l1 * l1 + m1) (l2 * l2 + m2) c s)) q) (0, s)
  pure q.2

/-- Contribution of edge `ij` to `Phi1r_i`, mace.cpp:466-490. -/
def phi1Edge (P : Params K) (g : Graph K) (s : State K) (i ij : ℕ) (phi : List K) : Option (List K) := do
  let s0 ← P.splSet1[0]?
  let v ← g.idx[ij]?
  tripleLoop P (fun le lm1 lm2 q phi => do
    let y ← s.Y[ij * P.M + lm1]?
    loop P.C (fun k phi => do
      let R ← s.R1[ij * s0.num_splines + le * P.C + k]?
      let h ← s.H1[v * P.LM * P.C + lm2 * P.C + k]?
      ad phi (i * P.numLelm * P.C + q * P.C + k) (R * y * h)) phi) phi

/-- Accumulation with Clebsch-Gordan coefficients: `dst[i, dstIdx p] += cg[p] * src[i, srcIdx p]`,
mace.cpp:491-501 and 517-527. -/
def cgPass (C N : ℕ) (cg : List K) (nd ns : ℕ) (di si : List ℕ) (src : List K) (dst : List K) : Option (List K) :=
  loop N (fun i => loop cg.length (fun p d => do
    let a ← di[p]?
    let c ← cg[p]?
    let b ← si[p]?
    loop C (fun k d => do
      let x ← src[i * ns * C + b * C + k]?
      ad d (i * nd * C + a * C + k) (c * x)) d)) dst

/-- `compute_Phi1`, mace.cpp:453-502. -/
def computePhi1 (P : Params K) (g : Graph K) (s : State K) : Option (State K) := do
  let q ← loop g.N (fun i (q : ℕ × List K) => do
    let n ← g.nn[i]?
    edgesFrom n (phi1Edge P g s i) q) (0, List.replicate (g.N * P.numLelm * P.C) 0)
  let phi ← cgPass P.C g.N P.cg P.numLme P.numLelm P.philme P.philelm q.2
    (List.replicate (g.N * P.numLme * P.C) 0)
  pure { s with Phi1r := q.2, Phi1 := phi }

/-- Force update of edge `ij`, mace.cpp:535-579. -/
def phi1Force (P : Params K) (g : Graph K) (s : State K) (dr : List K) (i ij : ℕ) (F : List K) : Option (List K) := do
  let s0 ← P.splSet1[0]?
  let v ← g.idx[ij]?
  let r ← g.r[ij]?
  tripleLoop P (fun le lm1 lm2 q F => do
    let y ← s.Y[ij * P.M + lm1]?
    loop P.C (fun k => loop 3 (fun a F => do
      let yg ← s.Yg[ij * 3 * P.M + a * P.M + lm1]?
      let x ← g.xyz[3 * ij + a]?
      let R ← s.R1[ij * s0.num_splines + le * P.C + k]?
      let Rd ← s.R1d[ij * s0.num_splines + le * P.C + k]?
      let h ← s.H1[v * P.LM * P.C + lm2 * P.C + k]?
      let p ← dr[i * P.numLelm * P.C + q * P.C + k]?
      ad F (3 * ij + a) (forceTerm p x r Rd y h R yg))) F) F

/-- Update of `H1_adj` from edge `ij`, mace.cpp:585-604. -/
def phi1Adj (P : Params K) (g : Graph K) (s : State K) (dr : List K) (i ij : ℕ) (Ha : List K) : Option (List K) := do
  let s0 ← P.splSet1[0]?
  let v ← g.idx[ij]?
  tripleLoop P (fun le lm1 lm2 q Ha => do
    loop P.C (fun k Ha => do
      let R ← s.R1[ij * s0.num_splines + le * P.C + k]?
      let y ← s.Y[ij * P.M + lm1]?
      let p ← dr[i * P.numLelm * P.C + q * P.C + k]?
      ad Ha (v * P.LM * P.C + lm2 * P.C + k) (R * y * p)) Ha) Ha

/-- `reverse_Phi1`, mace.cpp:504-605. -/
def reversePhi1 (P : Params K) (g : Graph K) (zeroDxyz zeroH1 : Bool) (s : State K) : Option (State K) := do
  let dr ← cgPass P.C g.N P.cg P.numLelm P.numLme P.philelm P.philme s.dPhi1 (List.replicate s.Phi1r.length 0)
  let F := resize s.nodeForces g.xyz.length
  let F := if zeroDxyz then List.replicate F.length 0 else F
  let q ← loop g.N (fun i (q : ℕ × List K) => do
    let n ← g.nn[i]?
    edgesFrom n (phi1Force P g s dr i) q) (0, F)
  let Ha := resize s.H1a s.H1.length
  let Ha := if zeroH1 then List.replicate Ha.length 0 else Ha
  let h ← loop g.N (fun i (q : ℕ × List K) => do
    let n ← g.nn[i]?
    edgesFrom n (phi1Adj P g s dr i) q) (0, Ha)
  pure { s with dPhi1r := dr, nodeForces := q.2, H1a := h.2 }

/-- The local `num_e`, mace.cpp:614-618, 651-655. -/
def numE (P : Params K) : Option (List ℕ) :=
  loop P.phil.length (fun j ne => do
    let l ← P.phil[j]?
    ad ne l 1) (List.replicate (P.lmax + 1) 0)

/-- The local `num_lme`, mace.cpp:613-616, 650-653 (and the member, mace.cpp:975-977). -/
def sumLme (phil : List ℕ) : ℕ := (phil.map (fun l => 2 * l + 1)).sum

/-- `compute_A1`, mace.cpp:607-642; state of the `l` loop: the two running offsets and the buffer. -/
def computeA1 (P : Params K) (g : Graph K) (s : State K) : Option (State K) := do
  let ne ← numE P
  let A ← loop g.N (fun i A => do
    let q ← loop (P.lmax + 1) (fun l (q : ℕ × ℕ × List K) => do
      let e ← ne[l]?
      let w ← P.A1w[l]?
      let A ← gemm false false (2 * l + 1) P.C (e * P.C) 1 s.Phi1 q.1 (e * P.C) w 0 P.C 0 q.2.1 P.C q.2.2
      pure (q.1 + (2 * l + 1) * e * P.C, q.2.1 + (2 * l + 1) * P.C, A))
      (i * sumLme P.phil * P.C, i * P.M * P.C, A)
    pure q.2.2) (resize s.A1 (g.N * P.M * P.C))
  pure { s with A1 := A }

/-- `reverse_A1`, mace.cpp:644-679. -/
def reverseA1 (P : Params K) (g : Graph K) (s : State K) : Option (State K) := do
  let ne ← numE P
  let D ← loop g.N (fun i D => do
    let q ← loop (P.lmax + 1) (fun l (q : ℕ × ℕ × List K) => do
      let e ← ne[l]?
      let w ← P.A1w[l]?
      let D ← gemm false true (2 * l + 1) (e * P.C) P.C 1 s.A1a q.1 P.C w 0 P.C 0 q.2.1 (e * P.C) q.2.2
      pure (q.1 + (2 * l + 1) * P.C, q.2.1 + (2 * l + 1) * e * P.C, D))
      (i * P.M * P.C, i * sumLme P.phil * P.C, D)
    pure q.2.2) (resize s.dPhi1 s.Phi1.length)
  pure { s with dPhi1 := D }

/-- `compute_M1`, mace.cpp:759-777. -/
def computeM1 (P : Params K) (g : Graph K) (s : State K) : Option (State K) := do
  let q ← loop g.N (fun i (st : List K × List K × List (Poly.Poly K)) => do
    let q ← loop P.C (fun k st => do
      let ti ← g.types[i]?
      productStep P s.A1 (i * P.M * P.C + k) (ti * P.C + k) (i * P.C + k) (i * P.C * P.M + k) st)
      (List.replicate P.M 0, st)
    pure q.2)
    (resize s.M1 (g.N * P.C), resize s.M1g (g.N * P.C * P.M * P.C), s.P1)
  pure { s with M1 := q.1, M1g := q.2.1, P1 := q.2.2 }

/-- `reverse_M1`, mace.cpp:779-794. -/
def reverseM1 (P : Params K) (g : Graph K) (s : State K) : Option (State K) := do
  let A ← loop g.N (fun i => loop P.M (fun lm => loop P.C (fun k A => do
    let d ← s.M1g[(i * P.M + lm) * P.C + k]?
    let a ← s.M1a[i * P.C + k]?
    wr A ((i * P.M + lm) * P.C + k) (d * a)))) (resize s.A1a s.A1.length)
  pure { s with A1a := A }

/-- `compute_H2`, mace.cpp:796-832. -/
def computeH2 (P : Params K) (g : Graph K) (s : State K) : Option (State K) := do
  let H ← loop g.N (fun i H => do
    let ti ← g.types[i]?
    let w ← P.H2wH1[ti]?
    let H ← gemv true P.C P.C 1 w P.C s.H1 (i * P.LM * P.C) 0 (i * P.C) H
    gemv true P.C P.C 1 P.H2wM1 P.C s.M1 (i * P.C) 1 (i * P.C) H) (resize s.H2 (g.N * P.C))
  pure { s with H2 := H }

/-- `reverse_H2`, mace.cpp:834-874. -/
def reverseH2 (P : Params K) (g : Graph K) (zeroH1 : Bool) (s : State K) : Option (State K) := do
  let Ha := resize s.H1a s.H1.length
  let Ma := resize s.M1a s.M1.length
  let Ha := if zeroH1 then List.replicate Ha.length 0 else Ha
  let q ← loop g.N (fun i (q : List K × List K) => do
    let ti ← g.types[i]?
    let w ← P.H2wH1[ti]?
    let Ha ← gemv false P.C P.C 1 w P.C s.H2a (i * P.C) 1 (i * P.LM * P.C) q.1
    let Ma ← gemv false P.C P.C 1 P.H2wM1 P.C s.H2a (i * P.C) 0 (i * P.C) q.2
    pure (Ha, Ma)) (Ha, Ma)
  pure { s with H1a := q.1, M1a := q.2 }

/-- `compute_readouts`, mace.cpp:876-903; `x` is the copy of the row of `H2`. -/
def computeReadouts (P : Params K) (g : Graph K) (s : State K) : Option (State K) := do
  let q ← loop g.N (fun i (q : List K × List K × List K × MLP.MLP K) => do
    let ti ← g.types[i]?
    let e ← P.atomicEnergies[ti]?
    let E ← ad q.1 i e
    let q1 ← loop P.C (fun k (q : List K × List K) => do
      let w ← P.ro1[k]?
      let h ← s.H1[i * P.LM * P.C + k]?
      let E ← ad q.1 i (w * h)
      let Ha ← wr q.2 (i * P.LM * P.C + k) w
      pure (E, Ha)) (E, q.2.1)
    let x ← (if (i + 1) * P.C ≤ s.H2.length then some ((s.H2.drop (i * P.C)).take P.C) else none)
    let fg ← q.2.2.2.evaluateGradient P.ex x
    let f0 ← fg.1[0]?
    let E ← ad q1.1 i f0
    let H2a ← loop P.C (fun k b => do
      let v ← fg.2.1[k]?
      wr b (i * P.C + k) v) q.2.2.1
    pure (E, q1.2, H2a, fg.2.2))
    (resize s.nodeEnergies g.N, List.replicate s.H1.length 0, resize s.H2a s.H2.length, s.ro2)
  pure { s with nodeEnergies := q.1, H1a := q.2.1, H2a := q.2.2.1, ro2 := q.2.2.2 }

end stages

/-! ## The whole evaluation -/

/-- Stages of `compute_node_energies_forces` after the ZBL call, mace.cpp:38-63. -/
noncomputable def pipeline (P : Params ℝ) (g : Graph ℝ) (s : State ℝ) : Option (State ℝ) := do
  let s ← computeY P g s
  let s ← computeR0 P g s
  let s ← computeA0 P g s
  let s ← computeA0Scaled P g s
  let s ← computeM0 P g s
  let s ← computeH1 P g s
  let s ← computeR1 P g s
  let s ← computePhi1 P g s
  let s ← computeA1 P g s
  let s ← computeA1Scaled P g s
  let s ← computeM1 P g s
  let s ← computeH2 P g s
  let s ← computeReadouts P g s
  let s ← reverseH2 P g false s
  let s ← reverseM1 P g s
  let s ← reverseA1Scaled P g false s
  let s ← reverseA1 P g s
  let s ← reversePhi1 P g false false s
  let s ← reverseH1 P g s
  let s ← reverseM0 P g s
  let s ← reverseA0Scaled P g s
  reverseA0 P g s

/-- `compute_node_energies_forces`, mace.cpp:17-64; `zbl = none` iff `!has_zbl`. -/
noncomputable def computeNodeEnergiesForces (zbl : Option ZBLModel.ZBL) (P : Params ℝ) (g : Graph ℝ) (s : State ℝ) :
    Option (State ℝ) := do
  let E := List.replicate g.N (0 : ℝ)
  let F := List.replicate g.xyz.length (0 : ℝ)
  let st : Bufs Bool ℝ := fun b => if b then F else E
  let st ← match zbl with
    | some z => z.computeZBL g.N g.types g.nn g.ntypes P.atomicNumbers g.r g.xyz st
    | none => some st
  pipeline P g { s with nodeEnergies := st false, nodeForces := st true }

/-! ## Loading -/

/-- Contents of the JSON file, mace.cpp:905-1030.  Maps with keys `std::to_string(i)` are functions of `i` (a missing key
gives the empty vector, as `std::map::operator[]` does). -/
structure File where
  numChannels : ℕ
  lmax : ℕ
  Lmax : ℕ
  atomicNumbers : List ℕ
  atomicEnergies : List ℝ
  zbl : Option ZBLModel.ZBL
  splH : ℝ
  vals0 : List (List (List ℝ))
  ders0 : List (List (List ℝ))
  vals1 : List (List (List ℝ))
  ders1 : List (List (List ℝ))
  H0w : List ℝ
  A0w : List (List (List ℝ))
  A0scaled : Bool
  A0h : ℝ
  A0vals : List (List ℝ)
  A0ders : List (List ℝ)
  M0w : ℕ → ℕ → ℕ → List ℝ
  M0mon : ℕ → List (List ℕ)
  H1w : List ℝ
  phil : List ℕ
  phil1 : List ℕ
  phil2 : List ℕ
  philme : List ℕ
  cg : List ℝ
  philelm : List ℕ
  A1w : List (List ℝ)
  A1scaled : Bool
  A1h : ℝ
  A1vals : List (List ℝ)
  A1ders : List (List ℝ)
  M1w : ℕ → ℕ → List ℝ
  M1mon : List (List ℕ)
  H2wH1 : List (List ℝ)
  H2wM1 : List ℝ
  ro1 : List ℝ
  ro2w1 : List ℝ
  ro2w2 : List ℝ
  ro2scale : ℝ

/-- `for (i<n) out.push_back(f(i))`. -/
def pushLoop {α : Type} (n : ℕ) (f : ℕ → Option α) (out : List α) : Option (List α) :=
  loop n (fun i out => do
    let a ← f i
    pure (out ++ [a])) out

/-- `load_from_json`, mace.cpp:905-1030, on a new object (`sph`, `dsph`: sphericart; `srt`: `std::sort`).
`has_zbl`, and the ZBL constructor, are in `File.zbl`. -/
noncomputable def load (srt : List (List (List ℕ)) → List (List (List ℕ))) (sph : ℝ → ℝ → ℝ → ℕ → ℝ)
    (dsph : ℝ → ℝ → ℝ → ℕ → ℕ → ℝ) (f : File) : Option (Params ℝ × State ℝ) := do
  let numLm := (f.lmax + 1) * (f.lmax + 1)
  let numLM := (f.Lmax + 1) * (f.Lmax + 1)
  let spl0 ← pushLoop f.vals0.length (fun i => do
    let v ← f.vals0[i]?
    let d ← f.ders0[i]?
    SplineSet.mk? f.splH v d) []
  let spl1 ← pushLoop f.vals1.length (fun i => do
    let v ← f.vals1[i]?
    let d ← f.ders1[i]?
    SplineSet.mk? f.splH v d) []
  let A0spl ← (if f.A0scaled then pushLoop f.A0vals.length (fun i => do
    let v ← f.A0vals[i]?
    let d ← f.A0ders[i]?
    CubicSpline.mk? f.A0h v d) [] else some [])
  let P0 ← loop f.atomicNumbers.length (fun a => loop numLM (fun lm =>
    pushLoop f.numChannels (fun k => Poly.Poly.mk? srt numLm (f.M0w a lm k) (f.M0mon lm)))) []
  let numLelm ← loop f.phil.length (fun le n => do
    let l1 ← f.phil1[le]?
    let l2 ← f.phil2[le]?
    pure (n + (2 * l1 + 1) * (2 * l2 + 1))) 0
  let A1spl ← (if f.A1scaled then pushLoop f.A1vals.length (fun i => do
    let v ← f.A1vals[i]?
    let d ← f.A1ders[i]?
    CubicSpline.mk? f.A1h v d) [] else some [])
  let P1 ← loop f.atomicNumbers.length (fun a =>
    pushLoop f.numChannels (fun k => Poly.Poly.mk? srt numLm (f.M1w a k) f.M1mon)) []
  let ro2 ← MLP.MLP.mk? [f.numChannels, 16, 1] [f.ro2w1, f.ro2w2] f.ro2scale
  pure ({ C := f.numChannels, lmax := f.lmax, Lmax := f.Lmax, atomicNumbers := f.atomicNumbers
          atomicEnergies := f.atomicEnergies, splSet0 := spl0, splSet1 := spl1, H0w := f.H0w, A0w := f.A0w
          A0scaled := f.A0scaled, A0splines := A0spl, H1w := f.H1w, phil := f.phil, phil1 := f.phil1, phil2 := f.phil2
          philme := f.philme, cg := f.cg, philelm := f.philelm, numLelm := numLelm, numLme := sumLme f.phil
          A1w := f.A1w, A1scaled := f.A1scaled, A1splines := A1spl, H2wH1 := f.H2wH1, H2wM1 := f.H2wM1, ro1 := f.ro1
          sph := sph, dsph := dsph, nrm := 2 * Real.sqrt Real.pi, ex := Real.exp },
        { nodeEnergies := [], nodeForces := [], R0 := [], R0d := [], R1 := [], R1d := [], Y := [], Yg := [], xyzs := []
          A0 := [], A0a := [], M0 := [], M0g := [], M0a := [], H1 := [], H1a := [], Phi1r := [], dPhi1r := [], Phi1 := []
          dPhi1 := [], A1 := [], A1a := [], M1 := [], M1g := [], M1a := [], H2 := [], H2a := []
          P0 := P0, P1 := P1, ro2 := ro2 })

end Verif.MACE
