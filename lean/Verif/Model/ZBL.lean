import Verif.Base.Edge
import Mathlib.Analysis.SpecialFunctions.Pow.Real

/-!
# Model of `zbl.cpp`

`double` is `ℝ`; `std::exp` is `Real.exp`; `std::pow(x, a_exp)` with a `double` exponent is `Real.rpow`;
`std::pow(x, p)` with an `int` exponent is `zpow`.
-/

namespace Verif.ZBLModel

/-- Members of `ZBL` set by the constructor, zbl.hpp:38-43 and zbl.cpp:9-20. -/
structure ZBL where
  aExp : ℝ
  aPre : ℝ
  c : List ℝ
  rad : List ℝ
  p : ℤ

/-- `ZBL::compute_envelope`, zbl.cpp:73-82. -/
noncomputable def computeEnvelope (r rMax : ℝ) (p : ℤ) : ℝ :=
  if r ≥ rMax then 0
  else
    let x := r / rMax
    1 - ((p + 1) * (p + 2) / 2) * x ^ p + p * (p + 2) * x ^ (p + 1) - (p * (p + 1) / 2) * x ^ (p + 2)

/-- `ZBL::compute_envelope_gradient`, zbl.cpp:84-94. -/
noncomputable def computeEnvelopeGradient (r rMax : ℝ) (p : ℤ) : ℝ :=
  if r ≥ rMax then 0
  else
    let x := r / rMax
    (-((p + 1) * (p + 2) / 2) * p * x ^ (p - 1) + p * (p + 2) * (p + 1) * x ^ p
      - (p * (p + 1) / 2) * (p + 2) * x ^ (p + 1)) / rMax

/-- `ZBL::compute`, zbl.cpp:22-40 (constants zbl.hpp:46-50); table reads are checked. -/
noncomputable def ZBL.compute (z : ZBL) (Zu Zv : ℕ) (r : ℝ) : Option ℝ := do
  let ru ← z.rad[Zu]?
  let rv ← z.rad[Zv]?
  let a := z.aPre * 0.529 / ((Zu : ℝ) ^ z.aExp + (Zv : ℝ) ^ z.aExp)
  let q := r / a
  let c0 ← z.c[0]?
  let c1 ← z.c[1]?
  let c2 ← z.c[2]?
  let c3 ← z.c[3]?
  let phi := c0 * Real.exp (-3.2 * q) + c1 * Real.exp (-0.9423 * q) + c2 * Real.exp (-0.4028 * q)
    + c3 * Real.exp (-0.2016 * q)
  let v := 14.3996 * Zu * Zv / r * phi
  let rMax := ru + rv
  let env := computeEnvelope r rMax z.p
  pure (v * (0.5 * env))

/-- `ZBL::compute_gradient`, zbl.cpp:42-71. -/
noncomputable def ZBL.computeGradient (z : ZBL) (Zu Zv : ℕ) (r : ℝ) : Option ℝ := do
  let ru ← z.rad[Zu]?
  let rv ← z.rad[Zv]?
  let a := z.aPre * 0.529 / ((Zu : ℝ) ^ z.aExp + (Zv : ℝ) ^ z.aExp)
  let q := r / a
  let c0 ← z.c[0]?
  let c1 ← z.c[1]?
  let c2 ← z.c[2]?
  let c3 ← z.c[3]?
  let e0 := c0 * Real.exp (-3.2 * q)
  let e1 := c1 * Real.exp (-0.9423 * q)
  let e2 := c2 * Real.exp (-0.4028 * q)
  let e3 := c3 * Real.exp (-0.2016 * q)
  let phi := e0 + e1 + e2 + e3
  let dphi := (-3.2 * e0 + -0.9423 * e1 + -0.4028 * e2 + -0.2016 * e3) / a
  let v := 14.3996 * Zu * Zv / r * phi
  let dv := 14.3996 * Zu * Zv * (r * dphi - phi) / (r * r)
  let rMax := ru + rv
  let env := computeEnvelope r rMax z.p
  let denv := computeEnvelopeGradient r rMax z.p
  pure (0.5 * (v * denv + dv * env))

/-- Body of the neighbour loop of `ZBL::compute_ZBL`, zbl.cpp:111-121.
Output buffer `false` is `node_energies`, `true` is `node_forces`. -/
noncomputable def ZBL.edgeBody (z : ZBL) (i Zi : ℕ) (neighTypes atomicNumbers : List ℕ) (r xyz : List ℝ) (ij : ℕ)
    (st : Bufs Bool ℝ) : Option (Bufs Bool ℝ) := do
  let tj ← neighTypes[ij]?
  let Zj ← atomicNumbers[tj]?
  let rij ← r[ij]?
  let f ← z.compute Zi Zj rij
  let st ← modAt false i (fun x => x + f) st
  let g ← z.computeGradient Zi Zj rij
  let x ← xyz[3 * ij]?
  let st ← modAt true (3 * ij) (fun w => w - x / rij * g) st
  let y ← xyz[3 * ij + 1]?
  let st ← modAt true (3 * ij + 1) (fun w => w - y / rij * g) st
  let zc ← xyz[3 * ij + 2]?
  modAt true (3 * ij + 2) (fun w => w - zc / rij * g) st

/-- `ZBL::compute_ZBL`, zbl.cpp:96-125; `ij` is the running edge counter. -/
noncomputable def ZBL.computeZBL (z : ZBL) (numNodes : ℕ) (nodeTypes numNeigh neighTypes atomicNumbers : List ℕ)
    (r xyz : List ℝ) (st : Bufs Bool ℝ) : Option (Bufs Bool ℝ) :=
  (loop numNodes (fun i (q : ℕ × Bufs Bool ℝ) => do
    let ti ← nodeTypes[i]?
    let Zi ← atomicNumbers[ti]?
    let n ← numNeigh[i]?
    edgesFrom n (z.edgeBody i Zi neighTypes atomicNumbers r xyz) q) (0, st)).map Prod.snd

end Verif.ZBLModel
