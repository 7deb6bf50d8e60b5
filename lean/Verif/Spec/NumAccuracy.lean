import Verif.Model.Num
import Verif.Spec.MACEFile
import Mathlib.Analysis.SpecialFunctions.Pow.Real

/-!
# Accuracy of an arithmetic on real numbers

The standard model of floating-point numbers: a rounded operation is an operation on `ℝ` near the exact one, unless the exact
result is too large.  (The namespace is not `Verif.Num`, so that `+`, `*`, `/` below are those of `ℝ`.)
-/

namespace Verif.NumSpec

/-- `y` is `x` up to a relative error `δ` and an absolute error `δ`, unless `x` is larger than `1/δ`. -/
def Close (δ y x : ℝ) : Prop := |x| ≤ 1 / δ → |y - x| ≤ δ * (|x| + 1)

/-- Sum of the magnitudes of the terms of an inner product. -/
def dotSize (z : ℝ) (ps : List (ℝ × ℝ)) : ℝ := |z| + (ps.map fun p => |p.1 * p.2|).sum

/-- The operations are accurate to `δ`; an inner product of length `k` is accurate to `c k * δ` relative to the sum of the
magnitudes of its terms.  Nothing is said about results larger than `1/δ`, divisions by zero, and powers of negative numbers. -/
structure Accurate (A : Num.Arith ℝ) (c : ℕ → ℝ) (δ : ℝ) : Prop where
  lit : ∀ q : ℚ, Close δ (A.lit q) q
  ofInt : ∀ z : ℤ, Close δ (A.ofInt z) z
  add : ∀ x y, Close δ (A.add x y) (x + y)
  sub : ∀ x y, Close δ (A.sub x y) (x - y)
  mul : ∀ x y, Close δ (A.mul x y) (x * y)
  div : ∀ x y, y ≠ 0 → Close δ (A.div x y) (x / y)
  neg : ∀ x, Close δ (A.neg x) (-x)
  le : ∀ x y, A.le x y = true ↔ x ≤ y
  trunc : ∀ x, A.trunc x = truncInt x
  exp : ∀ x, Close δ (A.exp x) (Real.exp x)
  pow : ∀ x y, 0 < x → Close δ (A.pow x y) (x ^ y)
  powi : ∀ (x : ℝ) (n : ℤ), 0 ≤ n → Close δ (A.powi x n) (x ^ n)
  dot : ∀ t ps, c ps.length * (1 + dotSize 0 ps) ≤ 1 / δ →
    |A.dot t none ps - (ps.map fun p => p.1 * p.2).sum| ≤ δ * (c ps.length * (1 + dotSize 0 ps))
  dotAcc : ∀ t z ps, c ps.length * (1 + dotSize z ps) ≤ 1 / δ →
    |A.dot t (some z) ps - (z + (ps.map fun p => p.1 * p.2).sum)| ≤ δ * (c ps.length * (1 + dotSize z ps))

/-- An arithmetic with the conversion of the numbers in the file, the harmonics and their gradient, and the constant `2*sqrt(pi)`. -/
structure Machine where
  A : Num.Arith ℝ
  φ : ℝ → ℝ
  sph : ℝ → ℝ → ℝ → ℕ → ℝ
  dsph : ℝ → ℝ → ℝ → ℕ → ℕ → ℝ
  nrm : ℝ

/-- The machine is accurate to `δ`; the harmonics need only be accurate at points within `η` of the bond vectors of the calls. -/
structure Machine.AccurateFor (M : Machine) (c : ℕ → ℝ) (δ η : ℝ) (sph : ℝ → ℝ → ℝ → ℕ → ℝ) (dsph : ℝ → ℝ → ℝ → ℕ → ℕ → ℝ)
    (lmax : ℕ) (calls : List (MACE.Sys × (ℕ → ℕ → ℝ))) : Prop where
  arith : Accurate M.A c δ
  conv : ∀ x, Close δ (M.φ x) x
  nrm : Close δ M.nrm (2 * Real.sqrt Real.pi)
  sph : ∀ q ∈ calls, ∀ e < q.1.E, ∀ x y z, |x - q.2 e 0| < η → |y - q.2 e 1| < η → |z - q.2 e 2| < η →
    ∀ lm < (lmax + 1) * (lmax + 1), Close δ (M.sph z x y lm) (sph z x y lm)
  dsph : ∀ q ∈ calls, ∀ e < q.1.E, ∀ x y z, |x - q.2 e 0| < η → |y - q.2 e 1| < η → |z - q.2 e 2| < η →
    ∀ i < 3, ∀ lm < (lmax + 1) * (lmax + 1), Close δ (M.dsph z x y i lm) (dsph z x y i lm)

/-- The arithmetic of `ℝ` with every result rounded by `fl`, and inner products added from left to right.  Comparison, truncation
and change of sign are exact. -/
noncomputable def rounded (fl : ℝ → ℝ) : Num.Arith ℝ where
  lit q := fl q
  ofInt z := fl z
  add x y := fl (x + y)
  sub x y := fl (x - y)
  mul x y := fl (x * y)
  div x y := fl (x / y)
  neg x := -x
  le x y := decide (x ≤ y)
  trunc x := truncInt x
  exp x := fl (Real.exp x)
  pow x y := fl (x ^ y)
  powi x n := fl (x ^ n)
  dot _ z ps := ps.foldl (fun s p => fl (s + fl (p.1 * p.2))) (z.getD 0)

/-- The machine which rounds everything. -/
noncomputable def Machine.rounded (fl : ℝ → ℝ) (sph : ℝ → ℝ → ℝ → ℕ → ℝ) (dsph : ℝ → ℝ → ℝ → ℕ → ℕ → ℝ) : Machine where
  A := NumSpec.rounded fl
  φ := fl
  sph z x y lm := fl (sph z x y lm)
  dsph z x y i lm := fl (dsph z x y i lm)
  nrm := fl (2 * Real.sqrt Real.pi)

/-- The input of a call, rounded. -/
noncomputable def roundedInput (fl : ℝ → ℝ) (q : MACE.Sys × (ℕ → ℕ → ℝ)) : MACE.Sys × List ℝ × List ℝ :=
  (q.1, (q.1.graph q.2).xyz.map fl, (q.1.graph q.2).r.map fl)

/-- Two buffers of equal size agree up to `δ`. -/
def BufNear (δ : ℝ) (ys xs : List ℝ) : Prop := List.Forall₂ (fun y x => |y - x| ≤ δ) ys xs

/-- The input of a call is that of the bond vectors up to `δ`. -/
def InputNear (δ : ℝ) (i : MACE.Sys × List ℝ × List ℝ) (q : MACE.Sys × (ℕ → ℕ → ℝ)) : Prop :=
  i.1 = q.1 ∧ List.Forall₂ (Close δ) i.2.1 (q.1.graph q.2).xyz ∧ List.Forall₂ (Close δ) i.2.2 (q.1.graph q.2).r

/-- The screening length of the pair repulsion may be divided by. -/
def ZblOk (z : ZBLModel.ZBL) (an : List ℕ) : Prop := z.aPre ≠ 0 ∧ ∀ Z ∈ an, 0 < Z

/-- The harmonics and their gradient are continuous at the bond vectors. -/
def SphCont (sph : ℝ → ℝ → ℝ → ℕ → ℝ) (dsph : ℝ → ℝ → ℝ → ℕ → ℕ → ℝ) (lmax : ℕ) (q : MACE.Sys × (ℕ → ℕ → ℝ)) : Prop :=
  ∀ e < q.1.E, (∀ lm < (lmax + 1) * (lmax + 1), ContinuousAt (fun p : ℝ × ℝ × ℝ => sph p.1 p.2.1 p.2.2 lm) (q.2 e 2, q.2 e 0, q.2 e 1)) ∧
    ∀ i < 3, ∀ lm < (lmax + 1) * (lmax + 1), ContinuousAt (fun p : ℝ × ℝ × ℝ => dsph p.1 p.2.1 p.2.2 i lm) (q.2 e 2, q.2 e 0, q.2 e 1)

end Verif.NumSpec
