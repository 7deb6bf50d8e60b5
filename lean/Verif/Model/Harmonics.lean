import Verif.Base.Loop
import Mathlib.Analysis.SpecialFunctions.Gamma.Basic
import Mathlib.Analysis.SpecialFunctions.Trigonometric.Inverse

/-!
# Model of `libsymmetrix/source/spherical_harmonic.cpp`

`leg l m x` stands for `std::assoc_legendre`, `real l m x y z` (or `compute`) for sphericart; `std::tgamma` is the Gamma function,
`std::pow(-1,m)` is `(-1)^m` for an integer `m`.
-/

namespace Verif.Harm

/-- `sph_harm`, spherical_harmonic.cpp:7-19. -/
noncomputable def sphHarm (leg : ℤ → ℤ → ℝ → ℝ) (l m : ℤ) (polar azimuth : ℝ) : ℂ :=
  if 0 ≤ m then
    (((-1 : ℝ) ^ m * Real.sqrt ((2 * l + 1) / (4 * Real.pi) * Real.Gamma (1 + l - m) / Real.Gamma (1 + l + m))
      * leg l m (Real.cos polar) : ℝ) : ℂ) * Complex.exp (Complex.I * m * azimuth)
  else
    (((-1 : ℝ) ^ m * Real.sqrt ((2 * l + 1) / (4 * Real.pi) * Real.Gamma (1 + l - m) / Real.Gamma (1 + l + m))
      * (-1 : ℝ) ^ m * Real.Gamma (1 + l + m) / Real.Gamma (1 + l - m) * leg l (-m) (Real.cos polar) : ℝ) : ℂ)
      * Complex.exp (Complex.I * m * azimuth)

/-- `polar`, spherical_harmonic.cpp:22-23,39-40. -/
noncomputable def polarOf (x y z : ℝ) : ℝ := Real.arccos (z / Real.sqrt (x * x + y * y + z * z))

/-- `azimuth`, spherical_harmonic.cpp:24,41. -/
noncomputable def azimuthOf (x y : ℝ) : ℝ :=
  ((if y > 0 then 1 else 0) - (if y < 0 then 1 else 0)) * Real.arccos (x / Real.sqrt (x * x + y * y))

/-- `sph_harm_xyz`, spherical_harmonic.cpp:21-26. -/
noncomputable def sphHarmXyz (leg : ℤ → ℤ → ℝ → ℝ) (l m : ℤ) (x y z : ℝ) : ℂ := sphHarm leg l m (polarOf x y z) (azimuthOf x y)

/-- `real_sph_harm`, spherical_harmonic.cpp:28-36. -/
noncomputable def realSphHarm (leg : ℤ → ℤ → ℝ → ℝ) (l m : ℤ) (polar azimuth : ℝ) : ℝ :=
  if m < 0 then Real.sqrt 2 * (-1 : ℝ) ^ m * (sphHarm leg l (-m) polar azimuth).im
  else if m = 0 then (sphHarm leg l m polar azimuth).re
  else Real.sqrt 2 * (-1 : ℝ) ^ m * (sphHarm leg l m polar azimuth).re

/-- `real_sph_harm_xyz`, spherical_harmonic.cpp:38-43. -/
noncomputable def realSphHarmXyz (leg : ℤ → ℤ → ℝ → ℝ) (l m : ℤ) (x y z : ℝ) : ℝ :=
  realSphHarm leg l m (polarOf x y z) (azimuthOf x y)

/-- `sphericart_sph_harm`, spherical_harmonic.cpp:45-55; `real m = sphericart_real_sph_harm(l,m,x,y,z)`. -/
noncomputable def complexOf (real : ℤ → ℝ) (m : ℤ) : ℂ :=
  if m < 0 then ((1 / Real.sqrt 2 : ℝ) : ℂ) * ((real (-m) : ℂ) - Complex.I * real m)
  else if m = 0 then real m
  else (((-1 : ℝ) ^ m / Real.sqrt 2 : ℝ) : ℂ) * ((real m : ℂ) + Complex.I * real (-m))

/-- The list index `i0 + l*(l+1) + m` (a negative one is out of range). -/
def at? {K : Type*} (b : List K) (i : ℤ) : Option K := if i < 0 then none else b[i.toNat]?

def put? {K : Type*} (b : List K) (i : ℤ) (v : K) : Option (List K) := if i < 0 then none else wr b i.toNat v

/-- One assignment of the loop, spherical_harmonic.cpp:88-97. -/
noncomputable def complexEntry (re : List ℝ) (i0 l m : ℤ) (out : List ℂ) : Option (List ℂ) :=
  if m < 0 then do
    let a ← at? re (i0 + l * (l + 1) - m)
    let b ← at? re (i0 + l * (l + 1) + m)
    put? out (i0 + l * (l + 1) + m) (((1 / Real.sqrt 2 : ℝ) : ℂ) * ((a : ℂ) - Complex.I * b))
  else if m = 0 then do
    let a ← at? re (i0 + l * (l + 1))
    put? out (i0 + l * (l + 1)) (a : ℂ)
  else do
    let a ← at? re (i0 + l * (l + 1) + m)
    let b ← at? re (i0 + l * (l + 1) - m)
    put? out (i0 + l * (l + 1) + m) ((((-1 : ℝ) ^ m * (1 / Real.sqrt 2) : ℝ) : ℂ) * ((a : ℂ) + Complex.I * b))

/-- `sphericart_complex`, spherical_harmonic.cpp:73-101; `re` is `sph_real`, `n` is `n_samples`; the loop over `m = -l..l` runs over
`mm = m + l`. -/
noncomputable def sphericartComplex (lmax n : ℕ) (re : List ℝ) : Option (List ℂ) :=
  loop n (fun i => loop (lmax + 1) (fun l => loop (2 * l + 1) (fun mm =>
    complexEntry re ((i * ((lmax + 1) * (lmax + 1)) : ℕ) : ℤ) l (mm - l)))) (List.replicate (n * ((lmax + 1) * (lmax + 1))) 0)

end Verif.Harm
