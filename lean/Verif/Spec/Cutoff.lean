import Verif.Spec.MACEFile

/-! # Model files whose features vanish at the cutoff -/

namespace Verif.MACE
open Verif.Spec

/-- The tables end at the cutoff `rc` with value zero; the pair repulsion ends before. -/
structure FadesOut (f : File) (rc : ℝ) : Prop where
  pos : 0 < rc
  end0 : f.splH * (f.nodes0 - 1 : ℕ) = rc
  end1 : f.splH * (f.nodes1 - 1 : ℕ) = rc
  zero0 : ∀ t ∈ f.vals0, ∀ w ∈ t, nth w (f.nodes0 - 1) = 0
  zero1 : ∀ t ∈ f.vals1, ∀ w ∈ t, nth w (f.nodes1 - 1) = 0
  dens0 : f.A0scaled = true → ∀ w ∈ f.A0vals, f.A0h * (w.length - 1 : ℕ) = rc ∧ nth w (w.length - 1) = 0
  dens1 : f.A1scaled = true → ∀ w ∈ f.A1vals, f.A1h * (w.length - 1 : ℕ) = rc ∧ nth w (w.length - 1) = 0
  zbl : ∀ z, f.zbl = some z → ∀ Z ∈ f.atomicNumbers, ∀ Z' ∈ f.atomicNumbers, nth z.rad Z + nth z.rad Z' ≤ rc

/-- The last slopes of the tables are zero as well. -/
structure FadesFlat (f : File) : Prop where
  slope0 : ∀ t ∈ f.ders0, ∀ w ∈ t, nth w (f.nodes0 - 1) = 0
  slope1 : ∀ t ∈ f.ders1, ∀ w ∈ t, nth w (f.nodes1 - 1) = 0
  dens0 : f.A0scaled = true → ∀ p < f.A0vals.length, nth (row f.A0ders p) ((row f.A0vals p).length - 1) = 0
  dens1 : f.A1scaled = true → ∀ p < f.A1vals.length, nth (row f.A1ders p) ((row f.A1vals p).length - 1) = 0

end Verif.MACE
