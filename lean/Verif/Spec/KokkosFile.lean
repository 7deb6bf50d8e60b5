import Verif.Spec.MACEFile

/-! # What `MACEKokkos::load_from_json` needs from the model file beyond `FileOk` -/

namespace Verif.MACE
open Verif.Spec

/-- Further conditions on the file; `numElements` is its entry `num_elements`.  Monomials have at most three factors (the views of
the monomials have three columns), the splines of the density normalisation have as many nodes as the first one. -/
structure FileOkK (f : File) (numElements : ℕ) : Prop where
  elements : f.nT ≤ numElements ∧ numElements ≤ f.H2wH1.length
  mono0 : ∀ LM < (f.Lmax + 1) * (f.Lmax + 1), ∀ m ∈ f.M0mon LM, m.length ≤ 3
  mono1 : ∀ m ∈ f.M1mon, m.length ≤ 3
  A0s : f.A0scaled = true → ∀ w ∈ f.A0vals, w.length = (row f.A0vals 0).length
  A1s : f.A1scaled = true → ∀ w ∈ f.A1vals, w.length = (row f.A1vals 0).length

end Verif.MACE
