import Verif.Spec.MACEFile

/-! Products of sizes that `int` has to hold: of the file alone, and of the file with the numbers of atoms and pairs. -/

namespace Verif.MACE
open Verif.Spec

/-- Products of entries of the file below `2^31`. -/
structure FileFits (f : File) : Prop where
  grad0 : (f.Lmax + 1) * (f.Lmax + 1) * ((f.lmax + 1) * (f.lmax + 1)) * f.numChannels < 2 ^ 31
  grad1 : f.numChannels * ((f.lmax + 1) * (f.lmax + 1)) * f.numChannels < 2 ^ 31
  phi1r : f.couplings.length * f.numChannels < 2 ^ 31
  phi1 : (f.phil.map (fun l => 2 * l + 1)).sum * f.numChannels < 2 ^ 31
  polys : f.nT * ((f.Lmax + 1) * (f.Lmax + 1)) * f.numChannels < 2 ^ 31
  mix : (f.Lmax + 1) * f.numChannels * f.numChannels < 2 ^ 31
  cg : f.cg.length < 2 ^ 31
  table0 : 4 * f.nodes0 * ((f.lmax + 1) * f.numChannels) < 2 ^ 31
  table1 : 4 * f.nodes1 * (f.phil.length * f.numChannels) < 2 ^ 31

/-- Products with the number `N` of atoms and the number `E` of pairs below `2^31`. -/
structure SysFits (f : File) (N E : ℕ) : Prop where
  harm : 3 * E * ((f.lmax + 1) * (f.lmax + 1)) < 2 ^ 31
  rad0 : E * ((f.lmax + 1) * f.numChannels) < 2 ^ 31
  rad1 : E * (f.phil.length * f.numChannels) < 2 ^ 31
  grad0 : N * ((f.Lmax + 1) * (f.Lmax + 1)) * ((f.lmax + 1) * (f.lmax + 1)) * f.numChannels < 2 ^ 31
  grad1 : N * f.numChannels * ((f.lmax + 1) * (f.lmax + 1)) * f.numChannels < 2 ^ 31
  phi1r : N * f.couplings.length * f.numChannels < 2 ^ 31
  phi1 : N * (f.phil.map (fun l => 2 * l + 1)).sum * f.numChannels < 2 ^ 31

/-- For `MACEKokkos`: products of entries of the file below `2^31`; `P0 LM`, `P1` are the numbers of products of the polynomials. -/
structure FileFitsK (f : File) (P0 : ℕ → ℕ) (P1 : ℕ) : Prop where
  chan : (f.lmax + 1) * (f.lmax + 1) * f.numChannels < 2 ^ 31
  hidden : (f.Lmax + 1) * (f.Lmax + 1) < 2 ^ 31
  rad1 : f.phil.length * f.numChannels < 2 ^ 31
  mix : f.numChannels * f.numChannels < 2 ^ 31
  phi1 : (f.phil.map (fun l => 2 * l + 1)).sum * f.numChannels < 2 ^ 31
  tables : 4 * (f.nT * (f.nT + 1)) + 1 < 2 ^ 31
  cg : f.cg.length < 2 ^ 31
  poly0 : ∀ LM < (f.Lmax + 1) * (f.Lmax + 1), (f.lmax + 1) * (f.lmax + 1) + P0 LM < 2 ^ 31
  poly1 : (f.lmax + 1) * (f.lmax + 1) + P1 < 2 ^ 31

/-- For `MACEKokkos`: products with the number `N` of atoms and the number `E` of pairs below `2^31`. -/
structure SysFitsK (f : File) (N E : ℕ) : Prop where
  harm : 3 * E * ((f.lmax + 1) * (f.lmax + 1)) < 2 ^ 31
  A0 : N * ((f.lmax + 1) * (f.lmax + 1)) < 2 ^ 31
  M0 : N * ((f.Lmax + 1) * (f.Lmax + 1)) < 2 ^ 31
  phi1r : N * f.couplings.length < 2 ^ 31
  H2 : N * f.numChannels < 2 ^ 31

/-- For the Kokkos pair style with ghost nodes: `N` nodes with `E` pairs, `n` of the nodes are local. -/
structure GhostFitsK (f : File) (N E n : ℕ) : Prop where
  harm : 3 * E * ((f.lmax + 1) * (f.lmax + 1)) < 2 ^ 31
  A0 : N * ((f.lmax + 1) * (f.lmax + 1)) < 2 ^ 31
  M0 : N * ((f.Lmax + 1) * (f.Lmax + 1)) < 2 ^ 31
  phi1r : n * f.couplings.length < 2 ^ 31
  H2 : n * f.numChannels < 2 ^ 31

end Verif.MACE
