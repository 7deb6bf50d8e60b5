import Verif.Model.Num
import Verif.Spec.MACEFile

/-!
# Inputs of the evaluator in an arithmetic without laws
-/

namespace Verif.Num
open Verif.MACE

variable {K : Type}

/-- The interval of a table of `n` nodes with spacing `h` in which `x` is looked up exists: `0 ≤ static_cast<int>(x/h) < n-1`. -/
def IdxIn (A : Arith K) (x h : K) (n : ℕ) : Prop := 0 ≤ A.trunc (A.div x h) ∧ A.trunc (A.div x h) < (n - 1 : ℕ)

/-- The intervals in which the lengths are looked up exist in all tables of the file. -/
def IndexIn (A : Arith K) (φ : ℝ → K) (f : File) (r : List K) : Prop :=
  ∀ x ∈ r, (IdxIn A x (φ f.splH) f.nodes0 ∧ IdxIn A x (φ f.splH) f.nodes1) ∧
    (f.A0scaled = true → ∀ w ∈ f.A0vals, IdxIn A x (φ f.A0h) w.length) ∧ (f.A1scaled = true → ∀ w ∈ f.A1vals, IdxIn A x (φ f.A1h) w.length)

/-- The arguments of `compute_node_energies_forces`: a discrete input and two buffers. -/
def graphOf (T : Sys) (xyz r : List K) : Graph K := ⟨T.N, T.types, T.nn, T.idx, T.ntypes, xyz, r⟩

/-- Energies and forces of successive calls on one object. -/
def runAll [A : Arith K] (zbl : Option (ZBL K)) (P : Params K) : List (Sys × List K × List K) → State K → Option (List (List K × List K))
  | [], _ => some []
  | i :: is, s => do
    let s ← compute zbl P (graphOf i.1 i.2.1 i.2.2) s
    let os ← runAll zbl P is s
    pure ((s.nodeEnergies, s.nodeForces) :: os)

end Verif.Num
