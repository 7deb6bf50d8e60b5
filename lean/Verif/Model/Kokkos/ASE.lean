import Verif.Model.ASE
import Verif.Model.Kokkos.Eval

/-!
# Model of `symmetrix/source/symmetrix/symmetrix_calc.py` with `use_kokkos = True` (the default)

The evaluator is `MACEKokkos` (double precision).  Reading `evaluator.node_energies` or `evaluator.node_forces` copies the whole view
(symmetrix/source/cpp/mace_kokkos.cpp:22-35, `view2vector`); the arguments are copied into views
(mace_kokkos.cpp:38-58, `create_kokkos_view`), which the model passes as lists.
-/

namespace Verif.ASE

/-- `calculate` with a Kokkos evaluator in environment `E`, symmetrix_calc.py:72-102. -/
noncomputable def calculateK (E : Kokkos.Env ℝ) (zbl : Option ZBLModel.ZBL) (P : Kokkos.Params ℝ) (ase : List ℕ) (V : ℝ) (nl : Pairs)
    (s : Kokkos.State ℝ) : Option (Kokkos.State ℝ × Results) := do
  let g ← arguments P.atomicNumbers ase nl
  let s ← Kokkos.compute E P zbl g s
  let p0 ← column s.forces.data nl.i.length 0
  let p1 ← column s.forces.data nl.i.length 1
  let p2 ← column s.forces.data nl.i.length 2
  let f0 ← forceColumn nl.i nl.j p0 ase.length
  let f1 ← forceColumn nl.i nl.j p1 ase.length
  let f2 ← forceColumn nl.i nl.j p2 ase.length
  let M := fun a b => stressEntry (if a = 0 then p0 else if a = 1 then p1 else p2) nl.D V b
  some (s, ⟨s.energies.data.sum, s.energies.data, [f0, f1, f2], toVoigt M⟩)

end Verif.ASE
