import Verif.Model.Kokkos.PairNoMpi

/-!
# Kokkos pair style: where the per-atom energies are

pair_symmetrix_mace_kokkos.cpp:376-381, 503-510 (592-597, 769-776; 859-864, 1097-1104).  `k_eatom` is a dual view: an array the kernels use
and one on the host, which are the same array if the memories are shared.  The pointer `eatom`, from which LAMMPS (`compute pe/atom`) takes
the energies, points to the array on the host.  `modify` notes that the array of the device changed; only `sync` copies, and the code does
not call it (`k_eatom` is private to the class).  Assumed of LAMMPS: `ev_init` with third argument 0 sets `maxeatom` and changes no array,
`create_kokkos` creates arrays of zeros.
-/

namespace Verif.Kokkos.Pair
open Verif.Lammps

/-- `k_eatom.d_view` and `k_eatom.h_view`. -/
structure DualView where
  dev : List ℝ
  host : List ℝ

/-- `destroy_kokkos` and `create_kokkos` if the view is too small, pair_symmetrix_mace_kokkos.cpp:378-381. -/
def growEatom (maxeatom : ℕ) (fl : Flags) (d : DualView) : DualView :=
  if fl.eAtom ∧ d.dev.length < maxeatom then ⟨List.replicate maxeatom 0, List.replicate maxeatom 0⟩ else d

/-- One of the `compute` functions, `run`, with the arrays of `k_eatom`. -/
def withEatom {β : Type} (shared : Bool) (maxeatom : ℕ) (fl : Flags) (run : Tally → Option (β × Tally)) (d : DualView) (t : Tally) :
    Option (β × DualView × Tally) := do
  let d := growEatom maxeatom fl d
  let r ← run { t with eatom := d.dev }
  let d' : DualView := ⟨r.2.eatom, if shared then r.2.eatom else d.host⟩
  some (r.1, d', { r.2 with eatom := d'.host })

/-- `compute_no_domain_decomposition`. -/
noncomputable def singleEatom (shared : Bool) (maxeatom : ℕ) (V : PEnv) (zbl : Option ZBLModel.ZBL) (P : Params ℝ) (rc : ℝ) (mt : List ℕ)
    (fl : Flags) (A : Atoms) (L : NList) (w : Mem) (s : State ℝ) (d : DualView) (t : Tally) :
    Option ((Mem × State ℝ) × DualView × Tally) :=
  withEatom shared maxeatom fl (fun t => (computeSingle V zbl P rc mt fl A L w s t).map (fun k => ((k.1, k.2.1), k.2.2))) d t

end Verif.Kokkos.Pair
