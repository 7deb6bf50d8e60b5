import Verif.Model.MACE

/-!
# Model of `symmetrix/source/symmetrix/symmetrix_calc.py` (`Symmetrix.calculate`)

With `use_kokkos = False`, i.e. the evaluator is the class `MACE`.  `neighbor_list` (matscipy/ASE) is an input.  A Python exception
is `none`.  numpy's `max`, `bincount` and ASE's `full_3x3_to_voigt_6_stress` are modelled from their documentation; index arrays
hold natural numbers.
-/

namespace Verif.ASE
open Verif.MACE

/-- The arrays `i, j, d, D` returned by `neighbor_list`; `D` flattened. -/
structure Pairs where
  i : List ℕ
  j : List ℕ
  d : List ℝ
  D : List ℝ

/-- Length of the result of `np.bincount(l, minlength=m)`. -/
def binLength (l : List ℕ) (m : ℕ) : ℕ :=
  match l.max? with
  | some x => max m (x + 1)
  | none => m

/-- `np.bincount(l, minlength=m)`. -/
def bincount (l : List ℕ) (m : ℕ) : List ℕ := tab (binLength l m) (fun k => l.count k)

/-- `np.bincount(l, weights=w, minlength=m)`; different lengths raise an exception. -/
noncomputable def bincountW (l : List ℕ) (w : List ℝ) (m : ℕ) : Option (List ℝ) :=
  if l.length = w.length then
    some (tab (binLength l m) (fun k => (((l.zip w).filter (fun p => p.1 == k)).map Prod.snd).sum))
  else none

/-- `mace_atomic_numbers.index(ase_atomic_numbers[a])`, symmetrix_calc.py:79,81. -/
def typeOf (mace ase : List ℕ) (a : ℕ) : Option ℕ := do
  let Z ← ase[a]?
  mace.findIdx? (· == Z)

/-- The list comprehensions, symmetrix_calc.py:79,81. -/
def typesOf (mace ase : List ℕ) : List ℕ → Option (List ℕ)
  | [] => some []
  | a :: l => do
    let t ← typeOf mace ase a
    let r ← typesOf mace ase l
    some (t :: r)

/-- Column `c` of `pair_forces`, symmetrix_calc.py:88-89. (`reshape` needs a multiple of three.) -/
def column (F : List ℝ) (n c : ℕ) : Option (List ℝ) :=
  if F.length % 3 = 0 then some ((List.range (min n (F.length / 3))).map (fun e => F.getD (3 * e + c) 0)) else none

/-- One column of `atom_forces`, symmetrix_calc.py:95-97; assigning a column of another length raises an exception. -/
noncomputable def forceColumn (i j : List ℕ) (pf : List ℝ) (N : ℕ) : Option (List ℝ) := do
  let bj ← bincountW j pf N
  let bi ← bincountW i pf N
  if bj.length = N ∧ bi.length = N then some (tab N (fun a => bj.getD a 0 - bi.getD a 0)) else none

/-- Entry `a b` of `(-pair_forces.T @ xyz) / volume`, symmetrix_calc.py:102. -/
noncomputable def stressEntry (pf : List ℝ) (D : List ℝ) (V : ℝ) (b : ℕ) : ℝ :=
  (∑ e ∈ Finset.range pf.length, -pf.getD e 0 * D.getD (3 * e + b) 0) / V

/-- ASE's `full_3x3_to_voigt_6_stress`: order xx, yy, zz, yz, xz, xy, off-diagonal entries averaged. -/
noncomputable def toVoigt (M : ℕ → ℕ → ℝ) : List ℝ :=
  [M 0 0, M 1 1, M 2 2, (M 1 2 + M 2 1) / 2, (M 0 2 + M 2 0) / 2, (M 0 1 + M 1 0) / 2]

/-- `self.results`. -/
structure Results where
  energy : ℝ
  energies : List ℝ
  forces : List (List ℝ)
  stress : List ℝ

/-- The arguments for the evaluator, symmetrix_calc.py:75-83. -/
noncomputable def arguments (mace ase : List ℕ) (nl : Pairs) : Option (Graph ℝ) := do
  let m ← nl.i.max?
  let N := m + 1
  let types ← typesOf mace ase (List.range N)
  let nn := bincount nl.j N
  let ntypes ← typesOf mace ase nl.j
  some ⟨N, types, nn, nl.j, ntypes, nl.D, nl.d⟩

/-- `calculate`, symmetrix_calc.py:72-102; `forces` holds the three columns. -/
noncomputable def calculate (zbl : Option ZBLModel.ZBL) (P : Params ℝ) (ase : List ℕ) (V : ℝ) (nl : Pairs) (s : State ℝ) :
    Option (State ℝ × Results) := do
  let g ← arguments P.atomicNumbers ase nl
  let s ← computeNodeEnergiesForces zbl P g s
  let p0 ← column s.nodeForces nl.i.length 0
  let p1 ← column s.nodeForces nl.i.length 1
  let p2 ← column s.nodeForces nl.i.length 2
  let f0 ← forceColumn nl.i nl.j p0 ase.length
  let f1 ← forceColumn nl.i nl.j p1 ase.length
  let f2 ← forceColumn nl.i nl.j p2 ase.length
  let M := fun a b => stressEntry (if a = 0 then p0 else if a = 1 then p1 else p2) nl.D V b
  some (s, ⟨s.nodeEnergies.sum, s.nodeEnergies, [f0, f1, f2], toVoigt M⟩)

end Verif.ASE
