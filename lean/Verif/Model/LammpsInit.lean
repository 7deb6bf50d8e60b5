import Verif.Model.Lammps

/-!
# LAMMPS pair style: initialisation

`allocate`, the flags set by `coeff`, `init_one`, `init_style`: pair_symmetrix_mace.cpp:79-89, 150-152, 159-164, 170-190 (same in
pair_symmetrix_mace_kokkos.cpp:94-104, 170-172, 180-185, 192-218, apart from the Kokkos attributes of the neighbour request, which are not
modelled).  `double` is `ℝ`.  LAMMPS itself is not in the repository; what is assumed of it is marked as such.
-/

namespace Verif.Lammps

/-- What the pair style reads and changes in LAMMPS: `atom->map_user != MAP_NONE`, `force->newton_pair`, `comm->cutghostuser`
(set by `comm_modify cutoff`, 0 if not given), `neighbor->cutneighmax`, `neighbor->skin`. -/
structure Lmp where
  hasMap : Bool
  newton : Bool
  ghostUser : ℝ
  neighMax : ℝ
  skin : ℝ

/-- Assumed of LAMMPS: `Comm::get_comm_cutoff` returns the larger of the user's cutoff and the largest neighbour cutoff. -/
noncomputable def Lmp.commCutoff (s : Lmp) : ℝ := max s.ghostUser s.neighMax

/-- Assumed of LAMMPS: after the pair style was initialised, `Neighbor::init` sets `cutneighmax` to the largest cutoff of all pair styles
plus the skin. -/
noncomputable def Lmp.neighborInit (cut : ℝ) (s : Lmp) : Lmp := { s with neighMax := cut + s.skin }

/-- The flags of a neighbour request: `REQ_FULL`, `REQ_GHOST`. -/
structure Request where
  full : Bool
  ghost : Bool
deriving DecidableEq

/-- `std::to_string` of a `double` (six decimals), read back by `comm->modify_params`; `rnd` rounds to an integer. -/
noncomputable def sixDecimals (rnd : ℝ → ℤ) (x : ℝ) : ℝ := rnd (x * 10 ^ 6) / 10 ^ 6

open Classical in
/-- `init_style`, pair_symmetrix_mace.cpp:170-190. -/
noncomputable def initStyle (rnd : ℝ → ℤ) (mode : String) (rc : ℝ) (s : Lmp) : Option (Lmp × Request) :=
  if !s.hasMap then none
  else if !s.newton then none
  else if mode = "no_domain_decomposition" ∨ mode = "mpi_message_passing" then some (s, ⟨true, false⟩)
  else
    let s' := if s.commCutoff < 2 * rc + s.skin then { s with ghostUser := sixDecimals rnd (2 * rc + s.skin) } else s
    some (s', ⟨true, true⟩)

/-- Start of a run: `init_style`, then (LAMMPS) the neighbour cutoffs; `cut` is the largest cutoff of all pair styles. -/
noncomputable def initRun (rnd : ℝ → ℤ) (mode : String) (rc cut : ℝ) (s : Lmp) : Option (Lmp × Request) := do
  let (s', r) ← initStyle rnd mode rc s
  some (s'.neighborInit cut, r)

/-- The two nested loops over `setflag[i][j]`, `1 ≤ i ≤ j ≤ ntypes`: pair_symmetrix_mace.cpp:84-86 and 150-152. -/
def flagLoop (v : ℤ) (nt : ℕ) (flag : ℕ → ℕ → ℤ) : ℕ → ℕ → ℤ :=
  (List.range' 1 nt).foldl (fun fl i =>
    (List.range' i (nt + 1 - i)).foldl (fun fl j => Function.update fl i (Function.update (fl i) j v)) fl) flag

/-- `allocate`, pair_symmetrix_mace.cpp:79-89: `memory->create` returns uninitialised memory `mem`; `cutsq` is filled by LAMMPS. -/
def allocate (nt : ℕ) (mem : ℕ → ℕ → ℤ) : ℕ → ℕ → ℤ := flagLoop 0 nt mem

/-- What `coeff` does to the flags, pair_symmetrix_mace.cpp:117, 150-152; `none`: not allocated. -/
def coeffFlags (nt : ℕ) (mem : ℕ → ℕ → ℤ) (flag : Option (ℕ → ℕ → ℤ)) : ℕ → ℕ → ℤ := flagLoop 1 nt (flag.getD (allocate nt mem))

/-- `init_one`, pair_symmetrix_mace.cpp:159-164. -/
def initOne {K : Type} (rc : K) (flag : ℕ → ℕ → ℤ) (i j : ℕ) : Option K := if flag i j = 0 then none else some rc

end Verif.Lammps
