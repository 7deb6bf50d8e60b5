import Verif.Model.MACE
import Verif.Model.Kokkos.Load

/-! # The JSON file between the extraction script and the evaluators

Python: the dictionary `output` of extract_mace_data.py:107-517 as `json.dump` (cli) or `json.dumps` (symmetrix_calc.py) sees it.
C++: nlohmann::json as `load_from_json` uses it (mace.cpp:905-1030, mace_kokkos.cpp:1545-1890).

Simplifications: the text (syntax, indentation, digits of numbers) is left out: values, not characters; numbers are exact.
A Python dictionary with integer keys becomes an object whose keys are the decimal texts (`str`), which is what
`std::to_string` gives.  Objects are lists of entries in the order of insertion; `json::parse` keeps the last of two entries with
the same key, here the first is found: there are no two, `C89_keys`. -/

namespace Verif.JsonModel
open Verif.MACE

/-- A JSON value. -/
inductive Json where
  | null
  | bool (b : Bool)
  | int (z : ℤ)
  | float (x : ℝ)
  | str (s : String)
  | arr (l : List Json)
  | obj (l : List (String × Json))

/-! ## Reading: nlohmann::json.  `none` is an exception (`type_error`). -/

/-- `file["key"]` on an object that is not `const`: a missing key is inserted with value null; also null becomes an object; other
values throw. -/
def Json.field (j : Json) (k : String) : Option Json :=
  match j with
  | .obj l => some ((l.lookup k).getD .null)
  | .null => some .null
  | _ => none

/-- `get<double>`, or conversion to `double`: numbers only. -/
noncomputable def Json.asDouble : Json → Option ℝ
  | .int z => some z
  | .float x => some x
  | _ => none

/-- `get<int>`, or conversion to `int`: numbers (truncated) and booleans. -/
noncomputable def Json.asInt : Json → Option ℤ
  | .int z => some z
  | .float x => some (if 0 ≤ x then ⌊x⌋ else ⌈x⌉)
  | .bool b => some (if b then 1 else 0)
  | _ => none

/-- An `int` that the evaluators use as a size or an index.  Simplification: negative numbers stop here (in the code they are read,
and index arrays later); the script writes none. -/
noncomputable def Json.asNat (j : Json) : Option ℕ := do
  let z ← j.asInt
  if 0 ≤ z then some z.toNat else none

/-- `get<bool>`: booleans only. -/
def Json.asBool : Json → Option Bool
  | .bool b => some b
  | _ => none

/-- `get<std::vector<T>>`: arrays only, every entry converted. -/
def Json.asVec {α : Type} (g : Json → Option α) : Json → Option (List α)
  | .arr l => l.mapM g
  | _ => none

/-- `get<std::map<std::string,T>>`: objects only, every value converted. -/
def Json.asMap {α : Type} (g : Json → Option α) : Json → Option (List (String × α))
  | .obj l => l.mapM (fun p => (g p.2).map (fun v => (p.1, v)))
  | _ => none

/-- `m[std::to_string(i)]` on a `std::map`: a missing key is inserted with an empty value. -/
def entry {α : Type} (m : List (String × List α)) (i : ℕ) : List α := (m.lookup (Nat.repr i)).getD []

/-- `get` of the value of a key. -/
def Json.read {α : Type} (g : Json → Option α) (j : Json) (k : String) : Option α := do
  let v ← j.field k
  g v

/-- What `load_from_json` takes from the file: mace.cpp:911-933, 938-939, 942-943, 948, 951, 954-958, 964-965, 980-985, 995, 998-1002,
1008-1009, 1020-1029 (mace_kokkos.cpp:1550-1572 and the same keys after that), with `r_cut` and `num_elements`.  Simplification: all keys are
read before anything is built (the object is lost anyway when one of them throws). -/
noncomputable def readFile (j : Json) : Option (File × ℝ × ℕ) := do
  let numElements ← j.read Json.asNat "num_elements"
  let numChannels ← j.read Json.asNat "num_channels"
  let rcut ← j.read Json.asDouble "r_cut"
  let lmax ← j.read Json.asNat "l_max"
  let Lmax ← j.read Json.asNat "L_max"
  let atomicNumbers ← j.read (Json.asVec Json.asNat) "atomic_numbers"
  let atomicEnergies ← j.read (Json.asVec Json.asDouble) "atomic_energies"
  let hasZbl ← j.read Json.asBool "has_zbl"
  let zbl ← (if hasZbl then do
      let aExp ← j.read Json.asDouble "zbl_a_exp"
      let aPre ← j.read Json.asDouble "zbl_a_prefactor"
      let c ← j.read (Json.asVec Json.asDouble) "zbl_c"
      let rad ← j.read (Json.asVec Json.asDouble) "zbl_covalent_radii"
      let p ← j.read Json.asInt "zbl_p"
      pure (some ⟨aExp, aPre, c, rad, p⟩)
    else pure none)
  let splH ← j.read Json.asDouble "radial_spline_h"
  let vals0 ← j.read (Json.asVec (Json.asVec (Json.asVec Json.asDouble))) "radial_spline_values_0"
  let ders0 ← j.read (Json.asVec (Json.asVec (Json.asVec Json.asDouble))) "radial_spline_derivs_0"
  let vals1 ← j.read (Json.asVec (Json.asVec (Json.asVec Json.asDouble))) "radial_spline_values_1"
  let ders1 ← j.read (Json.asVec (Json.asVec (Json.asVec Json.asDouble))) "radial_spline_derivs_1"
  let H0w ← j.read (Json.asVec Json.asDouble) "H0_weights"
  let A0w ← j.read (Json.asVec (Json.asVec (Json.asVec Json.asDouble))) "A0_weights"
  let A0scaled ← j.read Json.asBool "A0_scaled"
  let A0 ← (if A0scaled then do
      let h ← j.read Json.asDouble "A0_spline_h"
      let v ← j.read (Json.asVec (Json.asVec Json.asDouble)) "A0_spline_values"
      let d ← j.read (Json.asVec (Json.asVec Json.asDouble)) "A0_spline_derivs"
      pure (h, v, d)
    else pure (0, [], []))
  let M0w ← j.read (Json.asMap (Json.asMap (Json.asMap (Json.asVec Json.asDouble)))) "M0_weights"
  let M0mon ← j.read (Json.asMap (Json.asVec (Json.asVec Json.asNat))) "M0_monomials"
  let H1w ← j.read (Json.asVec Json.asDouble) "H1_weights"
  let phil ← j.read (Json.asVec Json.asNat) "Phi1_l"
  let phil1 ← j.read (Json.asVec Json.asNat) "Phi1_l1"
  let phil2 ← j.read (Json.asVec Json.asNat) "Phi1_l2"
  let philme ← j.read (Json.asVec Json.asNat) "Phi1_lme"
  let cg ← j.read (Json.asVec Json.asDouble) "Phi1_clebsch_gordan"
  let philelm ← j.read (Json.asVec Json.asNat) "Phi1_lelm1lm2"
  let A1w ← j.read (Json.asVec (Json.asVec Json.asDouble)) "A1_weights"
  let A1scaled ← j.read Json.asBool "A1_scaled"
  let A1 ← (if A1scaled then do
      let h ← j.read Json.asDouble "A1_spline_h"
      let v ← j.read (Json.asVec (Json.asVec Json.asDouble)) "A1_spline_values"
      let d ← j.read (Json.asVec (Json.asVec Json.asDouble)) "A1_spline_derivs"
      pure (h, v, d)
    else pure (0, [], []))
  let M1w ← j.read (Json.asMap (Json.asMap (Json.asVec Json.asDouble))) "M1_weights"
  let M1mon ← j.read (Json.asVec (Json.asVec Json.asNat)) "M1_monomials"
  let H2wH1 ← j.read (Json.asVec (Json.asVec Json.asDouble)) "H2_weights_for_H1"
  let H2wM1 ← j.read (Json.asVec Json.asDouble) "H2_weights_for_M1"
  let ro1 ← j.read (Json.asVec Json.asDouble) "readout_1_weights"
  let ro2w1 ← j.read (Json.asVec Json.asDouble) "readout_2_weights_1"
  let ro2w2 ← j.read (Json.asVec Json.asDouble) "readout_2_weights_2"
  let ro2scale ← j.read Json.asDouble "readout_2_scale_factor"
  pure ({ numChannels, lmax, Lmax, atomicNumbers, atomicEnergies, zbl, splH, vals0, ders0, vals1, ders1, H0w, A0w, A0scaled
          A0h := A0.1, A0vals := A0.2.1, A0ders := A0.2.2
          M0w := fun a lm k => entry (entry (entry M0w a) lm) k, M0mon := fun lm => entry M0mon lm
          H1w, phil, phil1, phil2, philme, cg, philelm, A1w, A1scaled, A1h := A1.1, A1vals := A1.2.1, A1ders := A1.2.2
          M1w := fun a k => entry (entry M1w a) k, M1mon, H2wH1, H2wM1, ro1, ro2w1, ro2w2, ro2scale }, rcut, numElements)

/-- `MACE::load_from_json` on the parsed file, with the members `zbl` and `r_cut`. -/
noncomputable def loadCpu (srt : List (List (List ℕ)) → List (List (List ℕ))) (sph : ℝ → ℝ → ℝ → ℕ → ℝ)
    (dsph : ℝ → ℝ → ℝ → ℕ → ℕ → ℝ) (j : Json) : Option ((MACE.Params ℝ × MACE.State ℝ) × Option ZBLModel.ZBL × ℝ) := do
  let q ← readFile j
  let s ← MACE.load srt sph dsph q.1
  pure (s, q.1.zbl, q.2.1)

/-- `MACEKokkos::load_from_json` on the parsed file. -/
noncomputable def loadKokkos (srt : List (List (List ℕ)) → List (List (List ℕ))) (sph : ℝ → ℝ → ℝ → ℕ → ℝ)
    (dsph : ℝ → ℝ → ℝ → ℕ → ℕ → ℝ) (junk : ℕ → ℕ → ℝ) (j : Json) :
    Option ((Kokkos.Params ℝ × Kokkos.State ℝ) × Option ZBLModel.ZBL × ℝ) := do
  let q ← readFile j
  let s ← Kokkos.load srt sph dsph junk q.2.2 q.1
  pure (s, q.1.zbl, q.2.1)

/-! ## Writing: the dictionary `output` -/

/-- A Python list of integers. -/
def ints (l : List ℕ) : Json := .arr (l.map (fun n : ℕ => Json.int n))

/-- A Python list of floats. -/
def floats (l : List ℝ) : Json := .arr (l.map Json.float)

/-- A Python list of values. -/
def listOf {α : Type} (g : α → Json) (l : List α) : Json := .arr (l.map g)

/-- A dictionary `{0: g(0), 1: g(1), ...}` with integer keys. -/
def dictN (n : ℕ) (g : ℕ → Json) : Json := .obj ((List.range n).map (fun i => (Nat.repr i, g i)))

/-- Lines 128-140. -/
def zblEntries (z : Option ZBLModel.ZBL) : List (String × Json) :=
  match z with
  | some z => [("has_zbl", .bool true), ("zbl_a_exp", .float z.aExp), ("zbl_a_prefactor", .float z.aPre), ("zbl_c", floats z.c),
      ("zbl_covalent_radii", floats z.rad), ("zbl_p", .int z.p)]
  | none => [("has_zbl", .bool false)]

/-- Lines 202-226, 387-411. -/
def scaleEntries (k0 k1 k2 k3 : String) (b : Bool) (h : ℝ) (v d : List (List ℝ)) : List (String × Json) :=
  (k0, .bool b) :: if b then [(k1, .float h), (k2, listOf floats v), (k3, listOf floats d)] else []

/-- The entries of `output` in the order of the assignments, extract_mace_data.py:107-517.  The values are those of `fileOf`
(Model/ExtractMACE.lean). -/
def output (rcut : ℝ) (f : File) : List (String × Json) :=
  [("num_channels", .int f.numChannels), ("r_cut", .float rcut), ("l_max", .int f.lmax), ("L_max", .int f.Lmax),
    ("atomic_numbers", ints f.atomicNumbers), ("num_elements", .int f.atomicNumbers.length), ("atomic_energies", floats f.atomicEnergies)] ++
  zblEntries f.zbl ++
  [("radial_spline_h", .float f.splH), ("radial_spline_values_0", listOf (listOf floats) f.vals0),
    ("radial_spline_derivs_0", listOf (listOf floats) f.ders0), ("radial_spline_values_1", listOf (listOf floats) f.vals1),
    ("radial_spline_derivs_1", listOf (listOf floats) f.ders1), ("H0_weights", floats f.H0w)] ++
  scaleEntries "A0_scaled" "A0_spline_h" "A0_spline_values" "A0_spline_derivs" f.A0scaled f.A0h f.A0vals f.A0ders ++
  [("A0_weights", listOf (listOf floats) f.A0w),
    ("M0_weights", dictN f.atomicNumbers.length (fun i => dictN ((f.Lmax + 1) * (f.Lmax + 1)) (fun lm =>
      dictN f.numChannels (fun k => floats (f.M0w i lm k))))),
    ("M0_monomials", dictN ((f.Lmax + 1) * (f.Lmax + 1)) (fun lm => listOf ints (f.M0mon lm))),
    ("H1_weights", floats f.H1w), ("Phi1_l", ints f.phil), ("Phi1_l1", ints f.phil1), ("Phi1_l2", ints f.phil2),
    ("Phi1_lme", ints f.philme), ("Phi1_clebsch_gordan", floats f.cg), ("Phi1_lelm1lm2", ints f.philelm)] ++
  scaleEntries "A1_scaled" "A1_spline_h" "A1_spline_values" "A1_spline_derivs" f.A1scaled f.A1h f.A1vals f.A1ders ++
  [("A1_weights", listOf floats f.A1w),
    ("M1_weights", dictN f.atomicNumbers.length (fun i => dictN f.numChannels (fun k => floats (f.M1w i k)))),
    ("M1_monomials", listOf ints f.M1mon), ("H2_weights_for_H1", listOf floats f.H2wH1), ("H2_weights_for_M1", floats f.H2wM1),
    ("readout_1_weights", floats f.ro1), ("readout_2_weights_1", floats f.ro2w1), ("readout_2_weights_2", floats f.ro2w2),
    ("readout_2_scale_factor", .float f.ro2scale)]

/-- The file written: `json.dump(output, file)`. -/
def written (rcut : ℝ) (f : File) : Json := .obj (output rcut f)

end Verif.JsonModel
