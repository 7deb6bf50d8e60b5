import Verif.Model.Json
import Std.Data.String.ToNat

/-! # Lemmas: reading what was written -/

namespace Verif.JsonModel
open Verif.MACE

theorem mapM_map {α β : Type} {g : β → Option α} {h : α → β} (H : ∀ x, g (h x) = some x) (l : List α) :
    (l.map h).mapM g = some l := by
  induction l with
  | nil => rfl
  | cons a l ih => rw [List.map_cons, List.mapM_cons, H, ih]; rfl

theorem asNat_int (n : ℕ) : (Json.int n).asNat = some n := by
  simp [Json.asNat, Json.asInt]

theorem asVec_listOf {α : Type} {g : Json → Option α} {h : α → Json} (H : ∀ x, g (h x) = some x) (l : List α) :
    Json.asVec g (listOf h l) = some l := mapM_map H l

theorem asVec_floats (l : List ℝ) : Json.asVec Json.asDouble (floats l) = some l :=
  asVec_listOf (g := Json.asDouble) (h := Json.float) (fun _ => rfl) l

theorem asVec_ints (l : List ℕ) : Json.asVec Json.asNat (ints l) = some l :=
  asVec_listOf (g := Json.asNat) (h := fun n => Json.int n) asNat_int l

theorem lookup_dict {α : Type} (n i : ℕ) (g : ℕ → α) :
    ((List.range n).map (fun i => (Nat.repr i, g i))).lookup (Nat.repr i) = if i < n then some (g i) else none := by
  have key : ∀ l : List ℕ, (l.map (fun i => (Nat.repr i, g i))).lookup (Nat.repr i) = if i ∈ l then some (g i) else none := by
    intro l
    induction l with
    | nil => rfl
    | cons a l ih =>
      rw [List.map_cons, List.lookup_cons, ih]
      by_cases h : i = a
      · subst h; simp
      · have : ¬ (Nat.repr i == Nat.repr a) = true := by
          rw [beq_iff_eq, Nat.repr_inj]; exact h
        simp [this, h]
  rw [key]
  simp only [List.mem_range]

theorem asMap_dict {α : Type} {g : Json → Option α} {v : ℕ → α} {h : ℕ → Json} (n : ℕ) (H : ∀ i, g (h i) = some (v i)) :
    Json.asMap g (dictN n h) = some ((List.range n).map (fun i => (Nat.repr i, v i))) := by
  unfold Json.asMap dictN
  simp only
  induction List.range n with
  | nil => rfl
  | cons a l ih => rw [List.map_cons, List.mapM_cons, ih]; simp only [H]; rfl

theorem entry_dict {α : Type} (n i : ℕ) (g : ℕ → List α) :
    entry ((List.range n).map (fun i => (Nat.repr i, g i))) i = if i < n then g i else [] := by
  unfold entry
  rw [lookup_dict]
  split_ifs <;> rfl

/-- The parts of the file that are written (the functions of `File` are written for the indices in use). -/
def kept (f : File) : File :=
  { f with
    A0h := if f.A0scaled then f.A0h else 0
    A0vals := if f.A0scaled then f.A0vals else []
    A0ders := if f.A0scaled then f.A0ders else []
    M0w := fun a lm k => if a < f.atomicNumbers.length ∧ lm < (f.Lmax + 1) * (f.Lmax + 1) ∧ k < f.numChannels then f.M0w a lm k else []
    M0mon := fun lm => if lm < (f.Lmax + 1) * (f.Lmax + 1) then f.M0mon lm else []
    A1h := if f.A1scaled then f.A1h else 0
    A1vals := if f.A1scaled then f.A1vals else []
    A1ders := if f.A1scaled then f.A1ders else []
    M1w := fun a k => if a < f.atomicNumbers.length ∧ k < f.numChannels then f.M1w a k else [] }

theorem read_mk {α : Type} {g : Json → Option α} {l : List (String × Json)} {k : String} {v : Json} (h : l.lookup k = some v) :
    (Json.obj l).read g k = g v := by
  unfold Json.read Json.field
  simp only [h]
  rfl

section
variable {rcut : ℝ} {f : File}

theorem L3 (l : List (List (List ℝ))) : Json.asVec (Json.asVec (Json.asVec Json.asDouble)) (listOf (listOf floats) l) = some l :=
  asVec_listOf (fun x => asVec_listOf asVec_floats x) l

theorem L2 (l : List (List ℝ)) : Json.asVec (Json.asVec Json.asDouble) (listOf floats l) = some l := asVec_listOf asVec_floats l

theorem I2 (l : List (List ℕ)) : Json.asVec (Json.asVec Json.asNat) (listOf ints l) = some l := asVec_listOf asVec_ints l

/-- The value of a key that is always there. -/
theorem read_key {α : Type} {g : Json → Option α} {k : String} {v : Json} (h : (output rcut f).lookup k = some v) :
    (written rcut f).read g k = g v := read_mk h

theorem r_num_elements : (written rcut f).read Json.asNat "num_elements" = some f.atomicNumbers.length := by
  refine (read_key (v := .int f.atomicNumbers.length) ?_).trans (asNat_int _)
  unfold output zblEntries scaleEntries
  cases f.zbl <;> cases f.A0scaled <;> cases f.A1scaled <;> rfl

theorem r_num_channels : (written rcut f).read Json.asNat "num_channels" = some f.numChannels := by
  refine (read_key (v := .int f.numChannels) ?_).trans (asNat_int _)
  unfold output zblEntries scaleEntries
  cases f.zbl <;> cases f.A0scaled <;> cases f.A1scaled <;> rfl

theorem r_r_cut : (written rcut f).read Json.asDouble "r_cut" = some rcut := by
  refine (read_key (v := .float rcut) ?_).trans (rfl)
  unfold output zblEntries scaleEntries
  cases f.zbl <;> cases f.A0scaled <;> cases f.A1scaled <;> rfl

theorem r_l_max : (written rcut f).read Json.asNat "l_max" = some f.lmax := by
  refine (read_key (v := .int f.lmax) ?_).trans (asNat_int _)
  unfold output zblEntries scaleEntries
  cases f.zbl <;> cases f.A0scaled <;> cases f.A1scaled <;> rfl

theorem r_L_max : (written rcut f).read Json.asNat "L_max" = some f.Lmax := by
  refine (read_key (v := .int f.Lmax) ?_).trans (asNat_int _)
  unfold output zblEntries scaleEntries
  cases f.zbl <;> cases f.A0scaled <;> cases f.A1scaled <;> rfl

theorem r_atomic_numbers : (written rcut f).read (Json.asVec Json.asNat) "atomic_numbers" = some f.atomicNumbers := by
  refine (read_key (v := ints f.atomicNumbers) ?_).trans (asVec_ints _)
  unfold output zblEntries scaleEntries
  cases f.zbl <;> cases f.A0scaled <;> cases f.A1scaled <;> rfl

theorem r_atomic_energies : (written rcut f).read (Json.asVec Json.asDouble) "atomic_energies" = some f.atomicEnergies := by
  refine (read_key (v := floats f.atomicEnergies) ?_).trans (asVec_floats _)
  unfold output zblEntries scaleEntries
  cases f.zbl <;> cases f.A0scaled <;> cases f.A1scaled <;> rfl

theorem r_has_zbl : (written rcut f).read Json.asBool "has_zbl" = some f.zbl.isSome := by
  refine (read_key (v := .bool f.zbl.isSome) ?_).trans (rfl)
  unfold output zblEntries scaleEntries
  cases f.zbl <;> cases f.A0scaled <;> cases f.A1scaled <;> rfl

theorem r_radial_spline_h : (written rcut f).read Json.asDouble "radial_spline_h" = some f.splH := by
  refine (read_key (v := .float f.splH) ?_).trans (rfl)
  unfold output zblEntries scaleEntries
  cases f.zbl <;> cases f.A0scaled <;> cases f.A1scaled <;> rfl

theorem r_radial_spline_values_0 : (written rcut f).read (Json.asVec (Json.asVec (Json.asVec Json.asDouble))) "radial_spline_values_0" = some f.vals0 := by
  refine (read_key (v := listOf (listOf floats) f.vals0) ?_).trans (L3 _)
  unfold output zblEntries scaleEntries
  cases f.zbl <;> cases f.A0scaled <;> cases f.A1scaled <;> rfl

theorem r_radial_spline_derivs_0 : (written rcut f).read (Json.asVec (Json.asVec (Json.asVec Json.asDouble))) "radial_spline_derivs_0" = some f.ders0 := by
  refine (read_key (v := listOf (listOf floats) f.ders0) ?_).trans (L3 _)
  unfold output zblEntries scaleEntries
  cases f.zbl <;> cases f.A0scaled <;> cases f.A1scaled <;> rfl

theorem r_radial_spline_values_1 : (written rcut f).read (Json.asVec (Json.asVec (Json.asVec Json.asDouble))) "radial_spline_values_1" = some f.vals1 := by
  refine (read_key (v := listOf (listOf floats) f.vals1) ?_).trans (L3 _)
  unfold output zblEntries scaleEntries
  cases f.zbl <;> cases f.A0scaled <;> cases f.A1scaled <;> rfl

theorem r_radial_spline_derivs_1 : (written rcut f).read (Json.asVec (Json.asVec (Json.asVec Json.asDouble))) "radial_spline_derivs_1" = some f.ders1 := by
  refine (read_key (v := listOf (listOf floats) f.ders1) ?_).trans (L3 _)
  unfold output zblEntries scaleEntries
  cases f.zbl <;> cases f.A0scaled <;> cases f.A1scaled <;> rfl

theorem r_H0_weights : (written rcut f).read (Json.asVec Json.asDouble) "H0_weights" = some f.H0w := by
  refine (read_key (v := floats f.H0w) ?_).trans (asVec_floats _)
  unfold output zblEntries scaleEntries
  cases f.zbl <;> cases f.A0scaled <;> cases f.A1scaled <;> rfl

theorem r_A0_weights : (written rcut f).read (Json.asVec (Json.asVec (Json.asVec Json.asDouble))) "A0_weights" = some f.A0w := by
  refine (read_key (v := listOf (listOf floats) f.A0w) ?_).trans (L3 _)
  unfold output zblEntries scaleEntries
  cases f.zbl <;> cases f.A0scaled <;> cases f.A1scaled <;> rfl

theorem r_A0_scaled : (written rcut f).read Json.asBool "A0_scaled" = some f.A0scaled := by
  refine (read_key (v := .bool f.A0scaled) ?_).trans (rfl)
  unfold output zblEntries scaleEntries
  cases f.zbl <;> cases f.A0scaled <;> cases f.A1scaled <;> rfl

theorem r_M0_weights : (written rcut f).read (Json.asMap (Json.asMap (Json.asMap (Json.asVec Json.asDouble)))) "M0_weights" = some ((List.range f.atomicNumbers.length).map (fun i => (Nat.repr i, (List.range ((f.Lmax + 1) * (f.Lmax + 1))).map (fun lm => (Nat.repr lm, (List.range f.numChannels).map (fun k => (Nat.repr k, f.M0w i lm k))))))) := by
  refine (read_key (v := dictN f.atomicNumbers.length (fun i => dictN ((f.Lmax + 1) * (f.Lmax + 1)) (fun lm => dictN f.numChannels (fun k => floats (f.M0w i lm k))))) ?_).trans (asMap_dict _ (fun _ => asMap_dict _ (fun _ => asMap_dict _ (fun _ => asVec_floats _))))
  unfold output zblEntries scaleEntries
  cases f.zbl <;> cases f.A0scaled <;> cases f.A1scaled <;> rfl

theorem r_M0_monomials : (written rcut f).read (Json.asMap (Json.asVec (Json.asVec Json.asNat))) "M0_monomials" = some ((List.range ((f.Lmax + 1) * (f.Lmax + 1))).map (fun lm => (Nat.repr lm, f.M0mon lm))) := by
  refine (read_key (v := dictN ((f.Lmax + 1) * (f.Lmax + 1)) (fun lm => listOf ints (f.M0mon lm))) ?_).trans (asMap_dict _ (fun _ => I2 _))
  unfold output zblEntries scaleEntries
  cases f.zbl <;> cases f.A0scaled <;> cases f.A1scaled <;> rfl

theorem r_H1_weights : (written rcut f).read (Json.asVec Json.asDouble) "H1_weights" = some f.H1w := by
  refine (read_key (v := floats f.H1w) ?_).trans (asVec_floats _)
  unfold output zblEntries scaleEntries
  cases f.zbl <;> cases f.A0scaled <;> cases f.A1scaled <;> rfl

theorem r_Phi1_l : (written rcut f).read (Json.asVec Json.asNat) "Phi1_l" = some f.phil := by
  refine (read_key (v := ints f.phil) ?_).trans (asVec_ints _)
  unfold output zblEntries scaleEntries
  cases f.zbl <;> cases f.A0scaled <;> cases f.A1scaled <;> rfl

theorem r_Phi1_l1 : (written rcut f).read (Json.asVec Json.asNat) "Phi1_l1" = some f.phil1 := by
  refine (read_key (v := ints f.phil1) ?_).trans (asVec_ints _)
  unfold output zblEntries scaleEntries
  cases f.zbl <;> cases f.A0scaled <;> cases f.A1scaled <;> rfl

theorem r_Phi1_l2 : (written rcut f).read (Json.asVec Json.asNat) "Phi1_l2" = some f.phil2 := by
  refine (read_key (v := ints f.phil2) ?_).trans (asVec_ints _)
  unfold output zblEntries scaleEntries
  cases f.zbl <;> cases f.A0scaled <;> cases f.A1scaled <;> rfl

theorem r_Phi1_lme : (written rcut f).read (Json.asVec Json.asNat) "Phi1_lme" = some f.philme := by
  refine (read_key (v := ints f.philme) ?_).trans (asVec_ints _)
  unfold output zblEntries scaleEntries
  cases f.zbl <;> cases f.A0scaled <;> cases f.A1scaled <;> rfl

theorem r_Phi1_clebsch_gordan : (written rcut f).read (Json.asVec Json.asDouble) "Phi1_clebsch_gordan" = some f.cg := by
  refine (read_key (v := floats f.cg) ?_).trans (asVec_floats _)
  unfold output zblEntries scaleEntries
  cases f.zbl <;> cases f.A0scaled <;> cases f.A1scaled <;> rfl

theorem r_Phi1_lelm1lm2 : (written rcut f).read (Json.asVec Json.asNat) "Phi1_lelm1lm2" = some f.philelm := by
  refine (read_key (v := ints f.philelm) ?_).trans (asVec_ints _)
  unfold output zblEntries scaleEntries
  cases f.zbl <;> cases f.A0scaled <;> cases f.A1scaled <;> rfl

theorem r_A1_weights : (written rcut f).read (Json.asVec (Json.asVec Json.asDouble)) "A1_weights" = some f.A1w := by
  refine (read_key (v := listOf floats f.A1w) ?_).trans (L2 _)
  unfold output zblEntries scaleEntries
  cases f.zbl <;> cases f.A0scaled <;> cases f.A1scaled <;> rfl

theorem r_A1_scaled : (written rcut f).read Json.asBool "A1_scaled" = some f.A1scaled := by
  refine (read_key (v := .bool f.A1scaled) ?_).trans (rfl)
  unfold output zblEntries scaleEntries
  cases f.zbl <;> cases f.A0scaled <;> cases f.A1scaled <;> rfl

theorem r_M1_weights : (written rcut f).read (Json.asMap (Json.asMap (Json.asVec Json.asDouble))) "M1_weights" = some ((List.range f.atomicNumbers.length).map (fun i => (Nat.repr i, (List.range f.numChannels).map (fun k => (Nat.repr k, f.M1w i k))))) := by
  refine (read_key (v := dictN f.atomicNumbers.length (fun i => dictN f.numChannels (fun k => floats (f.M1w i k)))) ?_).trans (asMap_dict _ (fun _ => asMap_dict _ (fun _ => asVec_floats _)))
  unfold output zblEntries scaleEntries
  cases f.zbl <;> cases f.A0scaled <;> cases f.A1scaled <;> rfl

theorem r_M1_monomials : (written rcut f).read (Json.asVec (Json.asVec Json.asNat)) "M1_monomials" = some f.M1mon := by
  refine (read_key (v := listOf ints f.M1mon) ?_).trans (I2 _)
  unfold output zblEntries scaleEntries
  cases f.zbl <;> cases f.A0scaled <;> cases f.A1scaled <;> rfl

theorem r_H2_weights_for_H1 : (written rcut f).read (Json.asVec (Json.asVec Json.asDouble)) "H2_weights_for_H1" = some f.H2wH1 := by
  refine (read_key (v := listOf floats f.H2wH1) ?_).trans (L2 _)
  unfold output zblEntries scaleEntries
  cases f.zbl <;> cases f.A0scaled <;> cases f.A1scaled <;> rfl

theorem r_H2_weights_for_M1 : (written rcut f).read (Json.asVec Json.asDouble) "H2_weights_for_M1" = some f.H2wM1 := by
  refine (read_key (v := floats f.H2wM1) ?_).trans (asVec_floats _)
  unfold output zblEntries scaleEntries
  cases f.zbl <;> cases f.A0scaled <;> cases f.A1scaled <;> rfl

theorem r_readout_1_weights : (written rcut f).read (Json.asVec Json.asDouble) "readout_1_weights" = some f.ro1 := by
  refine (read_key (v := floats f.ro1) ?_).trans (asVec_floats _)
  unfold output zblEntries scaleEntries
  cases f.zbl <;> cases f.A0scaled <;> cases f.A1scaled <;> rfl

theorem r_readout_2_weights_1 : (written rcut f).read (Json.asVec Json.asDouble) "readout_2_weights_1" = some f.ro2w1 := by
  refine (read_key (v := floats f.ro2w1) ?_).trans (asVec_floats _)
  unfold output zblEntries scaleEntries
  cases f.zbl <;> cases f.A0scaled <;> cases f.A1scaled <;> rfl

theorem r_readout_2_weights_2 : (written rcut f).read (Json.asVec Json.asDouble) "readout_2_weights_2" = some f.ro2w2 := by
  refine (read_key (v := floats f.ro2w2) ?_).trans (asVec_floats _)
  unfold output zblEntries scaleEntries
  cases f.zbl <;> cases f.A0scaled <;> cases f.A1scaled <;> rfl

theorem r_readout_2_scale_factor : (written rcut f).read Json.asDouble "readout_2_scale_factor" = some f.ro2scale := by
  refine (read_key (v := .float f.ro2scale) ?_).trans (rfl)
  unfold output zblEntries scaleEntries
  cases f.zbl <;> cases f.A0scaled <;> cases f.A1scaled <;> rfl

theorem r_zbl {z : ZBLModel.ZBL} (h : f.zbl = some z) :
    (written rcut f).read Json.asDouble "zbl_a_exp" = some z.aExp ∧ (written rcut f).read Json.asDouble "zbl_a_prefactor" = some z.aPre ∧
    (written rcut f).read (Json.asVec Json.asDouble) "zbl_c" = some z.c ∧
    (written rcut f).read (Json.asVec Json.asDouble) "zbl_covalent_radii" = some z.rad ∧
    (written rcut f).read Json.asInt "zbl_p" = some z.p := by
  refine ⟨(read_key (v := .float z.aExp) ?_).trans rfl, (read_key (v := .float z.aPre) ?_).trans rfl,
    (read_key (v := floats z.c) ?_).trans (asVec_floats _), (read_key (v := floats z.rad) ?_).trans (asVec_floats _),
    (read_key (v := .int z.p) ?_).trans rfl⟩ <;>
  · unfold output zblEntries
    rw [h]
    rfl

theorem r_A0 (h : f.A0scaled = true) :
    (written rcut f).read Json.asDouble "A0_spline_h" = some f.A0h ∧
    (written rcut f).read (Json.asVec (Json.asVec Json.asDouble)) "A0_spline_values" = some f.A0vals ∧
    (written rcut f).read (Json.asVec (Json.asVec Json.asDouble)) "A0_spline_derivs" = some f.A0ders := by
  refine ⟨(read_key (v := .float f.A0h) ?_).trans rfl, (read_key (v := listOf floats f.A0vals) ?_).trans (L2 _),
    (read_key (v := listOf floats f.A0ders) ?_).trans (L2 _)⟩ <;>
  · unfold output zblEntries scaleEntries
    rw [h]
    cases f.zbl <;> cases f.A1scaled <;> rfl

theorem r_A1 (h : f.A1scaled = true) :
    (written rcut f).read Json.asDouble "A1_spline_h" = some f.A1h ∧
    (written rcut f).read (Json.asVec (Json.asVec Json.asDouble)) "A1_spline_values" = some f.A1vals ∧
    (written rcut f).read (Json.asVec (Json.asVec Json.asDouble)) "A1_spline_derivs" = some f.A1ders := by
  refine ⟨(read_key (v := .float f.A1h) ?_).trans rfl, (read_key (v := listOf floats f.A1vals) ?_).trans (L2 _),
    (read_key (v := listOf floats f.A1ders) ?_).trans (L2 _)⟩ <;>
  · unfold output zblEntries scaleEntries
    rw [h]
    cases f.zbl <;> cases f.A0scaled <;> rfl

/-- Reading an object that differs from the written one at most in the coefficients `M0_weights`. -/
theorem readFile_of {j : Json} {m : List (String × List (String × List (String × List ℝ)))}
    (H : ∀ {α : Type} (g : Json → Option α) (k : String), k ≠ "M0_weights" → j.read g k = (written rcut f).read g k)
    (hM : j.read (Json.asMap (Json.asMap (Json.asMap (Json.asVec Json.asDouble)))) "M0_weights" = some m) :
    readFile j = some ({ kept f with M0w := fun a lm k => entry (entry (entry m a) lm) k }, rcut, f.atomicNumbers.length) := by
  unfold readFile
  simp only [H _ "num_elements" (by decide),
    H _ "num_channels" (by decide),
    H _ "r_cut" (by decide),
    H _ "l_max" (by decide),
    H _ "L_max" (by decide),
    H _ "atomic_numbers" (by decide),
    H _ "atomic_energies" (by decide),
    H _ "has_zbl" (by decide),
    H _ "radial_spline_h" (by decide),
    H _ "radial_spline_values_0" (by decide),
    H _ "radial_spline_derivs_0" (by decide),
    H _ "radial_spline_values_1" (by decide),
    H _ "radial_spline_derivs_1" (by decide),
    H _ "H0_weights" (by decide),
    H _ "A0_weights" (by decide),
    H _ "A0_scaled" (by decide),
    H _ "M0_monomials" (by decide),
    H _ "H1_weights" (by decide),
    H _ "Phi1_l" (by decide),
    H _ "Phi1_l1" (by decide),
    H _ "Phi1_l2" (by decide),
    H _ "Phi1_lme" (by decide),
    H _ "Phi1_clebsch_gordan" (by decide),
    H _ "Phi1_lelm1lm2" (by decide),
    H _ "A1_weights" (by decide),
    H _ "A1_scaled" (by decide),
    H _ "M1_weights" (by decide),
    H _ "M1_monomials" (by decide),
    H _ "H2_weights_for_H1" (by decide),
    H _ "H2_weights_for_M1" (by decide),
    H _ "readout_1_weights" (by decide),
    H _ "readout_2_weights_1" (by decide),
    H _ "readout_2_weights_2" (by decide),
    H _ "readout_2_scale_factor" (by decide),
    H _ "zbl_a_exp" (by decide),
    H _ "zbl_a_prefactor" (by decide),
    H _ "zbl_c" (by decide),
    H _ "zbl_covalent_radii" (by decide),
    H _ "zbl_p" (by decide),
    H _ "A0_spline_h" (by decide),
    H _ "A0_spline_values" (by decide),
    H _ "A0_spline_derivs" (by decide),
    H _ "A1_spline_h" (by decide),
    H _ "A1_spline_values" (by decide),
    H _ "A1_spline_derivs" (by decide)]
  simp only [r_num_elements, r_num_channels, r_r_cut, r_l_max, r_L_max, r_atomic_numbers, r_atomic_energies, r_has_zbl, r_radial_spline_h, r_radial_spline_values_0, r_radial_spline_derivs_0, r_radial_spline_values_1, r_radial_spline_derivs_1, r_H0_weights, r_A0_weights, r_A0_scaled, hM, r_M0_monomials, r_H1_weights, r_Phi1_l, r_Phi1_l1, r_Phi1_l2, r_Phi1_lme, r_Phi1_clebsch_gordan, r_Phi1_lelm1lm2, r_A1_weights, r_A1_scaled, r_M1_weights, r_M1_monomials, r_H2_weights_for_H1, r_H2_weights_for_M1, r_readout_1_weights, r_readout_2_weights_1, r_readout_2_weights_2, r_readout_2_scale_factor, Option.bind_eq_bind, Option.bind_some]
  have hz : (if f.zbl.isSome = true then do
      let aExp ← (written rcut f).read Json.asDouble "zbl_a_exp"
      let aPre ← (written rcut f).read Json.asDouble "zbl_a_prefactor"
      let c ← (written rcut f).read (Json.asVec Json.asDouble) "zbl_c"
      let rad ← (written rcut f).read (Json.asVec Json.asDouble) "zbl_covalent_radii"
      let p ← (written rcut f).read Json.asInt "zbl_p"
      pure (some (⟨aExp, aPre, c, rad, p⟩ : ZBLModel.ZBL))
    else pure none) = some f.zbl := by
    cases h : f.zbl with
    | none => rfl
    | some z =>
      obtain ⟨h1, h2, h3, h4, h5⟩ := r_zbl (rcut := rcut) h
      rw [h1, h2, h3, h4, h5]
      rfl
  have h0 : (if f.A0scaled = true then do
      let h ← (written rcut f).read Json.asDouble "A0_spline_h"
      let v ← (written rcut f).read (Json.asVec (Json.asVec Json.asDouble)) "A0_spline_values"
      let d ← (written rcut f).read (Json.asVec (Json.asVec Json.asDouble)) "A0_spline_derivs"
      pure (h, v, d)
    else pure (0, [], [])) = some ((kept f).A0h, (kept f).A0vals, (kept f).A0ders) := by
    unfold kept
    cases h : f.A0scaled with
    | false => rfl
    | true =>
      obtain ⟨h1, h2, h3⟩ := r_A0 (rcut := rcut) h
      rw [h1, h2, h3]
      rfl
  have h1 : (if f.A1scaled = true then do
      let h ← (written rcut f).read Json.asDouble "A1_spline_h"
      let v ← (written rcut f).read (Json.asVec (Json.asVec Json.asDouble)) "A1_spline_values"
      let d ← (written rcut f).read (Json.asVec (Json.asVec Json.asDouble)) "A1_spline_derivs"
      pure (h, v, d)
    else pure (0, [], [])) = some ((kept f).A1h, (kept f).A1vals, (kept f).A1ders) := by
    unfold kept
    cases h : f.A1scaled with
    | false => rfl
    | true =>
      obtain ⟨h1, h2, h3⟩ := r_A1 (rcut := rcut) h
      rw [h1, h2, h3]
      rfl
  simp only [Option.bind_eq_bind] at hz h0 h1
  rw [hz, Option.bind_some, h0, Option.bind_some, h1, Option.bind_some]
  unfold kept
  simp only [entry_dict, Option.pure_def]
  congr 4
  funext a k
  by_cases h1 : a < f.atomicNumbers.length
  · rw [if_pos h1, entry_dict]
    simp only [h1, true_and]
  · rw [if_neg h1]; simp [h1, entry]

theorem entry_written (a lm k : ℕ) :
    entry (entry (entry ((List.range f.atomicNumbers.length).map (fun i => (Nat.repr i, (List.range ((f.Lmax + 1) * (f.Lmax + 1))).map
      (fun lm => (Nat.repr lm, (List.range f.numChannels).map (fun k => (Nat.repr k, f.M0w i lm k))))))) a) lm) k = (kept f).M0w a lm k := by
  unfold kept
  dsimp only
  rw [entry_dict]
  by_cases h1 : a < f.atomicNumbers.length
  · rw [if_pos h1, entry_dict]
    by_cases h2 : lm < (f.Lmax + 1) * (f.Lmax + 1)
    · rw [if_pos h2, entry_dict]
      simp only [h1, h2, true_and]
    · rw [if_neg h2]; simp [h2, entry]
  · rw [if_neg h1]; simp [h1, entry]

theorem readFile_written : readFile (written rcut f) = some (kept f, rcut, f.atomicNumbers.length) := by
  rw [readFile_of (f := f) (rcut := rcut) (fun _ _ _ => rfl) r_M0_weights]
  simp only [entry_written]

end

end Verif.JsonModel
