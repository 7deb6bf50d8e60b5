import Verif.Lemmas.JsonKeys
import Verif.Props.ExtractExample
import Verif.Props.MACEExample

/-! # Property theorems: the JSON file (C89, C90) -/

namespace Verif.Props
open Verif.MACE Verif.Spec Verif.Extract Verif.JsonModel

section
variable {f : File} {rcut : ℝ} {srt : List (List (List ℕ)) → List (List (List ℕ))} {sph : ℝ → ℝ → ℝ → ℕ → ℝ}
  {dsph : ℝ → ℝ → ℝ → ℕ → ℕ → ℝ} {junk : ℕ → ℕ → ℝ}

/-- C89: `MACE::load_from_json` on the written file builds what it builds from the values themselves: every entry is written under the
key, in the type and with the indices under which it is read; `r_cut` and the ZBL parameters arrive. -/
theorem C89_cpu : loadCpu srt sph dsph (written rcut f) = (MACE.load srt sph dsph f).map (fun s => (s, f.zbl, rcut)) := by
  unfold loadCpu
  rw [readFile_written]
  change (MACE.load srt sph dsph (kept f)).bind _ = _
  rw [load_kept]
  cases MACE.load srt sph dsph f <;> rfl

/-- C89, Kokkos: with at least one element and one channel; `num_elements` is the number of elements. -/
theorem C89_kokkos (hT : 0 < f.atomicNumbers.length) (hC : 0 < f.numChannels) :
    loadKokkos srt sph dsph junk (written rcut f)
      = (Kokkos.load srt sph dsph junk f.atomicNumbers.length f).map (fun s => (s, f.zbl, rcut)) := by
  unfold loadKokkos
  rw [readFile_written]
  change (Kokkos.load srt sph dsph junk f.atomicNumbers.length (kept f)).bind _ = _
  rw [loadK_kept hT hC]
  cases Kokkos.load srt sph dsph junk f.atomicNumbers.length f <;> rfl

/-- C89: no key is written twice, neither in the file nor in a dictionary with integer keys. -/
theorem C89_keys : ((output rcut f).map Prod.fst).Nodup ∧
    ∀ n (g : ℕ → Json), ∃ l, dictN n g = .obj l ∧ (l.map Prod.fst).Nodup := by
  constructor
  · unfold output zblEntries scaleEntries
    cases f.zbl <;> cases f.A0scaled <;> cases f.A1scaled <;> exact of_decide_eq_true rfl
  · intro n g
    refine ⟨_, rfl, ?_⟩
    rw [List.map_map]
    exact (List.nodup_range).map (fun a b h => Nat.repr_injective h)

/-- C89, from the PyTorch model through the written file to both evaluators: they load the file and return the energies of the network
with its radial functions replaced by splines (see C79). -/
theorem C89_script_to_evaluators {M : Torch} {cg : ℕ → ℕ → ℕ → ℕ → ℝ} {n : ℕ} {der : List ℝ → List ℝ}
    {inv : ℕ → (ℕ → ℕ → ℝ) → Option (ℕ → ℕ → ℝ)} {species : List ℕ} (h : TorchOk M cg) (hn : 2 ≤ n)
    (hd : ∀ v, (der v).length = v.length) (hsp : species.Nodup) (hi : InvOk inv) (hf : extract n der inv species M = some f)
    (hs : Poly.SortFn srt) :
    ∃ P s0 Q, loadCpu srt sph dsph (written M.rcut f) = some ((P, s0), f.zbl, M.rcut) ∧
      loadKokkos srt sph dsph junk (written M.rcut f) = some ((Q, Kokkos.State.init ℝ), f.zbl, M.rcut) ∧
      ∀ T X, SysOk f T → Inside f T X → ScalesNonzero f sph T X → ∀ s, Hist f P s0 s → ∀ t, HistK f Q t → ∀ V : Kokkos.Env ℝ,
        ∃ s' t' E, computeNodeEnergiesForces f.zbl P (T.graph X) s = some s' ∧ Kokkos.compute V Q f.zbl (T.graph X) t = some t' ∧
          s'.nodeEnergies = E ∧ ZeroPadded t'.energies E ∧ E.length = T.N ∧
          ∀ i < T.N, E[i]? = some (torchEnergy M (M.radials.map (splineOf M.rcut n der)) cg (sceneOf M f.atomicNumbers sph T X) i) := by
  obtain ⟨P, s0, Q, e1, e2, e3⟩ := C79_evaluators h hn hd hsp hi hf srt hs sph dsph junk
  obtain ⟨hok, -, -, -⟩ := (C78_file_shape (inv := inv) h hn hd hsp).2 f hf
  refine ⟨P, s0, Q, ?_, ?_, e3⟩
  · rw [C89_cpu, e1]; rfl
  · rw [C89_kokkos hok.nT hok.C, e2]; rfl

/-- A model of two elements meets the hypotheses, and its file is written and read. -/
example : ∃ f P s0 Q, extract 200 id invEx [] torchEx = some f ∧
    loadCpu (fun l => l.mergeSort (fun a b => a.length ≤ b.length)) sph dsph (written torchEx.rcut f) = some ((P, s0), f.zbl, 5) ∧
    loadKokkos (fun l => l.mergeSort (fun a b => a.length ≤ b.length)) sph dsph junk (written torchEx.rcut f)
      = some ((Q, Kokkos.State.init ℝ), f.zbl, 5) := by
  obtain ⟨f, hf⟩ := torchEx_runs [] (by simp) 200 id
  obtain ⟨P, s0, Q, h1, h2, -⟩ := C89_script_to_evaluators (sph := sph) (dsph := dsph) (junk := junk) torchEx_ok (by norm_num) (fun _ => rfl)
    (by simp) invEx_ok hf exSort
  exact ⟨f, P, s0, Q, hf, h1, h2⟩

/-- C90, what holds: a file in which a key of the top level is missing, or a key that belongs to a switch that is on, is rejected with an
exception by both loaders (reading stops).  Missing: the keys of the polynomial coefficients, see `C90_violated`. -/
theorem C90_missing_keys_partial {l : List (String × Json)} {k : String} (hk : l.lookup k = none)
    (h : k ∈ ["num_elements", "num_channels", "r_cut", "l_max", "L_max", "atomic_numbers", "atomic_energies", "has_zbl",
        "radial_spline_h", "radial_spline_values_0", "radial_spline_derivs_0", "radial_spline_values_1", "radial_spline_derivs_1",
        "H0_weights", "A0_weights", "A0_scaled", "M0_weights", "M0_monomials", "H1_weights", "Phi1_l", "Phi1_l1", "Phi1_l2", "Phi1_lme",
        "Phi1_clebsch_gordan", "Phi1_lelm1lm2", "A1_weights", "A1_scaled", "M1_weights", "M1_monomials", "H2_weights_for_H1",
        "H2_weights_for_M1", "readout_1_weights", "readout_2_weights_1", "readout_2_weights_2", "readout_2_scale_factor"] ∨
      (l.lookup "has_zbl" = some (.bool true) ∧ k ∈ ["zbl_a_exp", "zbl_a_prefactor", "zbl_c", "zbl_covalent_radii", "zbl_p"]) ∨
      (l.lookup "A0_scaled" = some (.bool true) ∧ k ∈ ["A0_spline_h", "A0_spline_values", "A0_spline_derivs"]) ∨
      (l.lookup "A1_scaled" = some (.bool true) ∧ k ∈ ["A1_spline_h", "A1_spline_values", "A1_spline_derivs"])) :
    readFile (.obj l) = none ∧ loadCpu srt sph dsph (.obj l) = none ∧ loadKokkos srt sph dsph junk (.obj l) = none := by
  have key : readFile (.obj l) = none := by
    cases hq : readFile (.obj l) with
    | none => rfl
    | some q =>
      obtain ⟨h1, h2, h3, h4⟩ := keys_of_read hq
      have : ∃ v, l.lookup k = some v := by
        rcases h with h | ⟨h, h'⟩ | ⟨h, h'⟩ | ⟨h, h'⟩
        exacts [h1 k h, h2 h k h', h3 h k h', h4 h k h']
      obtain ⟨v, hv⟩ := this
      rw [hk] at hv
      cases hv
  refine ⟨key, ?_, ?_⟩
  · unfold loadCpu; rw [key]; rfl
  · unfold loadKokkos; rw [key]; rfl

/-- The written file with the coefficients of the first layer emptied: `"M0_weights": {}`. -/
def withoutWeights (rcut : ℝ) (f : File) : Json :=
  .obj ((output rcut f).map (fun p => if p.1 = "M0_weights" then (p.1, .obj []) else p))

theorem lookup_replace {α : Type} (k : String) (s : String) (v : α) (l : List (String × α)) :
    (l.map (fun p => if p.1 = s then (p.1, v) else p)).lookup k = if k = s then (l.lookup k).map (fun _ => v) else l.lookup k := by
  induction l with
  | nil => simp
  | cons p l ih =>
    rw [List.map_cons, List.lookup_cons, List.lookup_cons, ih]
    have e : ∀ a b : String, a ≠ b → (a == b) = false := fun a b h => beq_eq_false_iff_ne.mpr h
    by_cases h1 : p.1 = s <;> by_cases h3 : k = s
    · subst h1; subst h3; simp
    · subst h1; simp [e k p.1 h3, h3]
    · subst h3; simp [h1, e k p.1 (Ne.symm h1)]
    · simp [h1, h3]

/-- C90 fails for the coefficients: without them the file is read without an exception (`std::map::operator[]` supplies empty vectors),
and the polynomial constructor then reads outside of them. -/
theorem C90_violated (hm : f.M0mon 0 ≠ []) :
    ∃ q, readFile (withoutWeights rcut f) = some q ∧ q.1.M0w 0 0 0 = [] ∧ q.1.M0mon 0 = f.M0mon 0 ∧
      Poly.Poly.mk? srt ((f.lmax + 1) * (f.lmax + 1)) (q.1.M0w 0 0 0) (q.1.M0mon 0) = none := by
  have hl := fun k => lookup_replace k "M0_weights" (Json.obj []) (output rcut f)
  have hr := readFile_of (rcut := rcut) (f := f) (j := withoutWeights rcut f) (m := []) (fun g k hk => by
      have := hl k
      rw [if_neg hk] at this
      unfold Json.read Json.field withoutWeights written
      dsimp only
      rw [this]) (by
      have := hl "M0_weights"
      rw [if_pos rfl] at this
      have e : ∃ v, (output rcut f).lookup "M0_weights" = some v := by
        unfold output zblEntries scaleEntries
        cases f.zbl <;> cases f.A0scaled <;> cases f.A1scaled <;> exact ⟨_, rfl⟩
      obtain ⟨v, hv⟩ := e
      rw [hv] at this
      exact (read_mk this).trans rfl)
  have hmon : (kept f).M0mon 0 = f.M0mon 0 := kept_M0mon (by positivity)
  refine ⟨_, hr, rfl, hmon, ?_⟩
  change Poly.Poly.mk? srt _ [] ((kept f).M0mon 0) = none
  rw [hmon]
  have : Poly.buildMap ([] : List ℝ) (f.M0mon 0) = none := by
    cases hb : Poly.buildMap ([] : List ℝ) (f.M0mon 0) with
    | none => rfl
    | some m =>
      obtain ⟨t, t', ht⟩ := loop_some_imp hb 0 (List.length_pos_iff.mpr hm)
      obtain ⟨k, -, ht⟩ := Option.bind_eq_some_iff.mp ht
      obtain ⟨c, hc, -⟩ := Option.bind_eq_some_iff.mp ht
      cases hc
  unfold Poly.Poly.mk?
  rw [this]
  rfl

/-- The file of the example has such monomials. -/
example : ∃ q, readFile (withoutWeights 5 exFile) = some q ∧ q.1.M0w 0 0 0 = [] ∧ q.1.M0mon 0 = exFile.M0mon 0 ∧
    Poly.Poly.mk? srt ((exFile.lmax + 1) * (exFile.lmax + 1)) (q.1.M0w 0 0 0) (q.1.M0mon 0) = none :=
  C90_violated (by decide)

/-- A file without `r_cut`. -/
example : readFile (.obj [("num_elements", .int 1)]) = none :=
  (C90_missing_keys_partial (srt := id) (sph := exSph) (dsph := exDsph) (junk := fun _ _ => 0) (k := "r_cut") rfl
    (Or.inl (by simp))).1

end

end Verif.Props
