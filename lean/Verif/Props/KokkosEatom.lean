import Verif.Model.Kokkos.PairEatom
import Verif.Props.KokkosPair

/-! # Property theorem: Kokkos pair style, per-atom energies on the host (C118) -/

namespace Verif.Props
open Verif.Lammps Verif.MACE Verif.Spec Verif.Kokkos.Pair

variable {f : File} {ne : ℕ} {sph : ℝ → ℝ → ℝ → ℕ → ℝ} {dsph : ℝ → ℝ → ℝ → ℕ → ℕ → ℝ} {junk : ℕ → ℕ → ℝ}
  {srt : List (List (List ℕ)) → List (List (List ℕ))}

/-- The arrays of `k_eatom` after any sequence of calls of the three `compute` functions (whatever they compute). -/
inductive EatomHist (shared : Bool) : DualView → Prop
  | init : EatomHist shared ⟨[], []⟩
  | call {β : Type} {d : DualView} {maxeatom : ℕ} {fl : Flags} {run : Tally → Option (β × Tally)} {t : Tally} {r : β × DualView × Tally} :
      EatomHist shared d → withEatom shared maxeatom fl run d t = some r → EatomHist shared r.2.1

/-- C118, what holds: with one memory LAMMPS finds in `eatom` what the kernels added, so after the first call the energies of the atoms.
Missing: separate memories (`C118_host_zero`) and, in one memory, later calls (C66). -/
theorem C118_shared_partial (hf : FileOk f) (hk : FileOkK f ne) (hs : Poly.SortFn srt) :
    ∃ Q, Kokkos.load srt sph dsph junk ne f = some (Q, Kokkos.State.init ℝ) ∧
      ∀ rc mt L A, RunOk f rc mt L A → centres L = List.range L.inum → ∀ q, HistK f Q q → ∀ (V : PEnv) w fl t maxeatom,
        fl.vAtom = false → fl.eAtom → L.inum ≤ maxeatom → TallyOk A L t →
        ∃ k, singleEatom true maxeatom V f.zbl Q rc mt fl A L w q ⟨[], []⟩ t = some k ∧
          ∀ i ∈ centres L, k.2.2.eatom[i]? = some (energy (netOf f) (confOf f sph (periodic A L rc mt) (bondVecs A L rc)) i) := by
  obtain ⟨Q, h1, h2⟩ := C66_eatom_partial (sph := sph) (dsph := dsph) (junk := junk) hf hk hs
  refine ⟨Q, h1, fun rc mt L A hR ho q hq V w fl t maxeatom hv he hm ht => ?_⟩
  have hg : (growEatom maxeatom fl ⟨[], []⟩).dev = List.replicate maxeatom 0 := by
    unfold growEatom
    split_ifs with hc
    · rfl
    · have : maxeatom = 0 := by
        by_contra hne
        exact hc ⟨he, by simpa using Nat.pos_of_ne_zero hne⟩
      rw [this]
      rfl
  have ht' : TallyOk A L { t with eatom := List.replicate maxeatom 0 } := ⟨ht.f, ht.virial, by simpa using hm⟩
  obtain ⟨k, a1, -, -, -, -, a2⟩ := h2 rc mt L A hR ho q hq V w fl _ hv he ht'
  refine ⟨((k.1, k.2.1), ⟨k.2.2.eatom, k.2.2.eatom⟩, k.2.2), ?_, fun i hi => ?_⟩
  · unfold singleEatom withEatom
    dsimp only
    rw [hg, a1]
    rfl
  · rw [a2 i hi]
    have : nth (List.replicate maxeatom (0 : ℝ)) i = 0 := by
      unfold nth
      rw [List.getElem?_replicate]
      split_ifs <;> rfl
    rw [this, zero_add]

/-- C118: with separate memories the array LAMMPS reads never contains anything but zeros. -/
theorem C118_host_zero {d : DualView} (h : EatomHist false d) : ∀ x ∈ d.host, x = 0 := by
  induction h with
  | init => simp
  | call _ e ih =>
    unfold withEatom at e
    obtain ⟨r, -, e⟩ := Option.bind_eq_some_iff.mp e
    cases e
    unfold growEatom
    intro x hx
    simp only [Bool.false_eq_true, if_false] at hx
    split_ifs at hx with hc
    · exact List.eq_of_mem_replicate hx
    · exact ih x hx

/-- With one memory both arrays are the same. -/
theorem C118_shared_same {d : DualView} (h : EatomHist true d) : d.host = d.dev := by
  cases h with
  | init => rfl
  | call _ e =>
    unfold withEatom at e
    obtain ⟨r, -, e⟩ := Option.bind_eq_some_iff.mp e
    cases e
    rfl

/-- C118 fails with separate memories: LAMMPS reads the energy 0 for an isolated hydrogen atom whose energy is -13. -/
theorem C118_violated : ∃ f A L rc mt, FileOk f ∧ FileOkK f 2 ∧ RunOk f rc mt L A ∧ centres L = List.range L.inum ∧ 0 ∈ centres L ∧
    ∀ srt, Poly.SortFn srt → ∀ sph dsph junk, ∃ Q, Kokkos.load srt sph dsph junk 2 f = some (Q, Kokkos.State.init ℝ) ∧
      energy (netOf f) (confOf f sph (periodic A L rc mt) (bondVecs A L rc)) 0 = -13 ∧
      ∀ (V : PEnv) w t maxeatom, L.inum ≤ maxeatom → TallyOk A L t →
        ∃ k, singleEatom false maxeatom V f.zbl Q rc mt ⟨true, true, true, false⟩ A L w (Kokkos.State.init ℝ) ⟨[], []⟩ t = some k ∧
          k.2.1.dev[0]? = some (-13 : ℝ) ∧ k.2.2.eatom[0]? = some (0 : ℝ) := by
  refine ⟨exFile, exFar, exFarOrd, 2, [0, 1], exFile_ok, exFile_okK, exFarOrd_ok, by decide, by decide, fun srt hsrt sph dsph junk => ?_⟩
  obtain ⟨Q, h1, h2⟩ := C66_eatom_partial (sph := sph) (dsph := dsph) (junk := junk) exFile_ok exFile_okK hsrt
  have hedg : (periodic exFar exFarOrd 2 [0, 1]).edg 0 = ∅ := by
    have : (periodic exFar exFarOrd 2 [0, 1]).nn = [0, 0] := by
      have hc : centres exFarOrd = [0, 1] := rfl
      simp [periodic, sysOf, exFarOrd_nbrs, hc]
    unfold Sys.edg
    rw [this]
    rfl
  have hen : energy (netOf exFile) (confOf exFile sph (periodic exFar exFarOrd 2 [0, 1]) (bondVecs exFar exFarOrd 2)) 0 = -13 := by
    rw [isolated_energy exFile_ok hedg]
    have : nthN (periodic exFar exFarOrd 2 [0, 1]).types 0 = 0 := by decide
    rw [this]
    rfl
  refine ⟨Q, h1, hen, fun V w t maxeatom hm ht => ?_⟩
  have h2m : 2 ≤ maxeatom := hm
  have hg : growEatom maxeatom ⟨true, true, true, false⟩ ⟨[], []⟩ = ⟨List.replicate maxeatom 0, List.replicate maxeatom 0⟩ := by
    unfold growEatom
    rw [if_pos ⟨rfl, by show 0 < maxeatom; omega⟩]
  have ht' : TallyOk exFar exFarOrd { t with eatom := List.replicate maxeatom 0 } := ⟨ht.f, ht.virial, by simpa using hm⟩
  obtain ⟨k, a1, -, -, -, -, a2⟩ := h2 2 [0, 1] exFarOrd exFar exFarOrd_ok (by decide) _ .init V w ⟨true, true, true, false⟩ _ rfl rfl ht'
  refine ⟨((k.1, k.2.1), ⟨k.2.2.eatom, List.replicate maxeatom 0⟩, { k.2.2 with eatom := List.replicate maxeatom 0 }), ?_, ?_, ?_⟩
  · unfold singleEatom withEatom
    dsimp only
    rw [hg, a1]
    rfl
  · have := a2 0 (by decide)
    rw [hen] at this
    rw [this]
    have h0 : nth (List.replicate maxeatom (0 : ℝ)) 0 = 0 := by
      unfold nth
      rw [List.getElem?_replicate, if_pos (by omega)]
      rfl
    rw [h0, zero_add]
  · show (List.replicate maxeatom (0 : ℝ))[0]? = some 0
    rw [List.getElem?_replicate, if_pos (by omega)]

/-- The hypotheses of `C118_shared_partial` hold for two bonded atoms; a history with a call that adds 1 to every entry. -/
example : FileOk exFile ∧ FileOkK exFile 2 ∧ RunOk exFile (3 / 2) [0, 1] exOrd exAtoms ∧ centres exOrd = List.range exOrd.inum ∧
    (∃ t, TallyOk exAtoms exOrd t) ∧ EatomHist false ⟨[1, 1], [0, 0]⟩ :=
  ⟨exFile_ok, exFile_okK, exOrd_ok.1, rfl, ⟨⟨0, [0, 0], [0, 0, 0, 0, 0, 0, 0, 0, 0], [0, 0, 0, 0, 0, 0]⟩, ⟨3, by decide, by simp⟩, by simp,
    by simp [exOrd, exList]⟩, .call (β := Unit) (maxeatom := 2) (fl := ⟨true, true, true, false⟩)
      (run := fun t => some ((), { t with eatom := [1, 1] })) (t := ⟨0, [], [], []⟩) (r := ((), ⟨[1, 1], [0, 0]⟩, ⟨0, [0, 0], [], []⟩)) .init rfl⟩

end Verif.Props
