import Verif.Lemmas.Kokkos.PairNoMpi
import Verif.Props.KokkosPair
import Verif.Props.LammpsNoMpi

/-! # Properties of the LAMMPS pair style `symmetrix/mace/kk`: `no_mpi_message_passing` mode (C68, C69) -/

namespace Verif.Props
open Verif.MACE Verif.Spec Verif.Lammps

/-- What one process needs in this mode: entries for its atoms and for the ghosts within the cutoff of one, and distances within the
tables of the model. -/
structure GhostRun (f : File) (rc : ℝ) (mt : List ℕ) (L : NList) (A : Atoms) : Prop where
  proc : ProcOk f mt A L (centres L ++ halo A L rc)
  inside : ∀ e < (bonds A L rc (centres L ++ halo A L rc)).length,
    InTable f (len (vecs A (bonds A L rc (centres L ++ halo A L rc)) e))

/-- States of the evaluator object of a pair style: also after calls of this mode. -/
inductive HistG (f : File) (Q : Kokkos.Params ℝ) : Kokkos.State ℝ → Prop
  | base {s : Kokkos.State ℝ} : HistK f Q s → HistG f Q s
  | call {V : Kokkos.Pair.PEnv} {rc : ℝ} {mt : List ℕ} {fl : Flags} {A : Atoms} {L : NList} {w : Kokkos.Pair.Mem} {nii : List ℕ}
      {s : Kokkos.State ℝ} {t : Tally} {r : Kokkos.Pair.Mem × List ℕ × Kokkos.State ℝ × Tally} : HistG f Q s → GhostRun f rc mt L A →
      GhostTallyOk A L t → fl.vAtom = false → Kokkos.Pair.computeNoMpiK V f.zbl Q rc mt fl A L w nii s t = some r → HistG f Q r.2.2.1

variable {f : File} {ne : ℕ} {sph : ℝ → ℝ → ℝ → ℕ → ℝ} {dsph : ℝ → ℝ → ℝ → ℕ → ℕ → ℝ}
  {srt : List (List (List ℕ)) → List (List (List ℕ))} {junk : ℕ → ℕ → ℝ}

theorem GhostRun.insideSys {rc : ℝ} {mt : List ℕ} {L : NList} {A : Atoms} (h : GhostRun f rc mt L A) (ix : ℕ → ℕ) :
    Inside f (allSys A L rc mt ix) (allVecs A L rc) := by
  intro e he
  refine h.inside e ?_
  have : (allSys A L rc mt ix).E = (bonds A L rc (allNodes A L rc)).length := sysOf_E _ _
  rw [this] at he
  exact he

theorem HistG.ok (hf : FileOk f) {Q : Kokkos.Params ℝ} (hQ : Kokkos.LoadedK f sph dsph Q) {s : Kokkos.State ℝ} (h : HistG f Q s) :
    Kokkos.StOkK f Q s := by
  induction h with
  | base h => exact h.ok hf hQ
  | @call V rc mt fl A L w nii s t r _ hR ht hv e ih =>
    obtain ⟨M, hM, hf0, hv0⟩ := ghost_tally_tab ht
    obtain ⟨ix, hx⟩ := Kokkos.Pair.exists_ix A L rc
    obtain ⟨w', nii', s', h1, h2⟩ := Kokkos.Pair.computeNoMpiK_spec V hf hQ hR.proc.atoms hR.proc.list
      (fun j hj => hR.proc.entry j (List.mem_append_right _ hj)) hx (hR.insideSys ix) ih w nii hv hf0 hv0 hM ht.virial ht.eatom
    rw [h1] at e
    cases e
    exact h2

/-- C68: in this mode the two pair styles add the same energy, forces and virial on every process, for lists in any order, every
environment and every history of both.  Per-atom energies: as in C64. -/
theorem C68_no_mpi_equals_cpu (hf : FileOk f) (hk : FileOkK f ne) (hs : Poly.SortFn srt) :
    ∃ P s0 Q, MACE.load srt sph dsph f = some (P, s0) ∧ Kokkos.load srt sph dsph junk ne f = some (Q, Kokkos.State.init ℝ) ∧
      ∀ rc mt L A, GhostRun f rc mt L A → ∀ s, Hist f P s0 s → ∀ q, HistG f Q q →
        ∀ (V : Kokkos.Pair.PEnv) old w wk nii fl t, fl.vAtom = false → GhostTallyOk A L t →
        ∃ r k, Lammps.computeNoMpi f.zbl P rc mt fl A L old w s t = some r ∧
          Kokkos.Pair.computeNoMpiK V f.zbl Q rc mt fl A L wk nii q t = some k ∧ HistG f Q k.2.2.1 ∧
          k.2.2.2.eng = r.2.2.eng ∧ k.2.2.2.f = r.2.2.f ∧ k.2.2.2.virial = r.2.2.virial ∧
          (fl.eAtom → k.2.2.2.eatom.length = t.eatom.length ∧ ∀ i < t.eatom.length,
            nth k.2.2.2.eatom i = if i < L.inum then nth t.eatom i + nth r.2.2.eatom i else nth t.eatom i) ∧
          (fl.eAtom = false → k.2.2.2.eatom = t.eatom) := by
  obtain ⟨P, s0, h1, h2, h3⟩ := MACE.load_spec hf hs sph dsph
  obtain ⟨Q, k1, k2⟩ := Kokkos.load_spec hf hk hs sph dsph junk
  refine ⟨P, s0, Q, h1, k1, fun rc mt L A hR s hh q hq V old w wk nii fl t hv ht => ?_⟩
  obtain ⟨M, hM, hf0, hv0⟩ := ghost_tally_tab ht
  have hH : ∀ j ∈ halo A L rc, EntryOk A L j := fun j hj => hR.proc.entry j (List.mem_append_right _ hj)
  obtain ⟨w', s', ix, hx, a1, -⟩ := Lammps.computeNoMpi_spec hf h2 hR.proc.atoms hR.proc.list hH (fun ix _ => hR.insideSys ix)
    (hh.ok hf h2 h3) old w hv hf0 hv0 hM ht.virial ht.eatom
  obtain ⟨wk', nii', q', b1, b2⟩ := Kokkos.Pair.computeNoMpiK_spec V hf k2 hR.proc.atoms hR.proc.list hH hx (hR.insideSys ix)
    (hq.ok hf k2) wk nii hv hf0 hv0 hM ht.virial ht.eatom
  refine ⟨_, _, a1, b1, .call hq hR ht hv b1, rfl, rfl, rfl, fun he => ?_, fun he => ?_⟩
  · simp only [he, if_true]
    refine ⟨by simp, fun i hi => ?_⟩
    rw [nth_tab hi]
    split_ifs with hin
    · rw [nth_tab hi, if_pos hin]
    · rfl
  · simp [he]

/-- C69: any division of a system among any number of processes running the Kokkos style, each in its own environment and with its own
history: energies, forces (collected from all images) and virials add up to those the CPU style computes for the whole system in one
process, and the energy added for every single atom is the same. -/
theorem C69_no_mpi_division (hf : FileOk f) (hk : FileOkK f ne) (hsrt : Poly.SortFn srt)
    (hsph : IsSphGrad sph dsph ((f.lmax + 1) * (f.lmax + 1))) :
    ∃ P s0 Q, MACE.load srt sph dsph f = some (P, s0) ∧ Kokkos.load srt sph dsph junk ne f = some (Q, Kokkos.State.init ℝ) ∧
      ∀ rc mt np A L κ A0 L0, RunOk f rc mt L0 A0 → GhostParts f rc mt np A L κ A0 L0 → ∀ fl, fl.vAtom = false →
      ∀ s w t, Hist f P s0 s → TallyOk A0 L0 t →
      ∀ (V : ℕ → Kokkos.Pair.PEnv) (q : ℕ → Kokkos.State ℝ) (wp : ℕ → Kokkos.Pair.Mem) (nii : ℕ → List ℕ) (tp : ℕ → Tally),
      (∀ p < np, HistG f Q (q p) ∧ GhostTallyOk (A p) (L p) (tp p)) →
      ∃ (r : Work × State ℝ × Tally) (rp : ℕ → Kokkos.Pair.Mem × List ℕ × Kokkos.State ℝ × Tally),
        computeSingle f.zbl P rc mt fl A0 L0 w s t = some r ∧
        (∀ p < np, Kokkos.Pair.computeNoMpiK (V p) f.zbl Q rc mt fl (A p) (L p) (wp p) (nii p) (q p) (tp p) = some (rp p)) ∧
        ∑ p ∈ Finset.range np, ((rp p).2.2.2.eng - (tp p).eng) = r.2.2.eng - t.eng ∧
        (fl.eAtom → ∀ p < np, ∀ ii < (L p).inum, nth (rp p).2.2.2.eatom ii - nth (tp p).eatom ii
          = nth r.2.2.eatom (rank (centres L0) (κ p (nthN (centres (L p)) ii)))) ∧
        (ScalesNonzero f sph (periodic A0 L0 rc mt) (bondVecs A0 L0 rc) →
          (∀ b < A0.nlocal, ∀ c < 3,
            forceSum np A κ tp (fun p => (rp p).2.2.2) b c = nth r.2.2.f (3 * b + c) - nth t.f (3 * b + c)) ∧
          (fl.vGlobal → ∀ k < 6,
            ∑ p ∈ Finset.range np, (nth (rp p).2.2.2.virial k - nth (tp p).virial k) = nth r.2.2.virial k - nth t.virial k)) := by
  obtain ⟨P, s0, Q, h1, k1, hc⟩ := C68_no_mpi_equals_cpu (sph := sph) (dsph := dsph) (junk := junk) hf hk hsrt
  obtain ⟨P', s0', h1', hd⟩ := C44_no_mpi f sph dsph hf hsrt hsph
  rw [h1] at h1'
  cases h1'
  refine ⟨P, s0, Q, h1, k1, fun rc mt np A L κ A0 L0 h0 h fl hv s w t hs ht V q wp nii tp hp => ?_⟩
  have hrun : ∀ p < np, GhostRun f rc mt (L p) (A p) := fun p hp' => ⟨h.proc p hp', fun e he =>
    h.parts.inside hp' (h.mem h0.images hp') h0.inside id e (by rw [sysOf_E]; exact he)⟩
  obtain ⟨r, rc', r1, r2, r3, r4, r5⟩ := hd rc mt np A L κ A0 L0 h0 h fl hv s w t hs ht (fun _ => s) (fun _ => w) tp (fun _ => [])
    (fun p hp' => ⟨hs, (hp p hp').2⟩)
  have hex : ∀ p, ∃ k : Kokkos.Pair.Mem × List ℕ × Kokkos.State ℝ × Tally, p < np →
      Kokkos.Pair.computeNoMpiK (V p) f.zbl Q rc mt fl (A p) (L p) (wp p) (nii p) (q p) (tp p) = some k ∧ HistG f Q k.2.2.1 ∧
        k.2.2.2.eng = (rc' p).2.2.eng ∧ k.2.2.2.f = (rc' p).2.2.f ∧ k.2.2.2.virial = (rc' p).2.2.virial ∧
        (fl.eAtom → k.2.2.2.eatom.length = (tp p).eatom.length ∧ ∀ i < (tp p).eatom.length, nth k.2.2.2.eatom i
          = if i < (L p).inum then nth (tp p).eatom i + nth (rc' p).2.2.eatom i else nth (tp p).eatom i) ∧
        (fl.eAtom = false → k.2.2.2.eatom = (tp p).eatom) := fun p => by
    by_cases hp' : p < np
    · obtain ⟨rr, k, e1, e2, e3⟩ := hc rc mt (L p) (A p) (hrun p hp') s hs (q p) (hp p hp').1 (V p) [] w (wp p) (nii p) fl (tp p) hv
        (hp p hp').2
      have e1' := r2 p hp'
      rw [e1] at e1'
      rw [← Option.some.inj e1']
      exact ⟨k, fun _ => ⟨e2, e3⟩⟩
    · exact ⟨⟨wp p, [], q p, t⟩, fun h => absurd h hp'⟩
  choose rp hq using hex
  refine ⟨r, rp, r1, fun p hp' => (hq p hp').1, ?_, fun he p hp' ii hii => ?_, fun hsc => ⟨fun b hb c hc' => ?_, fun hg k hk' => ?_⟩⟩
  · rw [← r3]
    refine Finset.sum_congr rfl (fun p hp' => ?_)
    rw [(hq p (Finset.mem_range.mp hp')).2.2.1]
  · obtain ⟨-, -, -, -, -, x, -⟩ := hq p hp'
    have hl : ii < (tp p).eatom.length := lt_of_lt_of_le hii (hp p hp').2.eatom
    rw [(x he).2 ii hl, if_pos hii, add_sub_cancel_left]
    have := r4 he p hp' ii hii
    unfold nth
    rw [this]
  · rw [← (r5 hsc).1 b hb c hc']
    unfold forceSum
    refine Finset.sum_congr rfl (fun p hp' => Finset.sum_congr rfl (fun j _ => ?_))
    dsimp only
    rw [(hq p (Finset.mem_range.mp hp')).2.2.2.1]
  · rw [← (r5 hsc).2 hg k hk']
    refine Finset.sum_congr rfl (fun p hp' => ?_)
    rw [(hq p (Finset.mem_range.mp hp')).2.2.2.2.1]

/-- The hypotheses hold for the two processes of `exPart_ok`, whose lists contain ghosts with neighbours of their own. -/
example : FileOk exFile ∧ FileOkK exFile 2 ∧ GhostRun exFile (3 / 2) [0, 1] (exPartList 0) (exPartAtoms 0) ∧
    halo (exPartAtoms 0) (exPartList 0) (3 / 2) = [1, 2] ∧
    GhostTallyOk (exPartAtoms 0) (exPartList 0) ⟨0, [0], List.replicate 15 0, List.replicate 6 0⟩ :=
  ⟨exFile_ok, exFile_okK, ⟨exPart_ok.proc 0 (by decide), fun e he => exPart_ok.parts.inside (by decide)
      (exPart_ok.mem exRun.1.images (by decide)) exRun.1.inside id e (by rw [sysOf_E]; exact he)⟩, exPart_halo.1,
    ⟨⟨5, by decide, by simp⟩, by simp, by simp [exPartList]⟩⟩

end Verif.Props
