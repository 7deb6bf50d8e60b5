import Verif.Props.LammpsForces
import Verif.Lemmas.Lammps.NoMpiSum
import Verif.Lemmas.Lammps.Share

/-! # Property theorem: LAMMPS pair style in `no_mpi_message_passing` mode (C44) -/

namespace Verif.Props
open Verif.Lammps Verif.MACE Verif.Spec

/-- The accumulators of a process cover its local and ghost atoms. -/
structure GhostTallyOk (A : Atoms) (L : NList) (t : Tally) : Prop where
  f : ∃ M, A.nlocal + A.nghost ≤ M ∧ t.f.length = M * 3
  virial : 6 ≤ t.virial.length
  eatom : L.inum ≤ t.eatom.length

/-- A valid division for this mode: also the ghosts which are neighbours of local atoms have a neighbour list, and see what
the atoms they are images of see (ghosts cover two cutoffs). -/
structure GhostParts (f : File) (rc : ℝ) (mt : List ℕ) (np : ℕ) (A : ℕ → Atoms) (L : ℕ → NList) (κ : ℕ → ℕ → ℕ) (A0 : Atoms)
    (L0 : NList) : Prop where
  proc : ∀ p < np, ProcOk f mt (A p) (L p) (centres (L p) ++ halo (A p) (L p) rc)
  parts : Parts np A L κ (fun p => centres (L p) ++ halo (A p) (L p) rc) A0 L0 rc mt

/-- What all processes together added to component `c` of the force on atom `b` and its images. -/
noncomputable def forceSum (np : ℕ) (A : ℕ → Atoms) (κ : ℕ → ℕ → ℕ) (t t' : ℕ → Tally) (b c : ℕ) : ℝ :=
  ∑ p ∈ Finset.range np, ∑ j ∈ (Finset.range ((A p).nlocal + (A p).nghost)).filter (fun j => κ p j = b),
    (nth (t' p).f (3 * j + c) - nth (t p).f (3 * j + c))

section
variable {f : File} {rc : ℝ} {mt : List ℕ} {L : NList} {A : Atoms}

theorem ghost_tally_tab {t : Tally} (h : GhostTallyOk A L t) : ∃ M, A.nlocal + A.nghost ≤ M ∧
    t.f = tab2 M 3 (fun a c => nth t.f (3 * a + c)) ∧ t.virial = tab t.virial.length (nth t.virial) := by
  obtain ⟨M, h1, h2⟩ := h.f
  obtain ⟨M', h3, h4, h5⟩ := tally_tab (A := A) (L := L) (t := t) ⟨⟨M, by omega, h2⟩, h.virial, h.eatom⟩
  have : M' = M := by
    have := congrArg List.length h4
    rw [h2, length_tab2] at this
    omega
  exact ⟨M, h1, this ▸ h4, h5⟩

variable {sph : ℝ → ℝ → ℝ → ℕ → ℝ} {dsph : ℝ → ℝ → ℝ → ℕ → ℕ → ℝ} {P : Params ℝ}
  {np : ℕ} {As : ℕ → Atoms} {Ls : ℕ → NList} {κ : ℕ → ℕ → ℕ} {A0 : Atoms} {L0 : NList}

theorem GhostParts.mem (h : GhostParts f rc mt np As Ls κ A0 L0) (hI : ImagesOk A0 L0) {p : ℕ} (hp : p < np) :
    ∀ i ∈ allNodes (As p) (Ls p) rc, κ p i ∈ centres L0 := by
  intro i hi
  rcases List.mem_append.mp hi with hi | hi
  · exact h.parts.mem hp hi
  · obtain ⟨_, _, i', h1, h2⟩ := mem_halo.mp hi
    exact h.parts.nbr hI hp (List.mem_append_left _ h1) (h.parts.mem hp h1) h2

/-- The result of one process. -/
theorem ghost_result (hf : FileOk f) (hP : Loaded f sph dsph P) (h0 : RunOk f rc mt L0 A0)
    (h : GhostParts f rc mt np As Ls κ A0 L0) {p : ℕ} (hp : p < np) {s : State ℝ} (hs : StOk f s) (old : List ℕ) (w : Work)
    {fl : Flags} (hv : fl.vAtom = false) {t : Tally} (ht : GhostTallyOk (As p) (Ls p) t) :
    ∃ r ix, IxOk (As p) (Ls p) rc ix ∧ computeNoMpi f.zbl P rc mt fl (As p) (Ls p) old w s t = some r ∧
      r.2.2.eng = (if fl.eGlobal then t.eng + ∑ i ∈ Finset.range (Ls p).inum,
        energy (netOf f) (confOf f sph (allSys (As p) (Ls p) rc mt ix) (allVecs (As p) (Ls p) rc)) i else t.eng) ∧
      (fl.eAtom → ∀ ii < (Ls p).inum, r.2.2.eatom[ii]? = some (energy (netOf f)
        (confOf f sph (periodic A0 L0 rc mt) (bondVecs A0 L0 rc)) (rank (centres L0) (κ p (nthN (centres (Ls p)) ii))))) ∧
      (∀ a < (As p).nlocal + (As p).nghost, ∀ c < 3, nth r.2.2.f (3 * a + c) - nth t.f (3 * a + c)
        = ∑ e ∈ Finset.range (bonds (As p) (Ls p) rc (allNodes (As p) (Ls p) rc)).length,
          noMpiForce f sph dsph (allSys (As p) (Ls p) rc mt ix) (allVecs (As p) (Ls p) rc) (Ls p).inum e c
            * ((if a = endB (As p) (Ls p) rc (allNodes (As p) (Ls p) rc) e then 1 else 0)
              - if a = endA (As p) (Ls p) rc (allNodes (As p) (Ls p) rc) e then 1 else 0)) ∧
      (fl.vGlobal → ∀ k < 6, nth r.2.2.virial k - nth t.virial k
        = ∑ e ∈ Finset.range (bonds (As p) (Ls p) rc (allNodes (As p) (Ls p) rc)).length,
          1 / 2 * (allVecs (As p) (Ls p) rc e (voigt k).1
            * noMpiForce f sph dsph (allSys (As p) (Ls p) rc mt ix) (allVecs (As p) (Ls p) rc) (Ls p).inum e (voigt k).2
            + allVecs (As p) (Ls p) rc e (voigt k).2
            * noMpiForce f sph dsph (allSys (As p) (Ls p) rc mt ix) (allVecs (As p) (Ls p) rc) (Ls p).inum e (voigt k).1)) := by
  obtain ⟨M, hM, hf0, hv0⟩ := ghost_tally_tab ht
  have hq := h.proc p hp
  obtain ⟨w', s', ix, h1, h2, _⟩ := computeNoMpi_spec hf hP hq.atoms hq.list
    (fun j hj => hq.entry j (List.mem_append_right _ hj)) (fun ix _ => h.parts.inside hp (h.mem h0.images hp) h0.inside ix)
    hs old w hv hf0 hv0 hM ht.virial ht.eatom
  refine ⟨_, ix, h1, h2, rfl, fun he ii hii => ?_, fun a ha c hc => ?_, fun hg k hk => ?_⟩
  · have := ht.eatom
    simp only [he, if_true]
    rw [getElem?_tab_lt (by omega), if_pos hii]
    have hl : ii < (centres (Ls p)).length := by rw [centres_length hq.list]; exact hii
    have hl' : ii < (allNodes (As p) (Ls p) rc).length := by rw [allNodes, List.length_append]; omega
    have hg : (allNodes (As p) (Ls p) rc)[ii] = (centres (Ls p))[ii] := List.getElem_append_left hl
    rw [nthN_getElem hl, ← hg]
    refine congrArg some (h.parts.energy hp (h.mem h0.images hp) h1.mem hl' ?_)
    change ∀ j ∈ nbrs (As p) (Ls p) rc (allNodes (As p) (Ls p) rc)[ii], j ∈ allNodes (As p) (Ls p) rc
    rw [hg]
    exact fun j hj => nbr_mem_allNodes hq.list (List.getElem_mem hl) hj
  · have := nth_tab2 (g := fun a c => nth t.f (3 * a + c) +
        ∑ e ∈ Finset.range (bonds (As p) (Ls p) rc (allNodes (As p) (Ls p) rc)).length,
          noMpiForce f sph dsph (allSys (As p) (Ls p) rc mt ix) (allVecs (As p) (Ls p) rc) (Ls p).inum e c
            * ((if a = endB (As p) (Ls p) rc (allNodes (As p) (Ls p) rc) e then 1 else 0)
              - if a = endA (As p) (Ls p) rc (allNodes (As p) (Ls p) rc) e then 1 else 0))
      (show a < M by omega) hc
    rw [mul_comm a 3] at this
    dsimp only
    rw [this, add_sub_cancel_left]
  · simp only [hg, if_true]
    have := ht.virial
    rw [nth_tab (by omega), if_pos hk, add_sub_cancel_left]

end

section props
variable (f : File) (sph : ℝ → ℝ → ℝ → ℕ → ℝ) (dsph : ℝ → ℝ → ℝ → ℕ → ℕ → ℝ)
variable {srt : List (List (List ℕ)) → List (List (List ℕ))}

/-- C44: any division of a system among any number of processes, whatever was computed before: the energies, forces (collected
from all images) and virials of all processes in this mode add up to those of the single-process mode on the whole system, and
the energy of every single atom is the same. -/
theorem C44_no_mpi (hf : FileOk f) (hsrt : Poly.SortFn srt) (hsph : IsSphGrad sph dsph ((f.lmax + 1) * (f.lmax + 1))) :
    ∃ P s0, load srt sph dsph f = some (P, s0) ∧ ∀ rc mt np A L κ A0 L0, RunOk f rc mt L0 A0 →
      GhostParts f rc mt np A L κ A0 L0 → ∀ fl, fl.vAtom = false →
      ∀ s w t, Hist f P s0 s → TallyOk A0 L0 t →
      ∀ (sp : ℕ → State ℝ) (wp : ℕ → Work) (tp : ℕ → Tally) (old : ℕ → List ℕ), (∀ p < np, Hist f P s0 (sp p) ∧ GhostTallyOk (A p) (L p) (tp p)) →
      ∃ (r : Work × State ℝ × Tally) (rp : ℕ → Work × State ℝ × Tally), computeSingle f.zbl P rc mt fl A0 L0 w s t = some r ∧
        (∀ p < np, computeNoMpi f.zbl P rc mt fl (A p) (L p) (old p) (wp p) (sp p) (tp p) = some (rp p)) ∧
        ∑ p ∈ Finset.range np, ((rp p).2.2.eng - (tp p).eng) = r.2.2.eng - t.eng ∧
        (fl.eAtom → ∀ p < np, ∀ ii < (L p).inum,
          (rp p).2.2.eatom[ii]? = r.2.2.eatom[rank (centres L0) (κ p (nthN (centres (L p)) ii))]?) ∧
        (ScalesNonzero f sph (periodic A0 L0 rc mt) (bondVecs A0 L0 rc) →
          (∀ b < A0.nlocal, ∀ c < 3,
            forceSum np A κ tp (fun p => (rp p).2.2) b c = nth r.2.2.f (3 * b + c) - nth t.f (3 * b + c)) ∧
          (fl.vGlobal → ∀ k < 6,
            ∑ p ∈ Finset.range np, (nth (rp p).2.2.virial k - nth (tp p).virial k) = nth r.2.2.virial k - nth t.virial k)) := by
  obtain ⟨P, s0, h1, h2, h3⟩ := load_spec hf hsrt sph dsph
  refine ⟨P, s0, h1, fun rc mt np A L κ A0 L0 h0 h fl hv s w t hs ht sp wp tp old hp => ?_⟩
  obtain ⟨r, r1, r2, r3, r4, r5⟩ := single_result hf h2 h0 (hs.ok hf h2 h3) w hv ht
  have hex : ∀ p, ∃ r ix, p < np → _ := fun p => by
    by_cases hp' : p < np
    · obtain ⟨r, ix, q⟩ := ghost_result hf h2 h0 h hp' ((hp p hp').1.ok hf h2 h3) (old p) (wp p) hv (hp p hp').2
      exact ⟨r, ix, fun _ => q⟩
    · exact ⟨r, id, fun h => absurd h hp'⟩
  choose rp ix q using hex
  have hmem := fun p (hp' : p < np) => h.mem h0.images hp'
  have hnb : ∀ p < np, ∀ i ∈ centres (L p), ∀ j ∈ nbrs (A p) (L p) rc i, j ∈ allNodes (A p) (L p) rc :=
    fun p hp' i hi j hj => nbr_mem_allNodes (h.proc p hp').list hi hj
  refine ⟨r, rp, r1, fun p hp' => (q p hp').2.1, ?_, fun he p hp' ii hii => ?_, fun hsc => ?_⟩
  · by_cases hg : fl.eGlobal
    · rw [r2, if_pos hg, add_sub_cancel_left, ← h.parts.total (f := f) (sph := sph) h0.list (fun p hp' => (h.proc p hp').list)
        (H := fun p => halo (A p) (L p) rc) (fun _ _ => rfl) hmem (ix := ix) (fun p hp' => (q p hp').1.mem) hnb]
      refine Finset.sum_congr rfl (fun p hp' => ?_)
      rw [(q p (Finset.mem_range.mp hp')).2.2.1, if_pos hg, add_sub_cancel_left]
      rfl
    · rw [r2, if_neg hg, sub_self]
      refine Finset.sum_eq_zero (fun p hp' => ?_)
      rw [(q p (Finset.mem_range.mp hp')).2.2.1, if_neg hg, sub_self]
  · rw [(q p hp').2.2.2.1 he ii hii, (r3 he).2]
    rw [← centres_length h0.list]
    refine rank_lt (h.parts.mem hp' ?_)
    have hl : ii < (centres (L p)).length := by rw [centres_length (h.proc p hp').list]; exact hii
    rw [nthN_getElem hl]
    exact List.getElem_mem hl
  · have hw : SameWork rc np A L κ (fun p => allNodes (A p) (L p) rc) A0 L0
        (fun p => noMpiForce f sph dsph (allSys (A p) (L p) rc mt (ix p)) (allVecs (A p) (L p) rc) (L p).inum)
        (forceOf f sph dsph (periodic A0 L0 rc mt) (bondVecs A0 L0 rc)) :=
      fun u u0 ψ hψ hψ0 => noMpi_work h.parts hf h0.atoms h0.list h0.images h0.inside hsc h.proc
        (H := fun p => halo (A p) (L p) rc) (fun _ _ => rfl) hmem (fun p hp' => (q p hp').1.mem)
        (fun p hp' => all_in (h.proc p hp').atoms (h.proc p hp').list
          (fun j hj => (h.proc p hp').entry j (List.mem_append_right _ hj)) (q p hp').1) hnb hsph (hs.ok hf h2 h3) hψ hψ0
    refine ⟨fun b hb c hc => ?_, fun hg k hk => ?_⟩
    · rw [r4 b hb c hc, add_sub_cancel_left, ← hw.forces h0.images (fun p hp' => (h.proc p hp').entry) b hc]
      unfold forceSum
      refine Finset.sum_congr rfl (fun p hp' => Finset.sum_congr rfl (fun j hj => ?_))
      exact (q p (Finset.mem_range.mp hp')).2.2.2.2.1 j (Finset.mem_range.mp (Finset.mem_filter.mp hj).1) c hc
    · have hk' : (voigt k).1 < 3 ∧ (voigt k).2 < 3 := by interval_cases k <;> simp [voigt]
      rw [r5 hg k hk, add_sub_cancel_left, ← hw.virial hk'.1 hk'.2]
      exact Finset.sum_congr rfl (fun p hp' => (q p (Finset.mem_range.mp hp')).2.2.2.2.2 hg k hk)

end props

/-! ## Example: `exAtoms` on two processes -/

/-- Process 0 owns atom 0 and has four ghosts, process 1 owns atom 1 and has two. -/
def exPartAtoms (p : ℕ) : Atoms where
  nlocal := 1
  nghost := if p = 0 then 4 else 2
  x := if p = 0 then [0, 0, 0, 1, 0, 0, 0, 1, 0, 1, 1, 0, 0, 2, 0] else [1, 0, 0, 0, 0, 0, 0, 1, 0]
  type := if p = 0 then [1, 2, 1, 2, 1] else [2, 1, 1]
  tag := if p = 0 then [7, 8, 7, 8, 7] else [8, 7, 7]
  map := fun t => if p = 0 then (if t = 7 then some 0 else if t = 8 then some 1 else none)
    else if t = 8 then some 0 else if t = 7 then some 1 else none

def exPartList (p : ℕ) : NList where
  inum := 1
  ilist := [0]
  num := if p = 0 then [2, 1, 2] else [1, 2]
  first := if p = 0 then [[1, 2], [0], [3, 4]] else [[1], [0, 2]]

/-- Identity in `exAtoms`. -/
def exPartId (p j : ℕ) : ℕ := nthN (if p = 0 then [0, 1, 0, 1, 0] else [1, 0, 0]) j

theorem exPart_listed : listed (exPartList 0) 0 = [1, 2] ∧ listed (exPartList 0) 1 = [0] ∧ listed (exPartList 0) 2 = [3, 4] ∧
    listed (exPartList 1) 0 = [1] ∧ listed (exPartList 1) 1 = [0, 2] := by decide

theorem exPart_nbrs : nbrs (exPartAtoms 0) (exPartList 0) (3 / 2) 0 = [1, 2] ∧ nbrs (exPartAtoms 0) (exPartList 0) (3 / 2) 1 = [0] ∧
    nbrs (exPartAtoms 0) (exPartList 0) (3 / 2) 2 = [3, 4] ∧ nbrs (exPartAtoms 1) (exPartList 1) (3 / 2) 0 = [1] ∧
    nbrs (exPartAtoms 1) (exPartList 1) (3 / 2) 1 = [0, 2] := by
  obtain ⟨h1, h2, h3, h4, h5⟩ := exPart_listed
  refine ⟨?_, ?_, ?_, ?_, ?_⟩
  · simp [nbrs, h1, disp, pos, exPartAtoms, nth, Finset.sum_range_succ]; norm_num
  · simp [nbrs, h2, disp, pos, exPartAtoms, nth, Finset.sum_range_succ]; norm_num
  · simp [nbrs, h3, disp, pos, exPartAtoms, nth, Finset.sum_range_succ]; norm_num
  · simp [nbrs, h4, disp, pos, exPartAtoms, nth, Finset.sum_range_succ]; norm_num
  · simp [nbrs, h5, disp, pos, exPartAtoms, nth, Finset.sum_range_succ]; norm_num

theorem exPart_centres (p : ℕ) : centres (exPartList p) = [0] := rfl

theorem exPart_halo : halo (exPartAtoms 0) (exPartList 0) (3 / 2) = [1, 2] ∧ halo (exPartAtoms 1) (exPartList 1) (3 / 2) = [1] := by
  obtain ⟨h1, h2, h3, h4, h5⟩ := exPart_nbrs
  constructor
  · have : (exPartAtoms 0).nlocal + (exPartAtoms 0).nghost = 5 := rfl
    simp [halo, exPart_centres, h1, this, List.range_succ]
  · have : (exPartAtoms 1).nlocal + (exPartAtoms 1).nghost = 3 := rfl
    simp [halo, exPart_centres, h4, this, List.range_succ]

theorem exAtoms_nbrs : nbrs exAtoms exList (3 / 2) 0 = [1, 2] ∧ nbrs exAtoms exList (3 / 2) 1 = [0] := by
  constructor
  · simp [nbrs, exListed.1, disp, pos, exAtoms, nth, Finset.sum_range_succ]; norm_num
  · simp [nbrs, exListed.2, disp, pos, exAtoms, nth, Finset.sum_range_succ]; norm_num

theorem exPart_ok : GhostParts exFile (3 / 2) [0, 1] 2 exPartAtoms exPartList exPartId exAtoms exList := by
  obtain ⟨l1, l2, l3, l4, l5⟩ := exPart_listed
  obtain ⟨h1, h2, h3, h4, h5⟩ := exPart_nbrs
  obtain ⟨g0, g1⟩ := exPart_halo
  obtain ⟨a0, a1⟩ := exAtoms_nbrs
  have ht : exFile.nT = 2 := rfl
  have node : ∀ p < 2, ∀ i ∈ centres (exPartList p) ++ halo (exPartAtoms p) (exPartList p) (3 / 2),
      (p = 0 ∧ i = 0) ∨ (p = 0 ∧ i = 1) ∨ (p = 0 ∧ i = 2) ∨ (p = 1 ∧ i = 0) ∨ (p = 1 ∧ i = 1) := by
    intro p hp i hi
    interval_cases p
    · rw [exPart_centres, g0] at hi; simp at hi; omega
    · rw [exPart_centres, g1] at hi; simp at hi; omega
  refine ⟨fun p hp => ⟨?_, ⟨?_, ?_, ?_, ?_⟩, fun i hi => ?_⟩, ?_, fun p hp i hi => ?_, fun p hp i hi => ?_⟩
  · rw [ht]; interval_cases p <;> exact ⟨by decide, by decide, by decide, by decide⟩
  · simp [exPartList]
  · rw [exPart_centres]; simp
  · rw [exPart_centres]; simp [exPartAtoms]
  · intro i hi
    rw [exPart_centres] at hi
    interval_cases p <;> simp at hi <;> subst hi <;> exact ⟨by decide, by decide, by decide, by decide, by decide⟩
  · rcases node p hp i hi with ⟨rfl, rfl⟩ | ⟨rfl, rfl⟩ | ⟨rfl, rfl⟩ | ⟨rfl, rfl⟩ | ⟨rfl, rfl⟩ <;>
      exact ⟨by decide, by decide, by decide, by decide, by decide⟩
  · decide
  · rcases node p hp i hi with ⟨rfl, rfl⟩ | ⟨rfl, rfl⟩ | ⟨rfl, rfl⟩ | ⟨rfl, rfl⟩ | ⟨rfl, rfl⟩ <;> rfl
  · have hv : ∀ {A : Atoms} {i j k l : ℕ}, disp A i j 0 = disp exAtoms k l 0 → disp A i j 1 = disp exAtoms k l 1 →
        disp A i j 2 = disp exAtoms k l 2 → (fun c : Fin 3 => disp A i j c) = fun c : Fin 3 => disp exAtoms k l c := by
      intro A i j k l e0 e1 e2
      funext c
      fin_cases c
      · exact e0
      · exact e1
      · exact e2
    have hd : ∀ {A : Atoms} {i j k l s1 s2 b1 b2 : ℕ}, disp A i j 0 = disp exAtoms k l 0 → disp A i j 1 = disp exAtoms k l 1 →
        disp A i j 2 = disp exAtoms k l 2 → s1 = s2 → b1 = b2 →
        ((fun c : Fin 3 => disp A i j c, s1, b1) : (Fin 3 → ℝ) × ℕ × ℕ) = (fun c : Fin 3 => disp exAtoms k l c, s2, b2) := by
      intro A i j k l s1 s2 b1 b2 e0 e1 e2 e3 e4
      rw [hv e0 e1 e2, e3, e4]
    apply List.Perm.of_eq
    rcases node p hp i hi with ⟨rfl, rfl⟩ | ⟨rfl, rfl⟩ | ⟨rfl, rfl⟩ | ⟨rfl, rfl⟩ | ⟨rfl, rfl⟩
    · have : exPartId 0 0 = 0 := rfl
      rw [this, view, view, h1, a0]
      simp only [List.map_cons, List.map_nil, List.cons.injEq, and_true]
      constructor <;> refine hd ?_ ?_ ?_ (by decide) (by decide) <;> simp [disp, pos, exPartAtoms, exAtoms, nth]
    · have : exPartId 0 1 = 1 := rfl
      rw [this, view, view, h2, a1]
      simp only [List.map_cons, List.map_nil, List.cons.injEq, and_true]
      refine hd ?_ ?_ ?_ (by decide) (by decide) <;> simp [disp, pos, exPartAtoms, exAtoms, nth]
    · have : exPartId 0 2 = 0 := rfl
      rw [this, view, view, h3, a0]
      simp only [List.map_cons, List.map_nil, List.cons.injEq, and_true]
      constructor <;> refine hd ?_ ?_ ?_ (by decide) (by decide) <;> norm_num [disp, pos, exPartAtoms, exAtoms, nth]
    · have : exPartId 1 0 = 1 := rfl
      rw [this, view, view, h4, a1]
      simp only [List.map_cons, List.map_nil, List.cons.injEq, and_true]
      refine hd ?_ ?_ ?_ (by decide) (by decide) <;> simp [disp, pos, exPartAtoms, exAtoms, nth]
    · have : exPartId 1 1 = 0 := rfl
      rw [this, view, view, h5, a0]
      simp only [List.map_cons, List.map_nil, List.cons.injEq, and_true]
      constructor <;> refine hd ?_ ?_ ?_ (by decide) (by decide) <;> simp [disp, pos, exPartAtoms, exAtoms, nth]

/-- The hypotheses of C44 hold for `exAtoms` on two processes; the whole system and scales: `exRun`. -/
example : RunOk exFile (3 / 2) [0, 1] exList exAtoms ∧
    ScalesNonzero exFile exSph (periodic exAtoms exList (3 / 2) [0, 1]) (bondVecs exAtoms exList (3 / 2)) ∧
    GhostParts exFile (3 / 2) [0, 1] 2 exPartAtoms exPartList exPartId exAtoms exList ∧
    GhostTallyOk (exPartAtoms 1) (exPartList 1) ⟨0, [0], [0, 0, 0, 0, 0, 0, 0, 0, 0], [0, 0, 0, 0, 0, 0]⟩ :=
  ⟨exRun.1, exRun.2.2, exPart_ok, ⟨⟨3, by decide, by simp⟩, by simp, by simp [exPartList]⟩⟩

end Verif.Props
