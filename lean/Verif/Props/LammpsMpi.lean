import Verif.Props.LammpsNoMpi
import Verif.Lemmas.Lammps.MpiSum

/-! # Property theorem: LAMMPS pair style in `mpi_message_passing` mode (C43) -/

namespace Verif.Props
open Verif.Lammps Verif.MACE Verif.Spec

/-- A valid division for this mode: every listed atom sees what the atom it is an image of sees, all local atoms are listed, and
the communication plan `ms` fills all ghosts. -/
structure MpiParts (f : File) (rc : ℝ) (mt : List ℕ) (np : ℕ) (A : ℕ → Atoms) (L : ℕ → NList) (κ : ℕ → ℕ → ℕ) (ms : List Msg)
    (A0 : Atoms) (L0 : NList) : Prop where
  proc : ∀ p < np, ProcOk f mt (A p) (L p) (centres (L p))
  parts : Parts np A L κ (fun p => centres (L p)) A0 L0 rc mt
  locals : ∀ p < np, ∀ j < (A p).nlocal, j ∈ centres (L p)
  plan : PlanOk np A κ ms
  filled : ∀ p < np, ∀ j < (A p).nlocal + (A p).nghost, Known A ms p j

section
variable {f : File} {rc : ℝ} {mt : List ℕ} {sph : ℝ → ℝ → ℝ → ℕ → ℝ} {dsph : ℝ → ℝ → ℝ → ℕ → ℕ → ℝ} {P : Params ℝ}
  {np : ℕ} {As : ℕ → Atoms} {Ls : ℕ → NList} {κ : ℕ → ℕ → ℕ} {A0 : Atoms} {L0 : NList} {ms : List Msg}

theorem mpi_result (hf : FileOk f) (hP : Loaded f sph dsph P) (h0 : RunOk f rc mt L0 A0)
    (h : MpiParts f rc mt np As Ls κ ms A0 L0) {fl : Flags} (hv : fl.vAtom = false) {st : ℕ → Proc}
    (hs : ∀ p < np, StOk f (st p).s ∧ GhostTallyOk (As p) (Ls p) (st p).t) :
    ∃ (st' : ℕ → Proc) (Ha : ℕ → ℕ → ℕ → ℕ → ℝ), computeMpi f.zbl P rc mt fl np As Ls ms st = some st' ∧
      (∀ x : ℕ → ℕ → ℕ → ℝ, ∑ p ∈ Finset.range np, ∑ j ∈ Finset.range (As p).nlocal,
          ∑ LM ∈ Finset.range (netOf f).LM, ∑ k ∈ Finset.range (netOf f).C, Ha p j LM k * x (κ p j) LM k
        = ∑ p ∈ Finset.range np, ∑ j ∈ Finset.range (natoms (As p)),
          ∑ LM ∈ Finset.range (netOf f).LM, ∑ k ∈ Finset.range (netOf f).C,
            H1adj (netOf f) (confOf f sph (locSys (As p) (Ls p) rc mt) (locVecs (As p) (Ls p) rc)) (Ls p).inum
              (feat f sph (periodic A0 L0 rc mt) (bondVecs A0 L0 rc) L0 (κ p)) (roGrad f) j LM k * x (κ p j) LM k) ∧
      ∀ p < np, StOk f (st' p).s ∧ mpiTally f sph dsph rc mt fl (As p) (Ls p)
        (feat f sph (periodic A0 L0 rc mt) (bondVecs A0 L0 rc) L0 (κ p)) (Ha p) (st p).t (st' p).t := by
  have hM : ∀ p, ∃ M, p < np → natoms (As p) ≤ M ∧ (st p).t.f = tab2 M 3 (fun a c => nth (st p).t.f (3 * a + c)) := by
    intro p
    by_cases hp : p < np
    · obtain ⟨M, h1, h2, _⟩ := ghost_tally_tab (hs p hp).2
      exact ⟨M, fun _ => ⟨h1, h2⟩⟩
    · exact ⟨0, fun h => absurd h hp⟩
  choose M hM using hM
  obtain ⟨st', h1, h2, h3⟩ := computeMpi_spec hf hP h.parts h0.inside h.proc h.locals h.plan h.filled (fun p hp => (hs p hp).1) hv hM
    (fun p hp => (hs p hp).2.virial) (fun p hp => (hs p hp).2.eatom)
  refine ⟨st', _, h1, h2, fun p hp => ⟨(h3 p hp).1, ?_⟩⟩
  rw [(h3 p hp).2]
  exact mpiOut_tally (hM p hp).1 (hs p hp).2.virial (hs p hp).2.eatom

end

section props
variable (f : File) (sph : ℝ → ℝ → ℝ → ℕ → ℝ) (dsph : ℝ → ℝ → ℝ → ℕ → ℕ → ℝ)
variable {srt : List (List (List ℕ)) → List (List (List ℕ))}

/-- C43: any division of a system among any number of processes, any valid communication plan, whatever was computed before: the
energies, forces (collected from all images) and virials of all processes in this mode add up to those of the single-process mode
on the whole system, and the energy of every single atom is the same.  Missing: neighbour lists which do not list the local atoms
in the order `0, 1, …`, see `C43_violated`. -/
theorem C43_mpi_partial (hf : FileOk f) (hsrt : Poly.SortFn srt) (hsph : IsSphGrad sph dsph ((f.lmax + 1) * (f.lmax + 1))) :
    ∃ P s0, load srt sph dsph f = some (P, s0) ∧ ∀ rc mt np A L κ ms A0 L0, RunOk f rc mt L0 A0 →
      MpiParts f rc mt np A L κ ms A0 L0 → (∀ p < np, centres (L p) = List.range (A p).nlocal) → ∀ fl, fl.vAtom = false →
      ∀ s w t, Hist f P s0 s → TallyOk A0 L0 t →
      ∀ st : ℕ → Proc, (∀ p < np, Hist f P s0 (st p).s ∧ GhostTallyOk (A p) (L p) (st p).t) →
      ∃ (r : Work × State ℝ × Tally) (st' : ℕ → Proc), computeSingle f.zbl P rc mt fl A0 L0 w s t = some r ∧
        computeMpi f.zbl P rc mt fl np A L ms st = some st' ∧
        ∑ p ∈ Finset.range np, ((st' p).t.eng - (st p).t.eng) = r.2.2.eng - t.eng ∧
        (fl.eAtom → ∀ p < np, ∀ i < (A p).nlocal, (st' p).t.eatom[i]? = r.2.2.eatom[rank (centres L0) (κ p i)]?) ∧
        (ScalesNonzero f sph (periodic A0 L0 rc mt) (bondVecs A0 L0 rc) →
          (∀ b < A0.nlocal, ∀ c < 3,
            forceSum np A κ (fun p => (st p).t) (fun p => (st' p).t) b c = nth r.2.2.f (3 * b + c) - nth t.f (3 * b + c)) ∧
          (fl.vGlobal → ∀ k < 6,
            ∑ p ∈ Finset.range np, (nth (st' p).t.virial k - nth (st p).t.virial k) = nth r.2.2.virial k - nth t.virial k)) := by
  obtain ⟨P, s0, h1, h2, h3⟩ := load_spec hf hsrt sph dsph
  refine ⟨P, s0, h1, fun rc mt np A L κ ms A0 L0 h0 h hid fl hv s w t hs ht st hst => ?_⟩
  obtain ⟨r, r1, r2, r3, r4, r5⟩ := single_result hf h2 h0 (hs.ok hf h2 h3) w hv ht
  obtain ⟨st', Ha, q1, q2, q3⟩ := mpi_result hf h2 h0 h hv (fun p hp => ⟨(hst p hp).1.ok hf h2 h3, (hst p hp).2⟩)
  have hnum : ∀ p < np, (L p).inum = (A p).nlocal := fun p hp' => by
    rw [← centres_length (h.proc p hp').list, hid p hp', List.length_range]
  refine ⟨r, st', r1, q1, ?_, fun he p hp' ii hii => ?_, fun hsc => ?_⟩
  · by_cases hg : fl.eGlobal
    · rw [r2, if_pos hg, add_sub_cancel_left, ← h.parts.totalMpi (f := f) (sph := sph) h0.list hid]
      refine Finset.sum_congr rfl (fun p hp' => ?_)
      have hp' := Finset.mem_range.mp hp'
      rw [(q3 p hp').2.1, if_pos hg, add_sub_cancel_left, hnum p hp']
    · rw [r2, if_neg hg, sub_self]
      refine Finset.sum_eq_zero (fun p hp' => ?_)
      rw [(q3 p (Finset.mem_range.mp hp')).2.1, if_neg hg, sub_self]
  · rw [(q3 p hp').2.2.1 he ii (by rw [hnum p hp']; exact hii), (r3 he).2, h.parts.energyMpi hp' (hid p hp') hii]
    rw [← centres_length h0.list]
    exact rank_lt (h.parts.mem hp' (h.locals p hp' ii hii))
  · have hw := mpi_work h.parts hf h0.atoms h0.list h0.images h0.inside hsc h.proc hid h.plan h.filled hsph
      (hs.ok hf h2 h3) q2
    refine ⟨fun b hb c hc => ?_, fun hg k hk => ?_⟩
    · rw [r4 b hb c hc, add_sub_cancel_left, ← hw.forces h0.images (fun p hp' => (h.proc p hp').entry) b hc]
      unfold forceSum
      refine Finset.sum_congr rfl (fun p hp' => Finset.sum_congr rfl (fun j hj => ?_))
      exact (q3 p (Finset.mem_range.mp hp')).2.2.2.1 j (Finset.mem_range.mp (Finset.mem_filter.mp hj).1) c hc
    · have hk' : (voigt k).1 < 3 ∧ (voigt k).2 < 3 := by interval_cases k <;> simp [voigt]
      rw [r5 hg k hk, add_sub_cancel_left, ← hw.virial hk'.1 hk'.2]
      exact Finset.sum_congr rfl (fun p hp' => (q3 p (Finset.mem_range.mp hp')).2.2.2.2 hg k hk)

end props

/-! ## Example: `exAtoms` on two processes -/

/-- Process 0 gets atom 1 from process 1, and the images of atoms 0 and 1 from itself (the second one is a ghost already
received); process 1 gets the two images of atom 0 from process 0. -/
def exPlan : List Msg := [⟨1, 0, [0], 1⟩, ⟨0, 0, [0, 1], 2⟩, ⟨0, 0, [0], 4⟩, ⟨0, 1, [0, 0], 1⟩]

theorem exPlan_ok : PlanOk 2 exPartAtoms exPartId exPlan := by
  have split : ∀ pre m post, exPlan = pre ++ m :: post →
      (pre = [] ∧ m = ⟨1, 0, [0], 1⟩) ∨ (pre = [⟨1, 0, [0], 1⟩] ∧ m = ⟨0, 0, [0, 1], 2⟩) ∨
      (pre = [⟨1, 0, [0], 1⟩, ⟨0, 0, [0, 1], 2⟩] ∧ m = ⟨0, 0, [0], 4⟩) ∨
      (pre = [⟨1, 0, [0], 1⟩, ⟨0, 0, [0, 1], 2⟩, ⟨0, 0, [0], 4⟩] ∧ m = ⟨0, 1, [0, 0], 1⟩) := by
    intro pre m post h
    unfold exPlan at h
    rcases pre with _ | ⟨a, _ | ⟨b, _ | ⟨c, _ | ⟨d, pre⟩⟩⟩⟩
    · simp only [List.nil_append, List.cons.injEq] at h; exact Or.inl ⟨rfl, h.1.symm⟩
    · simp only [List.cons_append, List.nil_append, List.cons.injEq] at h; obtain ⟨rfl, rfl, _⟩ := h; simp
    · simp only [List.cons_append, List.nil_append, List.cons.injEq] at h; obtain ⟨rfl, rfl, rfl, _⟩ := h; simp
    · simp only [List.cons_append, List.nil_append, List.cons.injEq] at h; obtain ⟨rfl, rfl, rfl, rfl, _⟩ := h; simp
    · simp at h
  refine ⟨by decide, by decide, by decide, fun pre m post h a ha => ?_, fun pre m post h k hk => ?_⟩
  · rcases split pre m post h with ⟨rfl, rfl⟩ | ⟨rfl, rfl⟩ | ⟨rfl, rfl⟩ | ⟨rfl, rfl⟩ <;> simp at ha
    · subst ha; exact Or.inl (by decide)
    · rcases ha with rfl | rfl
      · exact Or.inl (by decide)
      · exact Or.inr ⟨_, List.mem_singleton_self _, rfl, by decide, by decide⟩
    · subst ha; exact Or.inl (by decide)
    · subst ha; exact Or.inl (by decide)
  · rcases split pre m post h with ⟨rfl, rfl⟩ | ⟨rfl, rfl⟩ | ⟨rfl, rfl⟩ | ⟨rfl, rfl⟩ <;>
      simp [Known, exPartAtoms] at hk ⊢ <;> omega

theorem exMpi_ok : MpiParts exFile (3 / 2) [0, 1] 2 exPartAtoms exPartList exPartId exPlan exAtoms exList where
  proc p hp := ⟨(exPart_ok.proc p hp).atoms, (exPart_ok.proc p hp).list, (exPart_ok.proc p hp).list.entry⟩
  parts := ⟨exPart_ok.parts.once, fun p hp i hi => exPart_ok.parts.spec p hp i (List.mem_append_left _ hi),
    fun p hp i hi => exPart_ok.parts.same p hp i (List.mem_append_left _ hi)⟩
  locals p _ j hj := by
    have : j < 1 := hj
    rw [exPart_centres]
    simp
    omega
  plan := exPlan_ok
  filled p hp j hj := by
    interval_cases p
    · have : j < 5 := hj
      simp [Known, exPlan, exPartAtoms]
      omega
    · have : j < 3 := hj
      simp [Known, exPlan, exPartAtoms]
      omega

/-- The hypotheses of C43 hold for `exAtoms` on two processes. -/
example : RunOk exFile (3 / 2) [0, 1] exList exAtoms ∧
    ScalesNonzero exFile exSph (periodic exAtoms exList (3 / 2) [0, 1]) (bondVecs exAtoms exList (3 / 2)) ∧
    MpiParts exFile (3 / 2) [0, 1] 2 exPartAtoms exPartList exPartId exPlan exAtoms exList ∧
    (∀ p < 2, centres (exPartList p) = List.range (exPartAtoms p).nlocal) ∧
    GhostTallyOk (exPartAtoms 1) (exPartList 1) ⟨0, [0], [0, 0, 0, 0, 0, 0, 0, 0, 0], [0, 0, 0, 0, 0, 0]⟩ :=
  ⟨exRun.1, exRun.2.2, exMpi_ok, fun _ _ => rfl, ⟨⟨3, by decide, by simp⟩, by simp, by simp [exPartList]⟩⟩

/-! ## Violation of C43 for other orders -/

/-- One channel, no angular features; hydrogen has zero product weight and zero second-layer weight, carbon has weights 1. -/
noncomputable def flipFile : File where
  numChannels := 1
  lmax := 0
  Lmax := 0
  atomicNumbers := [1, 6]
  atomicEnergies := [0, 0]
  zbl := none
  splH := 1
  vals0 := List.replicate 3 [[1, 1, 1]]
  ders0 := List.replicate 3 [[0, 0, 0]]
  vals1 := List.replicate 3 [[1, 1, 1]]
  ders1 := List.replicate 3 [[0, 0, 0]]
  H0w := [1, 1]
  A0w := [[[1]], [[1]]]
  A0scaled := false
  A0h := 1
  A0vals := []
  A0ders := []
  M0w := fun a _ _ => [a]
  M0mon := fun _ => [[0]]
  H1w := [1]
  phil := [0]
  phil1 := [0]
  phil2 := [0]
  philme := [0]
  cg := [1]
  philelm := [0]
  A1w := [[1]]
  A1scaled := false
  A1h := 1
  A1vals := []
  A1ders := []
  M1w := fun _ _ => [0]
  M1mon := [[0]]
  H2wH1 := [[0], [1]]
  H2wM1 := [1]
  ro1 := [0]
  ro2w1 := List.replicate 16 1
  ro2w2 := List.replicate 16 1
  ro2scale := 1

theorem flipFile_ok : FileOk flipFile where
  nT := by decide
  C := by decide
  nP := by decide
  energies := by decide
  zbl := by intro z hz; cases hz
  h := by norm_num [flipFile]
  vals0 := rfl
  ders0 := rfl
  rows0 := by
    intro i hi
    have : i < 3 := hi
    interval_cases i <;> refine ⟨rfl, rfl, ?_, ?_⟩ <;> intro w hw <;> rw [List.mem_singleton.mp hw] <;> rfl
  nodes0 := by show 0 < 3; omega
  vals1 := rfl
  ders1 := rfl
  rows1 := by
    intro i hi
    have : i < 3 := hi
    interval_cases i <;> refine ⟨rfl, rfl, ?_, ?_⟩ <;> intro w hw <;> rw [List.mem_singleton.mp hw] <;> rfl
  nodes1 := by show 0 < 3; omega
  H0w := by decide
  A0w := by simp [flipFile, File.nT]
  A0s := by intro h; exact absurd h (by decide)
  M0w := by intros; rfl
  M0mon := by intros; simp [flipFile]
  H1w := by decide
  phil := by decide
  phil1 := by decide
  phil2 := by decide
  philme := by decide
  philelm := by
    have : flipFile.couplings.length = 1 := rfl
    rw [this]
    decide
  A1w := by
    refine ⟨by decide, fun l hl => ?_⟩
    have : l ≤ 0 := hl
    interval_cases l
    decide
  A1s := by intro h; exact absurd h (by decide)
  M1w := by intros; rfl
  M1mon := by decide
  H2wH1 := by simp [flipFile, File.nT]
  H2wM1 := by decide
  ro1 := by decide
  ro2w1 := rfl
  ro2w2 := rfl

/-- Hydrogen and carbon at distance 1, no ghosts. -/
def flipAtoms : Atoms where
  nlocal := 2
  nghost := 0
  x := [0, 0, 0, 1, 0, 0]
  type := [1, 2]
  tag := [1, 2]
  map := fun t => if t = 1 then some 0 else if t = 2 then some 1 else none

/-- The list in the order 1, 0. -/
def flipList : NList := ⟨2, [1, 0], [1, 1], [[1], [0]]⟩

theorem flip_centres : centres flipList = [1, 0] := rfl

theorem flip_listed : listed flipList 0 = [1] ∧ listed flipList 1 = [0] := by decide

theorem flip_nbrs : nbrs flipAtoms flipList (3 / 2) 0 = [1] ∧ nbrs flipAtoms flipList (3 / 2) 1 = [0] := by
  constructor
  · simp [nbrs, flip_listed.1, disp, pos, flipAtoms, nth, Finset.sum_range_succ]; norm_num
  · simp [nbrs, flip_listed.2, disp, pos, flipAtoms, nth, Finset.sum_range_succ]; norm_num

theorem flip_bonds : bonds flipAtoms flipList (3 / 2) (centres flipList) = [(1, 0), (0, 1)] := by
  simp [bonds, flip_centres, flip_nbrs.1, flip_nbrs.2]

theorem flip_len {e : ℕ} (he : e < 2) : len (bondVecs flipAtoms flipList (3 / 2) e) = 1 := by
  unfold len bondVecs vecs
  rw [flip_bonds]
  interval_cases e <;> simp [Finset.sum_range_succ, disp, pos, flipAtoms, nth]

theorem flip_list : ListOk flipAtoms flipList := by
  refine ⟨by decide, by decide, by decide, fun i hi => ?_⟩
  have : i = 1 ∨ i = 0 := by simpa [flip_centres] using hi
  rcases this with rfl | rfl <;> exact ⟨by decide, by decide, by decide, by decide, by decide⟩

theorem flip_run : RunOk flipFile (3 / 2) [0, 1] flipList flipAtoms := by
  refine ⟨⟨by decide, by decide, by decide, by decide⟩, flip_list, ⟨by decide, ?_, ?_⟩, fun e he => ?_⟩
  · intro i hi j hj
    have : i = 1 ∨ i = 0 := by simpa [flip_centres] using hi
    rcases this with rfl | rfl
    · rw [flip_listed.2, List.mem_singleton] at hj; subst hj; decide
    · rw [flip_listed.1, List.mem_singleton] at hj; subst hj; decide
  · intro i hi
    have : i = 1 ∨ i = 0 := by simpa [flip_centres] using hi
    rcases this with rfl | rfl <;> rfl
  · have hE : (periodic flipAtoms flipList (3 / 2) [0, 1]).E = 2 := by unfold periodic; rw [sysOf_E, flip_bonds]; rfl
    rw [hE] at he
    unfold InTable
    rw [flip_len he]
    have e0 : flipFile.nodes0 = 3 := rfl
    have e1 : flipFile.nodes1 = 3 := rfl
    exact ⟨by norm_num, by rw [e0]; norm_num [flipFile], by rw [e1]; norm_num [flipFile], fun h => absurd h (by decide),
      fun h => absurd h (by decide)⟩

theorem flip_parts : MpiParts flipFile (3 / 2) [0, 1] 1 (fun _ => flipAtoms) (fun _ => flipList) (fun _ j => j) [] flipAtoms flipList := by
  have hc : ∀ i ∈ centres flipList, i = 1 ∨ i = 0 := fun i hi => by simpa [flip_centres] using hi
  refine ⟨fun p _ => ⟨flip_run.atoms, flip_list, flip_list.entry⟩, ⟨?_, fun _ _ _ _ => rfl, fun p _ i hi => ?_⟩, fun p _ j hj => ?_,
    ⟨?_, ?_, ?_, ?_, ?_⟩, fun p _ j hj => Or.inl hj⟩
  · simp
  · apply List.Perm.of_eq
    rcases hc i hi with rfl | rfl
    · simp [view, flip_nbrs.2]; decide
    · simp [view, flip_nbrs.1]; decide
  · have : j < 2 := hj
    rw [flip_centres]
    interval_cases j <;> simp
  all_goals simp

/-- The system of `flipAtoms` with neighbour indices `idx`. -/
def flipSys (idx : List ℕ) : Sys := ⟨2, [1, 0], [1, 1], idx, [0, 1]⟩

theorem flip_sys (ix : ℕ → ℕ) : sysOf flipAtoms flipList (3 / 2) [0, 1] (centres flipList) ix = flipSys [ix 0, ix 1] := by
  unfold sysOf flipSys
  rw [flip_bonds, flip_centres]
  simp [flip_nbrs.1, flip_nbrs.2]
  decide

section
variable {sph : ℝ → ℝ → ℝ → ℕ → ℝ} {idx : List ℕ} {H : ℕ → ℕ → ℕ → ℝ}

theorem flip_edg {i : ℕ} (hi : i < 2) : (flipSys idx).edg i = {i} := by
  interval_cases i <;> simp [Sys.edg, flipSys] <;> rfl

theorem flip_h1 (hY : ∀ x y z, sph x y z 0 = 1 / (2 * Real.sqrt Real.pi)) {i : ℕ} (hi : i < 2) :
    h1 (netOf flipFile) (confOf flipFile sph (flipSys idx) (bondVecs flipAtoms flipList (3 / 2))) i 0 0 = if i = 0 then 1 else 0 := by
  have hpi : Real.sqrt Real.pi ≠ 0 := by positivity
  have hR : (confOf flipFile sph (flipSys idx) (bondVecs flipAtoms flipList (3 / 2))).R0 i 0 0 = 1 := by
    have ho : (flipSys idx).owner i = i := owner_eq (by exact hi) (by rw [flip_edg hi]; simp)
    have hp : edgePair flipFile (flipSys idx) i = 1 := by
      unfold edgePair
      rw [ho]
      change pairPos 2 (nthN [1, 0] i) (nthN [0, 1] i) = 1
      interval_cases i <;> decide
    simp only [confOf]
    rw [flip_len hi, hp]
    norm_num [flipFile, hermite, hermite01, nth, row, tbl]
  have hYe : (confOf flipFile sph (flipSys idx) (bondVecs flipAtoms flipList (3 / 2))).Y i 0 = 1 := by
    simp only [confOf, hY]
    field_simp
  have hC : (netOf flipFile).C = 1 := rfl
  have hs : Nat.sqrt 0 = 0 := rfl
  have he : (confOf flipFile sph (flipSys idx) (bondVecs flipAtoms flipList (3 / 2))).edg i = {i} := flip_edg hi
  have ha : a0s (netOf flipFile) (confOf flipFile sph (flipSys idx) (bondVecs flipAtoms flipList (3 / 2))) i 0 0 = 1 := by
    unfold a0s a0 phi0
    rw [he, hC, Finset.sum_range_one, Finset.sum_singleton, hs, hR, hYe]
    simp only [confOf, netOf]
    interval_cases i <;> simp [flipFile, flipSys, nthN, nth, row, tbl]
  unfold h1 m0
  rw [hC, Finset.sum_range_one]
  have hm : (netOf flipFile).mono0 0 = [[0]] := rfl
  rw [hm]
  simp only [polynomial, confOf, netOf, hs]
  interval_cases i <;> simp [flipFile, flipSys, nthN, nth, monomial]
  exact ha

theorem flip_nodeE {i : ℕ} (hi : i < 2) :
    nodeE (netOf flipFile) (confOf flipFile sph (flipSys idx) (bondVecs flipAtoms flipList (3 / 2))) H i
      = 16 * scaledSilu 1 (if i = 0 then H i 0 0 else 0) := by
  have hC : (netOf flipFile).C = 1 := rfl
  have h2e : h2 (netOf flipFile) (confOf flipFile sph (flipSys idx) (bondVecs flipAtoms flipList (3 / 2))) H i 0
      = if i = 0 then H i 0 0 else 0 := by
    unfold h2 m1
    rw [hC, Finset.sum_range_one, Finset.sum_range_one]
    have hm : (netOf flipFile).mono1 = [[0]] := rfl
    rw [hm]
    simp only [polynomial, confOf, netOf]
    interval_cases i <;> simp [flipFile, flipSys, nthN, nth, row]
  unfold nodeE
  have hr : ∀ x : ℕ → ℝ, (netOf flipFile).read2 x = 16 * scaledSilu 1 (x 0) := by
    intro x
    have hw : ∀ k < 16, nth (List.replicate 16 (1 : ℝ)) k = 1 := by
      intro k hk
      rw [nth, List.getElem?_replicate, if_pos hk, Option.getD_some]
    have e1 : (netOf flipFile).read2 x = ∑ k ∈ Finset.range 16, nth (List.replicate 16 (1 : ℝ)) (0 * 16 + k)
        * scaledSilu 1 (∑ j ∈ Finset.range 1, nth (List.replicate 16 (1 : ℝ)) (k * 1 + j) * x j) := by
      simp only [netOf, mlpOut, mlpHidden]
      rfl
    rw [e1]
    have e2 : ∀ k ∈ Finset.range 16, nth (List.replicate 16 (1 : ℝ)) (0 * 16 + k)
        * scaledSilu 1 (∑ j ∈ Finset.range 1, nth (List.replicate 16 (1 : ℝ)) (k * 1 + j) * x j) = scaledSilu 1 (x 0) := by
      intro k hk
      have hk := Finset.mem_range.mp hk
      rw [Finset.sum_range_one, hw _ (by omega), hw _ (by omega), one_mul, one_mul]
    rw [Finset.sum_congr rfl e2]
    simp
  rw [hr, h2e]
  simp only [confOf, netOf]
  interval_cases i <;> simp [flipFile, flipSys, nthN, nth]

end

theorem flip_result {srt : List (List (List ℕ)) → List (List (List ℕ))} (hsrt : Poly.SortFn srt) {sph : ℝ → ℝ → ℝ → ℕ → ℝ}
    {dsph : ℝ → ℝ → ℝ → ℕ → ℕ → ℝ} (hY : ∀ x y z, sph x y z 0 = 1 / (2 * Real.sqrt Real.pi)) :
    ∃ P s0, load srt sph dsph flipFile = some (P, s0) ∧ ∀ s w t, Hist flipFile P s0 s → TallyOk flipAtoms flipList t →
      ∀ st : ℕ → Proc, Hist flipFile P s0 (st 0).s → GhostTallyOk flipAtoms flipList (st 0).t →
        ∃ r st', computeSingle flipFile.zbl P (3 / 2) [0, 1] ⟨true, true, true, false⟩ flipAtoms flipList w s t = some r ∧
          computeMpi flipFile.zbl P (3 / 2) [0, 1] ⟨true, true, true, false⟩ 1 (fun _ => flipAtoms) (fun _ => flipList) [] st
            = some st' ∧ 0 < r.2.2.eng - t.eng ∧ (st' 0).t.eng - (st 0).t.eng = 0 := by
  obtain ⟨P, s0, h1, h2, h3⟩ := load_spec flipFile_ok hsrt sph dsph
  refine ⟨P, s0, h1, fun s w t hs ht st hst hgt => ?_⟩
  obtain ⟨r, r1, r2, _⟩ := single_result flipFile_ok h2 flip_run (hs.ok flipFile_ok h2 h3) w (fl := ⟨true, true, true, false⟩) rfl ht
  obtain ⟨st', Ha, q1, _, q3⟩ := mpi_result flipFile_ok h2 flip_run flip_parts (fl := ⟨true, true, true, false⟩) rfl (st := st)
    (fun p hp => by
      have : p = 0 := by omega
      subst this
      exact ⟨hst.ok flipFile_ok h2 h3, hgt⟩)
  have q4 := (q3 0 (by omega)).2.1
  have hT : periodic flipAtoms flipList (3 / 2) [0, 1] = flipSys [1, 0] := flip_sys _
  have hT' : locSys flipAtoms flipList (3 / 2) [0, 1] = flipSys [0, 1] := flip_sys _
  have e2 : flipList.inum = 2 := rfl
  have r0 : rank (centres flipList) 0 = 1 := rfl
  have hv : locVecs flipAtoms flipList (3 / 2) = bondVecs flipAtoms flipList (3 / 2) := rfl
  have z0 : scaledSilu 1 0 = 0 := by simp [scaledSilu]
  refine ⟨r, st', r1, q1, ?_, ?_⟩
  · rw [r2]
    simp only [if_true, add_sub_cancel_left]
    unfold Etot
    rw [hT, e2, Finset.sum_range_succ, Finset.sum_range_one]
    unfold energy
    rw [flip_nodeE (by omega), flip_nodeE (by omega), flip_h1 hY (by omega)]
    simp only [if_true, Nat.one_ne_zero, if_false, z0]
    unfold scaledSilu
    positivity
  · rw [q4]
    simp only [if_true, add_sub_cancel_left]
    rw [hT', hv, e2, Finset.sum_range_succ, Finset.sum_range_one, flip_nodeE (by omega), flip_nodeE (by omega)]
    unfold feat
    rw [r0, hT, flip_h1 hY (by omega)]
    simp [z0]

/-- C43 fails for neighbour lists in another order: with the list `[1, 0]` the energy of a two-atom system on one process differs
from that of the single-process mode on the same atoms with the same list (the self-connections and readouts use the features
of the other atom). `sph` is any function with the correct constant harmonic. -/
theorem C43_violated : ∃ f rc mt A L κ ms A0 L0, FileOk f ∧ RunOk f rc mt L0 A0 ∧ MpiParts f rc mt 1 A L κ ms A0 L0 ∧
    ∀ srt, Poly.SortFn srt → ∀ sph dsph, (∀ x y z, sph x y z 0 = 1 / (2 * Real.sqrt Real.pi)) →
      ∃ P s0, load srt sph dsph f = some (P, s0) ∧ ∀ s w t, Hist f P s0 s → TallyOk A0 L0 t →
        ∀ st : ℕ → Proc, Hist f P s0 (st 0).s → GhostTallyOk (A 0) (L 0) (st 0).t →
          ∃ r st', computeSingle f.zbl P rc mt ⟨true, true, true, false⟩ A0 L0 w s t = some r ∧
            computeMpi f.zbl P rc mt ⟨true, true, true, false⟩ 1 A L ms st = some st' ∧
            0 < r.2.2.eng - t.eng ∧ (st' 0).t.eng - (st 0).t.eng = 0 :=
  ⟨flipFile, 3 / 2, [0, 1], fun _ => flipAtoms, fun _ => flipList, fun _ j => j, [], flipAtoms, flipList, flipFile_ok, flip_run,
    flip_parts, fun _ hsrt _ _ hY => flip_result hsrt hY⟩

end Verif.Props
