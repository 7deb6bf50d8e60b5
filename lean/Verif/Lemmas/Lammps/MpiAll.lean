import Verif.Lemmas.Lammps.MpiEval
import Verif.Lemmas.Lammps.Share
import Verif.Lemmas.Lammps.NoMpiSum

/-! # `compute_mpi_message_passing` on all processes -/

namespace Verif.Lammps
open Verif.MACE Verif.Spec

variable {rc : ℝ} {mt : List ℕ} {f : File} {sph : ℝ → ℝ → ℝ → ℕ → ℝ} {dsph : ℝ → ℝ → ℝ → ℕ → ℕ → ℝ} {P : Params ℝ}
  {np : ℕ} {As : ℕ → Atoms} {Ls : ℕ → NList} {κ : ℕ → ℕ → ℕ} {A0 : Atoms} {L0 : NList} {ms : List Msg}

/-- First-layer features of the atoms of process `p`, taken from the whole system. -/
noncomputable def feat (f : File) (sph : ℝ → ℝ → ℝ → ℕ → ℝ) (T0 : Sys) (X0 : ℕ → ℕ → ℝ) (L0 : NList) (κ : ℕ → ℕ) : ℕ → ℕ → ℕ → ℝ :=
  fun v LM k => h1 (netOf f) (confOf f sph T0 X0) (rank (centres L0) (κ v)) LM k

/-- The contributions of a process whose adjoints are `Ha`. -/
noncomputable def mpiTally (f : File) (sph : ℝ → ℝ → ℝ → ℕ → ℝ) (dsph : ℝ → ℝ → ℝ → ℕ → ℕ → ℝ) (rc : ℝ) (mt : List ℕ) (fl : Flags)
    (A : Atoms) (L : NList) (H Ha : ℕ → ℕ → ℕ → ℝ) (t t' : Tally) : Prop :=
  t'.eng = (if fl.eGlobal then t.eng + ∑ i ∈ Finset.range L.inum,
      nodeE (netOf f) (confOf f sph (locSys A L rc mt) (locVecs A L rc)) H i else t.eng) ∧
  (fl.eAtom → ∀ ii < L.inum, t'.eatom[ii]? = some (nodeE (netOf f) (confOf f sph (locSys A L rc mt) (locVecs A L rc)) H ii)) ∧
  (∀ a < natoms A, ∀ c < 3, nth t'.f (3 * a + c) - nth t.f (3 * a + c)
    = ∑ e ∈ Finset.range (bonds A L rc (centres L)).length,
      forcePart f sph dsph (locSys A L rc mt) (locVecs A L rc) L.inum H Ha e c
        * ((if a = endB A L rc (centres L) e then 1 else 0) - if a = endA A L rc (centres L) e then 1 else 0)) ∧
  (fl.vGlobal → ∀ k < 6, nth t'.virial k - nth t.virial k = ∑ e ∈ Finset.range (bonds A L rc (centres L)).length,
    1 / 2 * (locVecs A L rc e (voigt k).1 * forcePart f sph dsph (locSys A L rc mt) (locVecs A L rc) L.inum H Ha e (voigt k).2
      + locVecs A L rc e (voigt k).2 * forcePart f sph dsph (locSys A L rc mt) (locVecs A L rc) L.inum H Ha e (voigt k).1))

/-- The accumulators of a process whose adjoints are `Ha` after the call. -/
noncomputable def mpiOut (f : File) (sph : ℝ → ℝ → ℝ → ℕ → ℝ) (dsph : ℝ → ℝ → ℝ → ℕ → ℕ → ℝ) (rc : ℝ) (mt : List ℕ) (fl : Flags)
    (A : Atoms) (L : NList) (H Ha : ℕ → ℕ → ℕ → ℝ) (M : ℕ) (t : Tally) : Tally where
  eng := if fl.eGlobal then t.eng + ∑ i ∈ Finset.range L.inum,
    nodeE (netOf f) (confOf f sph (locSys A L rc mt) (locVecs A L rc)) H i else t.eng
  eatom := if fl.eAtom then tab t.eatom.length (fun i => if i < L.inum then
    nodeE (netOf f) (confOf f sph (locSys A L rc mt) (locVecs A L rc)) H i else nth t.eatom i) else t.eatom
  f := tab2 M 3 (fun a c => nth t.f (3 * a + c) + ∑ e ∈ Finset.range (bonds A L rc (centres L)).length,
    forcePart f sph dsph (locSys A L rc mt) (locVecs A L rc) L.inum H Ha e c
      * ((if a = endB A L rc (centres L) e then 1 else 0) - if a = endA A L rc (centres L) e then 1 else 0))
  virial := if fl.vGlobal then tab t.virial.length (fun k => nth t.virial k + if k < 6 then
    ∑ e ∈ Finset.range (bonds A L rc (centres L)).length,
      1 / 2 * (locVecs A L rc e (voigt k).1 * forcePart f sph dsph (locSys A L rc mt) (locVecs A L rc) L.inum H Ha e (voigt k).2
        + locVecs A L rc e (voigt k).2 * forcePart f sph dsph (locSys A L rc mt) (locVecs A L rc) L.inum H Ha e (voigt k).1)
      else 0) else tab t.virial.length (nth t.virial)

theorem mpiOut_tally {fl : Flags} {A : Atoms} {L : NList} {H Ha : ℕ → ℕ → ℕ → ℝ} {M : ℕ} {t : Tally} (hM : natoms A ≤ M)
    (h6 : 6 ≤ t.virial.length) (he : L.inum ≤ t.eatom.length) :
    mpiTally f sph dsph rc mt fl A L H Ha t (mpiOut f sph dsph rc mt fl A L H Ha M t) := by
  unfold mpiOut
  refine ⟨rfl, fun hf' ii hii => ?_, fun a ha c hc' => ?_, fun hg' k hk => ?_⟩
  · simp only [hf', if_true]
    rw [getElem?_tab_lt (by omega), if_pos hii]
  · dsimp only
    rw [mul_comm 3 a]
    have hq := lt_of_lt_of_le ha hM
    conv_lhs => rw [nth]
    rw [getElem?_tab2 hq hc', Option.getD_some, mul_comm a 3]
    ring
  · simp only [hg', if_true]
    rw [nth_tab (by omega), if_pos hk, add_sub_cancel_left]

/-- Derivatives with respect to the features of the atoms of the processes, after the reverse communication. -/
noncomputable def mpiAdj (f : File) (sph : ℝ → ℝ → ℝ → ℕ → ℝ) (rc : ℝ) (mt : List ℕ) (As : ℕ → Atoms) (Ls : ℕ → NList) (κ : ℕ → ℕ → ℕ)
    (ms : List Msg) (A0 : Atoms) (L0 : NList) (p j LM k : ℕ) : ℝ :=
  revRows ms (fun p j q => H1adj (netOf f) (confOf f sph (locSys (As p) (Ls p) rc mt) (locVecs (As p) (Ls p) rc)) (Ls p).inum
    (feat f sph (periodic A0 L0 rc mt) (bondVecs A0 L0 rc) L0 (κ p)) (roGrad f) j (q / (netOf f).C) (q % (netOf f).C))
    p j (LM * (netOf f).C + k)

/-- Features of the local atoms, as computed by their process. -/
theorem Parts.h1_local (h : Parts np As Ls κ (fun p => centres (Ls p)) A0 L0 rc mt) {p : ℕ} (hp : p < np) {j : ℕ}
    (hj : j ∈ centres (Ls p)) (LM k : ℕ) :
    h1 (netOf f) (confOf f sph (locSys (As p) (Ls p) rc mt) (locVecs (As p) (Ls p) rc)) (rank (centres (Ls p)) j) LM k
      = feat f sph (periodic A0 L0 rc mt) (bondVecs A0 L0 rc) L0 (κ p) j LM k := by
  obtain ⟨σ, e3, _⟩ := h.env hp (fun j => j) (rank_lt hj) (h.mem hp (List.getElem_mem _))
  have := e3.h1 (f := f) (sph := sph) (rank_lt hj) (rank_lt (h.mem hp (List.getElem_mem _))) k LM
  rw [get_rank hj] at this
  exact this.symm

theorem computeMpi_spec (hf : FileOk f) (hP : Loaded f sph dsph P)
    (h : Parts np As Ls κ (fun p => centres (Ls p)) A0 L0 rc mt)
    (hX : Inside f (periodic A0 L0 rc mt) (bondVecs A0 L0 rc)) (hp : ∀ p < np, ProcOk f mt (As p) (Ls p) (centres (Ls p)))
    (hloc : ∀ p < np, ∀ j < (As p).nlocal, j ∈ centres (Ls p)) (hpl : PlanOk np As κ ms)
    (hall : ∀ p < np, ∀ j < natoms (As p), Known As ms p j) {st : ℕ → Proc} (hs : ∀ p < np, StOk f (st p).s)
    {fl : Flags} (hv : fl.vAtom = false) {M : ℕ → ℕ} (hM : ∀ p < np, natoms (As p) ≤ M p ∧
      (st p).t.f = tab2 (M p) 3 (fun a c => nth (st p).t.f (3 * a + c)))
    (hm : ∀ p < np, 6 ≤ (st p).t.virial.length) (hea : ∀ p < np, (Ls p).inum ≤ (st p).t.eatom.length) :
    ∃ st' : ℕ → Proc, computeMpi f.zbl P rc mt fl np As Ls ms st = some st' ∧
      (∀ x : ℕ → ℕ → ℕ → ℝ, ∑ p ∈ Finset.range np, ∑ j ∈ Finset.range (As p).nlocal,
          ∑ LM ∈ Finset.range (netOf f).LM, ∑ k ∈ Finset.range (netOf f).C, mpiAdj f sph rc mt As Ls κ ms A0 L0 p j LM k * x (κ p j) LM k
        = ∑ p ∈ Finset.range np, ∑ j ∈ Finset.range (natoms (As p)),
          ∑ LM ∈ Finset.range (netOf f).LM, ∑ k ∈ Finset.range (netOf f).C,
            H1adj (netOf f) (confOf f sph (locSys (As p) (Ls p) rc mt) (locVecs (As p) (Ls p) rc)) (Ls p).inum
              (feat f sph (periodic A0 L0 rc mt) (bondVecs A0 L0 rc) L0 (κ p)) (roGrad f) j LM k * x (κ p j) LM k) ∧
      ∀ p < np, StOk f (st' p).s ∧ (st' p).t = mpiOut f sph dsph rc mt fl (As p) (Ls p)
        (feat f sph (periodic A0 L0 rc mt) (bondVecs A0 L0 rc) L0 (κ p)) (mpiAdj f sph rc mt As Ls κ ms A0 L0 p) (M p) (st p).t := by
  classical
  set W := netOf f with hW
  have hC : P.LM * P.C = W.LM * W.C := by
    unfold Params.LM Net.LM
    rw [hP.wok.Lmax, hP.wok.C]
  have hc : ∀ p < np, ∀ i ∈ centres (Ls p), κ p i ∈ centres L0 := fun p hp' i hi => h.mem hp' hi
  have hin : ∀ p < np, Inside f (locSys (As p) (Ls p) rc mt) (locVecs (As p) (Ls p) rc) := fun p hp' => h.inside hp' (hc p hp') hX _
  have hil : ∀ p < np, (Ls p).inum ≤ natoms (As p) := by
    intro p hp'
    have h1 := (hp p hp').list
    rw [← centres_length h1]
    have : (centres (Ls p)).length ≤ (List.range (natoms (As p))).length :=
      (List.Nodup.subperm h1.nodup (fun i hi => List.mem_range.mpr (h1.entry i hi).lt)).length_le
    simpa using this
  -- first phase
  have p1 : ∀ p, ∃ q, p < np → mpi1 f.zbl P rc mt (As p) (Ls p) (st p) = some q ∧ Ph1 f sph dsph rc mt (As p) (Ls p) (st p) q := by
    intro p
    by_cases hp' : p < np
    · obtain ⟨q, hq⟩ := mpi1_spec hf hP (hp p hp').atoms (hp p hp').list (hin p hp') (hs p hp')
      exact ⟨q, fun _ => hq⟩
    · exact ⟨st p, fun h => absurd h hp'⟩
  choose q1 hq1 using p1
  have e1 := eachProc_eq (fun p hp' => (hq1 p hp').1)
  -- forward communication
  have hH : ∀ p, ∃ g : ℕ → ℕ → ℝ, p < np → (q1 p).H1 = tab2 (natoms (As p)) (W.LM * W.C) (fun a k => if a ∈ centres (Ls p) then
      h1 W (confOf f sph (locSys (As p) (Ls p) rc mt) (locVecs (As p) (Ls p) rc)) (rank (centres (Ls p)) a) (k / W.C) (k % W.C) else g a k) := by
    intro p
    by_cases hp' : p < np
    · obtain ⟨g, hg⟩ := (hq1 p hp').2.H1
      exact ⟨g, fun _ => hg⟩
    · exact ⟨fun _ _ => 0, fun h => absurd h hp'⟩
  choose g hg using hH
  have key1 : ∀ p < np, ∀ j < (As p).nlocal, ∀ k < W.LM * W.C,
      (if j ∈ centres (Ls p) then h1 W (confOf f sph (locSys (As p) (Ls p) rc mt) (locVecs (As p) (Ls p) rc)) (rank (centres (Ls p)) j)
        (k / W.C) (k % W.C) else g p j k)
      = (fun b k => h1 W (confOf f sph (periodic A0 L0 rc mt) (bondVecs A0 L0 rc)) (rank (centres L0) b) (k / W.C) (k % W.C)) (κ p j) k := by
    intro p hp' j hj k _
    have hjc := hloc p hp' j hj
    rw [if_pos hjc]
    exact h.h1_local hp' hjc _ _
  obtain ⟨H', g', c1, c2, c3⟩ := forward_eq (C := W.LM * W.C)
    (x := fun b k => h1 W (confOf f sph (periodic A0 L0 rc mt) (bondVecs A0 L0 rc)) (rank (centres L0) b) (k / W.C) (k % W.C)) (H := fun p => if p < np then (q1 p).H1 else (st p).H1)
    (g := fun p a k => if a ∈ centres (Ls p) then h1 W (confOf f sph (locSys (As p) (Ls p) rc mt) (locVecs (As p) (Ls p) rc))
      (rank (centres (Ls p)) a) (k / W.C) (k % W.C) else g p a k) hpl (fun p hp' => by rw [if_pos hp']; exact hg p hp') key1
  have c4 : ∀ p < np, H' p = T3 (natoms (As p)) W.LM W.C (feat f sph (periodic A0 L0 rc mt) (bondVecs A0 L0 rc) L0 (κ p)) := by
    intro p hp'
    rw [c2 p hp', T3_tab2]
    exact tab2_congr (fun j hj k hk => c3 p hp' j (hall p hp' j hj) k hk)
  -- second phase
  have p2 : ∀ p, ∃ q, p < np → mpi2 P (Ls p) (H' p) (q1 p) = some q ∧
      Ph2 f sph dsph rc mt (As p) (Ls p) (feat f sph (periodic A0 L0 rc mt) (bondVecs A0 L0 rc) L0 (κ p)) (q1 p) q := by
    intro p
    by_cases hp' : p < np
    · obtain ⟨q, hq⟩ := mpi2_spec hf hP (hp p hp').atoms (hp p hp').list (hin p hp') (hs p hp') (hq1 p hp').2 (hil p hp') (c4 p hp')
      exact ⟨q, fun _ => hq⟩
    · exact ⟨st p, fun h => absurd h hp'⟩
  choose q2 hq2 using p2
  have e2 := eachProc_eq (f := fun p => mpi2 P (Ls p) (H' p)) (st := fun p => if p < np then q1 p else st p) (st' := q2) (np := np)
    (fun p hp' => by rw [if_pos hp']; exact (hq2 p hp').1)
  -- reverse communication
  obtain ⟨Ha', r1, r2, r3⟩ := reverse_eq (C := W.LM * W.C)
    (H := fun p => (if p < np then q2 p else if p < np then q1 p else st p).s.H1a)
    (a := fun p j k => H1adj W (confOf f sph (locSys (As p) (Ls p) rc mt) (locVecs (As p) (Ls p) rc)) (Ls p).inum
      (feat f sph (periodic A0 L0 rc mt) (bondVecs A0 L0 rc) L0 (κ p)) (roGrad f) j (k / W.C) (k % W.C)) hpl (fun p hp' => by
      rw [if_pos hp', (hq2 p hp').2.out.H1a, T3_tab2]
      change tab2 _ _ (fun i q => H1adj W _ (locSys (As p) (Ls p) rc mt).N _ _ i (q / W.C) (q % W.C)) = _
      have hN : (locSys (As p) (Ls p) rc mt).N = (Ls p).inum := centres_length (hp p hp').list
      rw [hN])
  have r4 : ∀ p < np, Ha' p = T3 (natoms (As p)) W.LM W.C (mpiAdj f sph rc mt As Ls κ ms A0 L0 p) := fun p hp' => by
    rw [r2 p hp', tab2_T3]; rfl
  -- third phase
  have p3 : ∀ p, ∃ q, p < np → mpi3 P fl (Ls p) (Ha' p) (q2 p) = some q ∧ StOk f q.s ∧ q.t = mpiOut f sph dsph rc mt fl (As p) (Ls p)
      (feat f sph (periodic A0 L0 rc mt) (bondVecs A0 L0 rc) L0 (κ p)) (mpiAdj f sph rc mt As Ls κ ms A0 L0 p) (M p) (st p).t := by
    intro p
    by_cases hp' : p < np
    · have hv0 : (st p).t.virial = tab (st p).t.virial.length (nth (st p).t.virial) := by
        rw [eq_tab_iff]; exact ⟨rfl, fun i hi => get_nth hi⟩
      obtain ⟨q, x1, x2, x3⟩ := mpi3_spec hf hP (hp p hp').atoms (hp p hp').list (hin p hp') (hs p hp') (hq1 p hp').2 (hq2 p hp').2
        (hil p hp') (r4 p hp') hv (hM p hp').2 hv0 (hM p hp').1 (hm p hp') (hea p hp')
      exact ⟨q, fun _ => ⟨x1, x2, x3⟩⟩
    · exact ⟨st p, fun h => absurd h hp'⟩
  choose q3 hq3 using p3
  have e3 := eachProc_eq (f := fun p => mpi3 P fl (Ls p) (Ha' p))
    (st := fun p => if p < np then q2 p else if p < np then q1 p else st p) (st' := q3) (np := np)
    (fun p hp' => by rw [if_pos hp']; exact (hq3 p hp').1)
  refine ⟨fun p => if p < np then q3 p else if p < np then q2 p else if p < np then q1 p else st p, ?_, fun x => ?_, fun p hp' => ?_⟩
  · unfold computeMpi
    simp only [Option.bind_eq_bind]
    rw [e1, Option.bind_some, hC]
    have : (fun p => (if p < np then q1 p else st p).H1) = fun p => if p < np then (q1 p).H1 else (st p).H1 := by
      funext p; split <;> rfl
    rw [this, c1, Option.bind_some, e2, Option.bind_some, r1, Option.bind_some, e3]
  · have hs : ∀ F : ℕ → ℕ → ℝ, ∑ k ∈ Finset.range (W.LM * W.C), F (k / W.C) (k % W.C)
        = ∑ LM ∈ Finset.range W.LM, ∑ k ∈ Finset.range W.C, F LM k := by
      intro F
      rw [sum_flat]
      refine Finset.sum_congr rfl (fun LM _ => Finset.sum_congr rfl (fun k hk => ?_))
      rw [flat_div (Finset.mem_range.mp hk), flat_mod (Finset.mem_range.mp hk)]
    have := r3 (fun b k => x b (k / W.C) (k % W.C))
    have hfil : ∀ p < np, (Finset.range (natoms (As p))).filter (Known As ms p) = Finset.range (natoms (As p)) :=
      fun p hp' => Finset.filter_true_of_mem (fun j hj => hall p hp' j (Finset.mem_range.mp hj))
    refine Eq.trans ?_ (this.trans ?_)
    · refine Finset.sum_congr rfl (fun p _ => Finset.sum_congr rfl (fun j _ => ?_))
      rw [← hs (fun LM k => mpiAdj f sph rc mt As Ls κ ms A0 L0 p j LM k * x (κ p j) LM k)]
      refine Finset.sum_congr rfl (fun q hq => ?_)
      obtain ⟨LM, k, _, hk, rfl⟩ := flat_decomp (Finset.mem_range.mp hq)
      unfold mpiAdj
      rw [flat_div hk, flat_mod hk]
    · refine Finset.sum_congr rfl (fun p hp' => ?_)
      rw [hfil p (Finset.mem_range.mp hp')]
      refine Finset.sum_congr rfl (fun j _ => ?_)
      exact hs (fun LM k => H1adj W (confOf f sph (locSys (As p) (Ls p) rc mt) (locVecs (As p) (Ls p) rc)) (Ls p).inum
        (feat f sph (periodic A0 L0 rc mt) (bondVecs A0 L0 rc) L0 (κ p)) (roGrad f) j LM k * x (κ p j) LM k)
  · dsimp only
    rw [if_pos hp']
    exact (hq3 p hp').2

end Verif.Lammps
