import Verif.Lemmas.Lammps.MpiAll

/-! # Sums over all processes in `mpi_message_passing` mode

The neighbour lists of the processes list the local atoms in order (`centres (L p) = [0, …, nlocal - 1]`). -/

namespace Verif.Lammps
open Verif.MACE Verif.Spec

variable {rc : ℝ} {mt : List ℕ} {f : File} {sph : ℝ → ℝ → ℝ → ℕ → ℝ} {dsph : ℝ → ℝ → ℝ → ℕ → ℕ → ℝ}
  {np : ℕ} {As : ℕ → Atoms} {Ls : ℕ → NList} {κ : ℕ → ℕ → ℕ} {A0 : Atoms} {L0 : NList} {ms : List Msg}

/-- Every atom which is local or received is an image of an atom in `S`, if every local atom is. -/
theorem PlanOk.mem (hpl : PlanOk np As κ ms) {S : List ℕ} (hS : ∀ p < np, ∀ j < (As p).nlocal, κ p j ∈ S) :
    ∀ p < np, ∀ j, Known As ms p j → κ p j ∈ S := by
  induction ms using List.reverseRecOn with
  | nil =>
    intro p hp j hj
    rcases hj with hj | ⟨m, hm, _⟩
    · exact hS p hp j hj
    · simp at hm
  | append_singleton l m ih =>
    have ih := ih hpl.init
    intro p hp j hj
    rcases hj with hj | ⟨m', hm', h1, h2, h3⟩
    · exact hS p hp j hj
    · rcases List.mem_append.mp hm' with hm | hm
      · exact ih p hp j (Or.inr ⟨m', hm, h1, h2, h3⟩)
      · rw [List.mem_singleton] at hm
        subst hm
        have hmem : m' ∈ l ++ [m'] := by simp
        obtain ⟨k, rfl⟩ := Nat.exists_eq_add_of_le h2
        have hk : k < m'.list.length := by omega
        rw [← h1, hpl.image _ hmem k hk]
        refine ih _ (hpl.proc _ hmem).1 _ (hpl.sent l m' [] rfl _ ?_)
        rw [nthN_getElem hk]
        exact List.getElem_mem hk

theorem range_get {l : List ℕ} {n : ℕ} (h : l = List.range n) {ii : ℕ} (hi : ii < l.length) : l[ii] = ii := by
  subst h; simp

/-- Energies of the nodes, given the features of the whole system. -/
theorem SameEnv.nodeFeat {T : Sys} {X : ℕ → ℕ → ℝ} {T0 : Sys} {X0 : ℕ → ℕ → ℝ} {i : ℕ} {σ : ℕ → ℕ} {κ : ℕ → ℕ}
    (h : SameEnv T X T0 X0 i (rank (centres L0) (κ i)) σ) (hi : i < T.N) (hi' : rank (centres L0) (κ i) < T0.N)
    (hn : ∀ e ∈ T.edg i, nthN T0.idx (σ e) = rank (centres L0) (κ (nthN T.idx e))) :
    nodeE (netOf f) (confOf f sph T X) (feat f sph T0 X0 L0 κ) i
      = Spec.energy (netOf f) (confOf f sph T0 X0) (rank (centres L0) (κ i)) := by
  symm
  refine h.nodeE hi hi' (fun e he LM k => ?_) (fun LM k => rfl)
  rw [hn e he]
  rfl

/-- Neighbours of the process and of the whole system. -/
theorem Parts.envLoc (h : Parts np As Ls κ (fun p => centres (Ls p)) A0 L0 rc mt) {p : ℕ} (hp : p < np) {n : ℕ}
    (hid : centres (Ls p) = List.range n) {ii : ℕ} (hi : ii < n) :
    ∃ σ, SameEnv (locSys (As p) (Ls p) rc mt) (locVecs (As p) (Ls p) rc) (periodic A0 L0 rc mt)
        (bondVecs A0 L0 rc) ii (rank (centres L0) (κ p ii)) σ ∧
      ∀ e ∈ (locSys (As p) (Ls p) rc mt).edg ii,
        nthN (periodic A0 L0 rc mt).idx (σ e) = rank (centres L0) (κ p (nthN (locSys (As p) (Ls p) rc mt).idx e)) := by
  have hl : ii < (centres (Ls p)).length := by rw [hid, List.length_range]; exact hi
  have hc := h.mem hp (List.getElem_mem hl)
  obtain ⟨σ, e1, e2⟩ := h.env hp (fun j => j) hl hc
  rw [range_get hid hl] at e1 hc
  refine ⟨σ, e1, fun e he => ?_⟩
  have hb := edg_lt_bonds (ns := centres (Ls p)) hl he
  have hb' : σ e < (bonds A0 L0 rc (centres L0)).length := edg_lt_bonds (ns := centres L0) (rank_lt hc) (e1.bij.1 he)
  unfold periodic
  rw [sysOf_idx hb', e2 _ he, sysOf_idx hb]

theorem Parts.energyMpi (h : Parts np As Ls κ (fun p => centres (Ls p)) A0 L0 rc mt) {p : ℕ} (hp : p < np) {n : ℕ}
    (hid : centres (Ls p) = List.range n) {ii : ℕ} (hi : ii < n) :
    nodeE (netOf f) (confOf f sph (locSys (As p) (Ls p) rc mt) (locVecs (As p) (Ls p) rc))
        (feat f sph (periodic A0 L0 rc mt) (bondVecs A0 L0 rc) L0 (κ p)) ii
      = Spec.energy (netOf f) (confOf f sph (periodic A0 L0 rc mt) (bondVecs A0 L0 rc)) (rank (centres L0) (κ p ii)) := by
  obtain ⟨σ, e1, e2⟩ := h.envLoc hp hid hi
  have hl : ii < (centres (Ls p)).length := by rw [hid, List.length_range]; exact hi
  have hc : κ p ii ∈ centres L0 := h.mem hp (by rw [hid]; exact List.mem_range.mpr hi)
  exact SameEnv.nodeFeat e1 hl (rank_lt hc) e2

/-- A sum over the local atoms of all processes. -/
theorem Parts.sumLoc (h : Parts np As Ls κ (fun p => centres (Ls p)) A0 L0 rc mt)
    (hid : ∀ p < np, centres (Ls p) = List.range (As p).nlocal) (hd : (centres L0).Nodup) (g : ℕ → ℝ) :
    ∑ p ∈ Finset.range np, ∑ i ∈ Finset.range (As p).nlocal, g (rank (centres L0) (κ p i))
      = ∑ b ∈ Finset.range (centres L0).length, g b := by
  have h1 := h.sum (fun b => g (rank (centres L0) b))
  rw [← sum_nodes] at h1
  have h2 : ∀ i ∈ Finset.range (centres L0).length, g (rank (centres L0) (nthN (centres L0) i)) = g i := by
    intro i hi
    rw [nthN_getElem (Finset.mem_range.mp hi), rank_get hd]
  rw [Finset.sum_congr rfl h2] at h1
  rw [← h1]
  refine Finset.sum_congr rfl (fun p hp => ?_)
  rw [hid p (Finset.mem_range.mp hp), ← sum_nodes, List.length_range]
  refine Finset.sum_congr rfl (fun i hi => ?_)
  rw [nthN_getElem (by simpa using hi), List.getElem_range]

theorem Parts.totalMpi (h : Parts np As Ls κ (fun p => centres (Ls p)) A0 L0 rc mt) (hL0 : ListOk A0 L0)
    (hid : ∀ p < np, centres (Ls p) = List.range (As p).nlocal) :
    ∑ p ∈ Finset.range np, ∑ ii ∈ Finset.range (As p).nlocal,
      nodeE (netOf f) (confOf f sph (locSys (As p) (Ls p) rc mt) (locVecs (As p) (Ls p) rc))
        (feat f sph (periodic A0 L0 rc mt) (bondVecs A0 L0 rc) L0 (κ p)) ii = Etot f sph L0 rc mt A0 := by
  unfold Etot
  rw [← centres_length hL0, ← h.sumLoc hid hL0.nodup]
  refine Finset.sum_congr rfl (fun p hp => Finset.sum_congr rfl (fun i hi => ?_))
  exact h.energyMpi (Finset.mem_range.mp hp) (hid p (Finset.mem_range.mp hp)) (Finset.mem_range.mp hi)

/-- Environments along consistent displacements. -/
theorem Parts.envMoved (h : Parts np As Ls κ (fun p => centres (Ls p)) A0 L0 rc mt)
    (hid : ∀ p < np, centres (Ls p) = List.range (As p).nlocal)
    {u : ℕ → ℕ → ℕ → ℝ} {u0 : ℕ → ℕ → ℝ} {ψ : ℕ → (Fin 3 → ℝ) → ℕ → ℕ → ℝ}
    (hψ : ∀ p < np, ∀ i ∈ centres (Ls p), ∀ j ∈ listed (Ls p) i, ∀ c < 3,
      u p j c - u p i c = ψ (κ p i) (fun c => disp (As p) i j c) (κ p j) c)
    (hψ0 : ∀ b ∈ centres L0, ∀ j ∈ listed L0 b, ∀ c < 3, u0 j c - u0 b c = ψ b (fun c => disp A0 b j c) (original A0 j) c) (τ : ℝ) :
    ∀ p < np, ∀ ii < (As p).nlocal, ∃ σ,
      SameEnv (locSys (As p) (Ls p) rc mt)
        (fun e a => locVecs (As p) (Ls p) rc e a + τ * edgeDir (As p) (Ls p) rc (centres (Ls p)) (u p) e a) (periodic A0 L0 rc mt)
        (fun e a => bondVecs A0 L0 rc e a + τ * edgeDir A0 L0 rc (centres L0) u0 e a) ii (rank (centres L0) (κ p ii)) σ ∧
      ∀ e ∈ (locSys (As p) (Ls p) rc mt).edg ii,
        nthN (periodic A0 L0 rc mt).idx (σ e) = rank (centres L0) (κ p (nthN (locSys (As p) (Ls p) rc mt).idx e)) := by
  intro p hp ii hii
  have hl : ii < (centres (Ls p)).length := by rw [hid p hp, List.length_range]; exact hii
  have hc := h.mem hp (List.getElem_mem hl)
  obtain ⟨σ, e1, e2⟩ := h.envDir hp (fun j => j) (hψ p hp) hψ0 τ hl hc
  rw [range_get (hid p hp) hl] at e1 hc
  refine ⟨σ, e1, fun e he => ?_⟩
  have hb := edg_lt_bonds (ns := centres (Ls p)) hl he
  have hb' : σ e < (bonds A0 L0 rc (centres L0)).length := edg_lt_bonds (ns := centres L0) (rank_lt hc) (e1.bij.1 he)
  unfold periodic
  rw [sysOf_idx hb', e2 _ he, sysOf_idx hb]

/-- The work of the forces of all processes along consistent displacements is that of the forces of the whole system, when the
adjoints of local atoms carry what all processes have collected. -/
theorem mpi_work (h : Parts np As Ls κ (fun p => centres (Ls p)) A0 L0 rc mt) (hf : FileOk f) (hA0 : AtomsOk A0 mt f.nT)
    (hL0 : ListOk A0 L0) (hI : ImagesOk A0 L0) (hX : Inside f (periodic A0 L0 rc mt) (bondVecs A0 L0 rc))
    (hsc : Props.ScalesNonzero f sph (periodic A0 L0 rc mt) (bondVecs A0 L0 rc))
    (hp : ∀ p < np, ProcOk f mt (As p) (Ls p) (centres (Ls p)))
    (hid : ∀ p < np, centres (Ls p) = List.range (As p).nlocal)
    (hpl : PlanOk np As κ ms) (hall : ∀ p < np, ∀ j < natoms (As p), Known As ms p j)
    (hsph : IsSphGrad sph dsph ((f.lmax + 1) * (f.lmax + 1))) {s : State ℝ} (hs : StOk f s) {Ha : ℕ → ℕ → ℕ → ℕ → ℝ}
    (hHa : ∀ x : ℕ → ℕ → ℕ → ℝ, ∑ p ∈ Finset.range np, ∑ j ∈ Finset.range (As p).nlocal,
          ∑ LM ∈ Finset.range (netOf f).LM, ∑ k ∈ Finset.range (netOf f).C, Ha p j LM k * x (κ p j) LM k
        = ∑ p ∈ Finset.range np, ∑ j ∈ Finset.range (natoms (As p)),
          ∑ LM ∈ Finset.range (netOf f).LM, ∑ k ∈ Finset.range (netOf f).C,
            H1adj (netOf f) (confOf f sph (locSys (As p) (Ls p) rc mt) (locVecs (As p) (Ls p) rc)) (Ls p).inum
              (feat f sph (periodic A0 L0 rc mt) (bondVecs A0 L0 rc) L0 (κ p)) (roGrad f) j LM k * x (κ p j) LM k) :
    SameWork rc np As Ls κ (fun p => centres (Ls p)) A0 L0
      (fun p => forcePart f sph dsph (locSys (As p) (Ls p) rc mt) (locVecs (As p) (Ls p) rc) (Ls p).inum
        (feat f sph (periodic A0 L0 rc mt) (bondVecs A0 L0 rc) L0 (κ p)) (Ha p))
      (forceOf f sph dsph (periodic A0 L0 rc mt) (bondVecs A0 L0 rc)) := by
  intro u u0 ψ hψ hψ0
  have hev := h.envMoved hid hψ hψ0
  set T0 := periodic A0 L0 rc mt with hT0
  set X0 := bondVecs A0 L0 rc with hX0
  set D0 := edgeDir A0 L0 rc (centres L0) u0 with hD0
  have hT := periodic_ok (rc := rc) hA0 hL0 hI
  have hn0 : ∀ i < T0.N, (confOf f sph T0 X0).s0 i ≠ 0 := fun i hi => (hsc i hi).1
  have hn1 : ∀ i < T0.N, (confOf f sph T0 X0).s1 i ≠ 0 := fun i hi => (hsc i hi).2
  have hE : ∀ p, (locSys (As p) (Ls p) rc mt).E = (bonds (As p) (Ls p) rc (centres (Ls p))).length := fun p => sysOf_E _ _
  have hE0 : T0.E = (bonds A0 L0 rc (centres L0)).length := sysOf_E _ _
  have hc : ∀ p < np, ∀ i ∈ centres (Ls p), κ p i ∈ centres L0 := fun p hp' i hi => h.mem hp' hi
  have hcl : ∀ p < np, ∀ j < (As p).nlocal, κ p j ∈ centres L0 :=
    fun p hp' j hj => hc p hp' j (by rw [hid p hp']; exact List.mem_range.mpr hj)
  have hca : ∀ p < np, ∀ j < natoms (As p), κ p j ∈ centres L0 := fun p hp' j hj => hpl.mem hcl p hp' j (hall p hp' j hj)
  have hN : ∀ p < np, (locSys (As p) (Ls p) rc mt).N = (As p).nlocal := by
    intro p hp'
    change (centres (Ls p)).length = _
    rw [hid p hp', List.length_range]
  have hnum : ∀ p < np, (Ls p).inum = (As p).nlocal := fun p hp' => by
    rw [← centres_length (hp p hp').list, hid p hp', List.length_range]
  have hd0 := total_hasDerivAt hf hT hX hsph hs hn0 hn1 D0
  -- derivative of the features of the whole system
  have hfeat : ∀ b ∈ centres L0, ∀ LM < (netOf f).LM, ∀ k < (netOf f).C,
      HasDerivAt (fun τ : ℝ => h1 (netOf f) (confOf f sph T0 (fun e a => X0 e a + τ * D0 e a)) (rank (centres L0) b) LM k)
        (tanH1 f sph dsph T0 X0 D0 (rank (centres L0) b) LM k) 0 :=
    fun b hb LM hLM k hk => h1_hasDerivAt hf hT hX hsph hs hn0 hn1 D0 (rank_lt hb) hLM hk
  -- it is that of the features of the processes
  have htan : ∀ p < np, ∀ j < (As p).nlocal, ∀ LM < (netOf f).LM, ∀ k < (netOf f).C,
      tanH1 f sph dsph T0 X0 D0 (rank (centres L0) (κ p j)) LM k
        = tanH1 f sph dsph (locSys (As p) (Ls p) rc mt) (locVecs (As p) (Ls p) rc)
          (edgeDir (As p) (Ls p) rc (centres (Ls p)) (u p)) j LM k := by
    intro p hp' j hj LM hLM k hk
    have hsp := h.scales hp' (hc p hp') hsc (fun j => j)
    have d1 := h1_hasDerivAt hf (loc_in (rc := rc) (hp p hp').atoms (hp p hp').list) (h.inside hp' (hc p hp') hX _) hsph hs
      (fun i hi => (hsp i hi).1) (fun i hi => (hsp i hi).2)
      (edgeDir (As p) (Ls p) rc (centres (Ls p)) (u p)) (show j < _ by rw [hN p hp']; exact hj) hLM hk
    refine (hfeat _ (hcl p hp' j hj) LM hLM k hk).unique (d1.congr_of_eventuallyEq ?_)
    refine Filter.Eventually.of_forall (fun τ => ?_)
    obtain ⟨σ, e1, _⟩ := hev τ p hp' j hj
    exact e1.h1 (by rw [hN p hp']; exact hj) (rank_lt (hcl p hp' j hj)) k LM
  -- derivative of the energies of the processes
  have hd1 : HasDerivAt (fun τ : ℝ => ∑ p ∈ Finset.range np, ∑ i ∈ Finset.range (As p).nlocal,
      nodeE (netOf f) (confOf f sph (locSys (As p) (Ls p) rc mt)
        (fun e a => locVecs (As p) (Ls p) rc e a + τ * edgeDir (As p) (Ls p) rc (centres (Ls p)) (u p) e a))
        (feat f sph T0 (fun e a => X0 e a + τ * D0 e a) L0 (κ p)) i) _ 0 :=
    HasDerivAt.fun_sum (fun p hp' => by
      have hp' := Finset.mem_range.mp hp'
      have hsp := h.scales hp' (hc p hp') hsc (fun j => j)
      have hin := loc_in (rc := rc) (f := f) (hp p hp').atoms (hp p hp').list
      exact second_hasDerivAt (H := fun τ => feat f sph T0 (fun e a => X0 e a + τ * D0 e a) L0 (κ p))
        (H' := fun v LM k => tanH1 f sph dsph T0 X0 D0 (rank (centres L0) (κ p v)) LM k)
        hf hin (h.inside hp' (hc p hp') hX _) hsph hs
        (fun i hi => (hsp i hi).1) (fun i hi => (hsp i hi).2) (edgeDir (As p) (Ls p) rc (centres (Ls p)) (u p))
        (nl := (As p).nlocal) (by rw [hN p hp']) (NH' := natoms (As p)) (by unfold natoms; omega)
        (fun i hi e he => hin.nbr e (edg_lt (by rw [hN p hp']; exact hi) he))
        (fun v hv LM hLM k hk => hfeat _ (hca p hp' v hv) LM hLM k hk))
  have heq : (fun τ : ℝ => ∑ p ∈ Finset.range np, ∑ i ∈ Finset.range (As p).nlocal,
      nodeE (netOf f) (confOf f sph (locSys (As p) (Ls p) rc mt)
        (fun e a => locVecs (As p) (Ls p) rc e a + τ * edgeDir (As p) (Ls p) rc (centres (Ls p)) (u p) e a))
        (feat f sph T0 (fun e a => X0 e a + τ * D0 e a) L0 (κ p)) i)
      =ᶠ[nhds 0] fun τ => ∑ i ∈ Finset.range T0.N, Spec.energy (netOf f) (confOf f sph T0 (fun e a => X0 e a + τ * D0 e a)) i := by
    refine Filter.Eventually.of_forall (fun τ => ?_)
    change _ = ∑ i ∈ Finset.range (centres L0).length, _
    rw [← h.sumLoc hid hL0.nodup]
    refine Finset.sum_congr rfl (fun p hp' => Finset.sum_congr rfl (fun i hi => ?_))
    have hp' := Finset.mem_range.mp hp'
    have hi := Finset.mem_range.mp hi
    obtain ⟨σ, e1, e2⟩ := hev τ p hp' i hi
    exact SameEnv.nodeFeat e1 (by rw [hN p hp']; exact hi) (rank_lt (hcl p hp' i hi)) e2
  have key := (hd1.congr_of_eventuallyEq heq.symm).unique hd0
  have h0 : (fun e a => X0 e a + 0 * D0 e a) = X0 := by funext e a; ring
  rw [h0, Finset.sum_sub_distrib, hE0] at key
  have hx := hHa (fun b LM k => tanH1 f sph dsph T0 X0 D0 (rank (centres L0) b) LM k)
  have hx' : ∑ p ∈ Finset.range np, ∑ v ∈ Finset.range (natoms (As p)), ∑ LM ∈ Finset.range (netOf f).LM,
      ∑ k ∈ Finset.range (netOf f).C, H1adj (netOf f) (confOf f sph (locSys (As p) (Ls p) rc mt) (locVecs (As p) (Ls p) rc))
        (As p).nlocal (feat f sph T0 X0 L0 (κ p)) (roGrad f) v LM k * tanH1 f sph dsph T0 X0 D0 (rank (centres L0) (κ p v)) LM k
      = -∑ p ∈ Finset.range np, ∑ i ∈ Finset.range (As p).nlocal, ∑ e ∈ (locSys (As p) (Ls p) rc mt).edg i, ∑ a ∈ Finset.range 3,
          forceL1 (netOf f) (confOf f sph (locSys (As p) (Ls p) rc mt) (locVecs (As p) (Ls p) rc))
            (dconfOf f dsph (locSys (As p) (Ls p) rc mt) (locVecs (As p) (Ls p) rc)) (Ha p) i e a
            * edgeDir (As p) (Ls p) rc (centres (Ls p)) (u p) e a := by
    have e1 : ∀ p ∈ Finset.range np, ∑ v ∈ Finset.range (natoms (As p)), ∑ LM ∈ Finset.range (netOf f).LM,
        ∑ k ∈ Finset.range (netOf f).C, H1adj (netOf f) (confOf f sph (locSys (As p) (Ls p) rc mt) (locVecs (As p) (Ls p) rc))
          (As p).nlocal (feat f sph T0 X0 L0 (κ p)) (roGrad f) v LM k * tanH1 f sph dsph T0 X0 D0 (rank (centres L0) (κ p v)) LM k
        = ∑ v ∈ Finset.range (natoms (As p)), ∑ LM ∈ Finset.range (netOf f).LM,
        ∑ k ∈ Finset.range (netOf f).C, H1adj (netOf f) (confOf f sph (locSys (As p) (Ls p) rc mt) (locVecs (As p) (Ls p) rc))
          (Ls p).inum (feat f sph T0 X0 L0 (κ p)) (roGrad f) v LM k * tanH1 f sph dsph T0 X0 D0 (rank (centres L0) (κ p v)) LM k := by
      intro p hp'
      rw [hnum p (Finset.mem_range.mp hp')]
    rw [Finset.sum_congr rfl e1, ← hx, ← Finset.sum_neg_distrib]
    refine Finset.sum_congr rfl (fun p hp' => ?_)
    have hp' := Finset.mem_range.mp hp'
    rw [← Finset.sum_neg_distrib]
    refine Finset.sum_congr rfl (fun j hj => ?_)
    have hj := Finset.mem_range.mp hj
    rw [← pair_first]
    refine Finset.sum_congr rfl (fun LM hLM => Finset.sum_congr rfl (fun k hk => ?_))
    rw [htan p hp' j hj LM (Finset.mem_range.mp hLM) k (Finset.mem_range.mp hk)]
  rw [hx'] at key
  dsimp only
  have hsum : ∀ p ∈ Finset.range np, ∑ e ∈ Finset.range (bonds (As p) (Ls p) rc (centres (Ls p))).length, ∑ c ∈ Finset.range 3,
      forcePart f sph dsph (locSys (As p) (Ls p) rc mt) (locVecs (As p) (Ls p) rc) (Ls p).inum (feat f sph T0 X0 L0 (κ p)) (Ha p) e c
        * edgeDir (As p) (Ls p) rc (centres (Ls p)) (u p) e c
      = (∑ i ∈ Finset.range (As p).nlocal, ∑ e ∈ (locSys (As p) (Ls p) rc mt).edg i, ∑ a ∈ Finset.range 3,
          (zblForce f (locSys (As p) (Ls p) rc mt) (locVecs (As p) (Ls p) rc) e a
          + forceL2 (netOf f) (confOf f sph (locSys (As p) (Ls p) rc mt) (locVecs (As p) (Ls p) rc))
            (dconfOf f dsph (locSys (As p) (Ls p) rc mt) (locVecs (As p) (Ls p) rc)) (feat f sph T0 X0 L0 (κ p)) (roGrad f) i e a)
            * edgeDir (As p) (Ls p) rc (centres (Ls p)) (u p) e a)
        + ∑ i ∈ Finset.range (As p).nlocal, ∑ e ∈ (locSys (As p) (Ls p) rc mt).edg i, ∑ a ∈ Finset.range 3,
          forceL1 (netOf f) (confOf f sph (locSys (As p) (Ls p) rc mt) (locVecs (As p) (Ls p) rc))
            (dconfOf f dsph (locSys (As p) (Ls p) rc mt) (locVecs (As p) (Ls p) rc)) (Ha p) i e a
            * edgeDir (As p) (Ls p) rc (centres (Ls p)) (u p) e a := by
    intro p hp'
    have hp' := Finset.mem_range.mp hp'
    rw [← hE p, sum_forcePart (by rw [hnum p hp', hN p hp']), hN p hp', hnum p hp']
  rw [Finset.sum_congr rfl hsum, Finset.sum_add_distrib]
  linarith

end Verif.Lammps
