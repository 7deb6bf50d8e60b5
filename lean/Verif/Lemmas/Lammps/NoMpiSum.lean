import Verif.Lemmas.Lammps.Decomp

/-! # Sums over all processes in `no_mpi_message_passing` mode -/

namespace Verif.Lammps
open Verif.MACE Verif.Spec

variable {rc : ℝ} {mt : List ℕ} {f : File} {sph : ℝ → ℝ → ℝ → ℕ → ℝ} {dsph : ℝ → ℝ → ℝ → ℕ → ℕ → ℝ}
  {np : ℕ} {As : ℕ → Atoms} {Ls : ℕ → NList} {κ : ℕ → ℕ → ℕ} {nodes : ℕ → List ℕ} {A0 : Atoms} {L0 : NList}

/-- Energies of nodes with matching environments whose neighbours have matching environments. -/
theorem energy_of_env {A : Atoms} {L : NList} {ns : List ℕ} {κ ix : ℕ → ℕ} {X X0 : ℕ → ℕ → ℝ}
    (hc : ∀ i ∈ ns, κ i ∈ centres L0)
    (henv : ∀ (ii : ℕ) (hi : ii < ns.length), ∃ σ, SameEnv (sysOf A L rc mt ns ix) X (periodic A0 L0 rc mt) X0 ii
        (rank (centres L0) (κ ns[ii])) σ ∧
      ∀ e ∈ (sysOf A L rc mt ns ix).edg ii, original A0 (endB A0 L0 rc (centres L0) (σ e)) = κ (endB A L rc ns e))
    (hix : ∀ j ∈ ns, ix j = rank ns j) {ii : ℕ} (hi : ii < ns.length) (hn : ∀ j ∈ nbrs A L rc ns[ii], j ∈ ns) :
    Spec.energy (netOf f) (confOf f sph (sysOf A L rc mt ns ix) X) ii
      = Spec.energy (netOf f) (confOf f sph (periodic A0 L0 rc mt) X0) (rank (centres L0) (κ ns[ii])) := by
  have hci := hc _ (List.getElem_mem hi)
  obtain ⟨σ, e1, e2⟩ := henv ii hi
  symm
  refine e1.energy hi (rank_lt hci) (fun e he LM k => ?_)
  have hb := edg_lt_bonds hi he
  have hb' : σ e < (bonds A0 L0 rc (centres L0)).length := edg_lt_bonds (ns := centres L0) (rank_lt hci) (e1.bij.1 he)
  obtain ⟨k', hk', rfl⟩ := (sysOf_edg hi).mp he
  have hj : endB A L rc ns (off (ns.map (fun i => (nbrs A L rc i).length)) ii + k') ∈ ns := by
    rw [(ends_get hi hk').2]
    exact hn _ (List.getElem_mem hk')
  obtain ⟨σ', e3, _⟩ := henv _ (rank_lt hj)
  have hr := rank_lt (hc _ (List.getElem_mem (rank_lt hj)))
  have key := e3.h1 (f := f) (sph := sph) (rank_lt hj) hr k LM
  have i1 : nthN (periodic A0 L0 rc mt).idx (σ (off (ns.map (fun i => (nbrs A L rc i).length)) ii + k'))
      = rank (centres L0) (κ (endB A L rc ns (off (ns.map (fun i => (nbrs A L rc i).length)) ii + k'))) := by
    unfold periodic
    rw [sysOf_idx hb', e2 _ he]
  rw [i1, sysOf_idx hb, hix _ hj]
  rw [get_rank hj] at key
  exact key

theorem Parts.energy (h : Parts np As Ls κ nodes A0 L0 rc mt) {p : ℕ} (hp : p < np)
    (hc : ∀ i ∈ nodes p, κ p i ∈ centres L0) {ix : ℕ → ℕ} (hix : ∀ j ∈ nodes p, ix j = rank (nodes p) j) {ii : ℕ}
    (hi : ii < (nodes p).length) (hn : ∀ j ∈ nbrs (As p) (Ls p) rc (nodes p)[ii], j ∈ nodes p) :
    Spec.energy (netOf f) (confOf f sph (sysOf (As p) (Ls p) rc mt (nodes p) ix) (vecs (As p) (bonds (As p) (Ls p) rc (nodes p)))) ii
      = Spec.energy (netOf f) (confOf f sph (periodic A0 L0 rc mt) (bondVecs A0 L0 rc)) (rank (centres L0) (κ p (nodes p)[ii])) :=
  energy_of_env hc (fun _ hi => h.env hp ix hi (hc _ (List.getElem_mem hi))) hix hi hn

/-- Energies of all processes, for bond vectors `X p` of the processes and `X0` of the whole system. -/
theorem Parts.totalOf (h : Parts np As Ls κ nodes A0 L0 rc mt) (hL0 : ListOk A0 L0)
    (hL : ∀ p < np, ListOk (As p) (Ls p)) {H : ℕ → List ℕ} (hns : ∀ p < np, nodes p = centres (Ls p) ++ H p)
    (hc : ∀ p < np, ∀ i ∈ nodes p, κ p i ∈ centres L0) {ix : ℕ → ℕ → ℕ} (hix : ∀ p < np, ∀ j ∈ nodes p, ix p j = rank (nodes p) j)
    (hn : ∀ p < np, ∀ i ∈ centres (Ls p), ∀ j ∈ nbrs (As p) (Ls p) rc i, j ∈ nodes p) {X : ℕ → ℕ → ℕ → ℝ} {X0 : ℕ → ℕ → ℝ}
    (henv : ∀ p < np, ∀ (ii : ℕ) (hi : ii < (nodes p).length), ∃ σ, SameEnv (sysOf (As p) (Ls p) rc mt (nodes p) (ix p)) (X p)
        (periodic A0 L0 rc mt) X0 ii (rank (centres L0) (κ p (nodes p)[ii])) σ ∧
      ∀ e ∈ (sysOf (As p) (Ls p) rc mt (nodes p) (ix p)).edg ii,
        original A0 (endB A0 L0 rc (centres L0) (σ e)) = κ p (endB (As p) (Ls p) rc (nodes p) e)) :
    ∑ p ∈ Finset.range np, ∑ ii ∈ Finset.range (Ls p).inum, Spec.energy (netOf f)
      (confOf f sph (sysOf (As p) (Ls p) rc mt (nodes p) (ix p)) (X p)) ii
      = ∑ i ∈ Finset.range L0.inum, Spec.energy (netOf f) (confOf f sph (periodic A0 L0 rc mt) X0) i := by
  have h1 : ∀ p ∈ Finset.range np, ∑ ii ∈ Finset.range (Ls p).inum, Spec.energy (netOf f)
      (confOf f sph (sysOf (As p) (Ls p) rc mt (nodes p) (ix p)) (X p)) ii
      = ((centres (Ls p)).map (fun i => Spec.energy (netOf f) (confOf f sph (periodic A0 L0 rc mt) X0)
        (rank (centres L0) (κ p i)))).sum := by
    intro p hp
    have hp := Finset.mem_range.mp hp
    rw [← sum_nodes, centres_length (hL p hp)]
    refine Finset.sum_congr rfl (fun ii hii => ?_)
    have hii := Finset.mem_range.mp hii
    have hl : ii < (centres (Ls p)).length := by rw [centres_length (hL p hp)]; exact hii
    have hl' : ii < (nodes p).length := by rw [hns p hp, List.length_append]; omega
    have he : (nodes p)[ii] = (centres (Ls p))[ii] := by
      have := congrArg (fun l : List ℕ => l[ii]?) (hns p hp)
      rw [List.getElem?_append_left hl, List.getElem?_eq_getElem hl, List.getElem?_eq_getElem hl'] at this
      exact Option.some.inj this
    rw [energy_of_env (hc p hp) (henv p hp) (hix p hp) hl' (by rw [he]; exact hn p hp _ (List.getElem_mem hl)), nthN_getElem hl, he]
  rw [Finset.sum_congr rfl h1, h.sum (fun b => Spec.energy (netOf f) (confOf f sph (periodic A0 L0 rc mt) X0)
        (rank (centres L0) b)), ← sum_nodes, centres_length hL0]
  refine Finset.sum_congr rfl (fun i hi => ?_)
  have hl : i < (centres L0).length := by rw [centres_length hL0]; exact Finset.mem_range.mp hi
  rw [nthN_getElem hl, rank_get hL0.nodup hl]

/-- Energies of all processes. -/
theorem Parts.total (h : Parts np As Ls κ nodes A0 L0 rc mt) (hL0 : ListOk A0 L0)
    (hL : ∀ p < np, ListOk (As p) (Ls p)) {H : ℕ → List ℕ} (hns : ∀ p < np, nodes p = centres (Ls p) ++ H p)
    (hc : ∀ p < np, ∀ i ∈ nodes p, κ p i ∈ centres L0) {ix : ℕ → ℕ → ℕ} (hix : ∀ p < np, ∀ j ∈ nodes p, ix p j = rank (nodes p) j)
    (hn : ∀ p < np, ∀ i ∈ centres (Ls p), ∀ j ∈ nbrs (As p) (Ls p) rc i, j ∈ nodes p) :
    ∑ p ∈ Finset.range np, ∑ ii ∈ Finset.range (Ls p).inum, Spec.energy (netOf f)
      (confOf f sph (sysOf (As p) (Ls p) rc mt (nodes p) (ix p)) (vecs (As p) (bonds (As p) (Ls p) rc (nodes p)))) ii
      = Etot f sph L0 rc mt A0 :=
  h.totalOf (X := fun p => vecs (As p) (bonds (As p) (Ls p) rc (nodes p))) (X0 := bondVecs A0 L0 rc) hL0 hL hns hc hix hn
    (fun p hp _ hi => h.env hp (ix p) hi (hc p hp _ (List.getElem_mem hi)))

/-- Derivative of the energy of the first `nl` nodes, all first-layer features computed. -/
theorem part_hasDerivAt {T : Sys} {X : ℕ → ℕ → ℝ} {nl : ℕ} (hf : FileOk f) (hT : SysOk f T) (hX : Inside f T X)
    (hsph : IsSphGrad sph dsph ((f.lmax + 1) * (f.lmax + 1))) {s : State ℝ} (hs : StOk f s) (hsc : Props.ScalesNonzero f sph T X)
    (hl : nl ≤ T.N) (D : ℕ → ℕ → ℝ) :
    HasDerivAt (fun τ : ℝ => ∑ i ∈ Finset.range nl, Spec.energy (netOf f) (confOf f sph T (fun e a => X e a + τ * D e a)) i)
      (- ∑ e ∈ Finset.range T.E, ∑ a ∈ Finset.range 3, noMpiForce f sph dsph T X nl e a * D e a) 0 := by
  have h0 : (fun e a => X e a + 0 * D e a) = X := by funext e a; ring
  have := second_hasDerivAt (H := fun τ => h1 (netOf f) (confOf f sph T (fun e a => X e a + τ * D e a)))
    (H' := tanH1 f sph dsph T X D) hf hT hX hsph hs (fun i hi => (hsc i hi).1) (fun i hi => (hsc i hi).2) D hl hl
    (fun i hi e he => hT.nbr e (edg_lt (lt_of_lt_of_le hi hl) he))
    (fun v hv LM hLM k hk => h1_hasDerivAt hf hT hX hsph hs (fun i hi => (hsc i hi).1) (fun i hi => (hsc i hi).2) D hv hLM hk)
  refine this.congr_deriv ?_
  rw [h0]
  unfold noMpiForce
  rw [sum_forcePart hl, Finset.sum_congr rfl (fun v _ => pair_first D _ v), Finset.sum_neg_distrib]
  ring

/-- The work of the forces of all processes along consistent displacements is that of the forces of the whole system. -/
theorem noMpi_work (h : Parts np As Ls κ nodes A0 L0 rc mt) (hf : FileOk f) (hA0 : AtomsOk A0 mt f.nT) (hL0 : ListOk A0 L0)
    (hI : ImagesOk A0 L0) (hX : Inside f (periodic A0 L0 rc mt) (bondVecs A0 L0 rc))
    (hsc : Props.ScalesNonzero f sph (periodic A0 L0 rc mt) (bondVecs A0 L0 rc))
    (hp : ∀ p < np, ProcOk f mt (As p) (Ls p) (nodes p)) {H : ℕ → List ℕ} (hns : ∀ p < np, nodes p = centres (Ls p) ++ H p)
    (hc : ∀ p < np, ∀ i ∈ nodes p, κ p i ∈ centres L0) {ix : ℕ → ℕ → ℕ} (hix : ∀ p < np, ∀ j ∈ nodes p, ix p j = rank (nodes p) j)
    (hT : ∀ p < np, SysOk f (sysOf (As p) (Ls p) rc mt (nodes p) (ix p)))
    (hn : ∀ p < np, ∀ i ∈ centres (Ls p), ∀ j ∈ nbrs (As p) (Ls p) rc i, j ∈ nodes p)
    (hsph : IsSphGrad sph dsph ((f.lmax + 1) * (f.lmax + 1))) {s : State ℝ} (hs : StOk f s)
    {u : ℕ → ℕ → ℕ → ℝ} {u0 : ℕ → ℕ → ℝ} {ψ : ℕ → (Fin 3 → ℝ) → ℕ → ℕ → ℝ}
    (hψ : ∀ p < np, ∀ i ∈ nodes p, ∀ j ∈ listed (Ls p) i, ∀ c < 3,
      u p j c - u p i c = ψ (κ p i) (fun c => disp (As p) i j c) (κ p j) c)
    (hψ0 : ∀ b ∈ centres L0, ∀ j ∈ listed L0 b, ∀ c < 3, u0 j c - u0 b c = ψ b (fun c => disp A0 b j c) (original A0 j) c) :
    ∑ p ∈ Finset.range np, ∑ e ∈ Finset.range (bonds (As p) (Ls p) rc (nodes p)).length, ∑ c ∈ Finset.range 3,
        noMpiForce f sph dsph (sysOf (As p) (Ls p) rc mt (nodes p) (ix p)) (vecs (As p) (bonds (As p) (Ls p) rc (nodes p)))
          (Ls p).inum e c * edgeDir (As p) (Ls p) rc (nodes p) (u p) e c
      = ∑ e ∈ Finset.range (bonds A0 L0 rc (centres L0)).length, ∑ c ∈ Finset.range 3,
        forceOf f sph dsph (periodic A0 L0 rc mt) (bondVecs A0 L0 rc) e c * edgeDir A0 L0 rc (centres L0) u0 e c := by
  have hd0 := total_hasDerivAt hf (periodic_ok (rc := rc) hA0 hL0 hI) hX hsph hs (fun i hi => (hsc i hi).1)
    (fun i hi => (hsc i hi).2) (edgeDir A0 L0 rc (centres L0) u0)
  have hE0 : (periodic A0 L0 rc mt).E = (bonds A0 L0 rc (centres L0)).length := sysOf_E _ _
  have hl : ∀ p < np, (Ls p).inum ≤ (nodes p).length := by
    intro p hp'
    rw [hns p hp', List.length_append, centres_length (hp p hp').list]
    omega
  have hE : ∀ p, (sysOf (As p) (Ls p) rc mt (nodes p) (ix p)).E = (bonds (As p) (Ls p) rc (nodes p)).length := fun p => sysOf_E _ _
  have hd1 : HasDerivAt (fun τ : ℝ => ∑ p ∈ Finset.range np, ∑ i ∈ Finset.range (Ls p).inum,
      Spec.energy (netOf f) (confOf f sph (sysOf (As p) (Ls p) rc mt (nodes p) (ix p))
        (fun e a => vecs (As p) (bonds (As p) (Ls p) rc (nodes p)) e a + τ * edgeDir (As p) (Ls p) rc (nodes p) (u p) e a)) i)
      (∑ p ∈ Finset.range np, - ∑ e ∈ Finset.range (bonds (As p) (Ls p) rc (nodes p)).length, ∑ c ∈ Finset.range 3,
        noMpiForce f sph dsph (sysOf (As p) (Ls p) rc mt (nodes p) (ix p)) (vecs (As p) (bonds (As p) (Ls p) rc (nodes p)))
          (Ls p).inum e c * edgeDir (As p) (Ls p) rc (nodes p) (u p) e c) 0 := by
    refine HasDerivAt.fun_sum (fun p hp' => ?_)
    have hp' := Finset.mem_range.mp hp'
    have := part_hasDerivAt hf (hT p hp') (h.inside hp' (hc p hp') hX (ix p)) hsph hs (h.scales hp' (hc p hp') hsc (ix p))
      (nl := (Ls p).inum) (hl p hp') (edgeDir (As p) (Ls p) rc (nodes p) (u p))
    rw [hE p] at this
    exact this
  have heq : (fun τ : ℝ => ∑ p ∈ Finset.range np, ∑ i ∈ Finset.range (Ls p).inum,
      Spec.energy (netOf f) (confOf f sph (sysOf (As p) (Ls p) rc mt (nodes p) (ix p))
        (fun e a => vecs (As p) (bonds (As p) (Ls p) rc (nodes p)) e a + τ * edgeDir (As p) (Ls p) rc (nodes p) (u p) e a)) i)
      = fun τ => ∑ i ∈ Finset.range (periodic A0 L0 rc mt).N, Spec.energy (netOf f) (confOf f sph (periodic A0 L0 rc mt)
        (fun e a => bondVecs A0 L0 rc e a + τ * edgeDir A0 L0 rc (centres L0) u0 e a)) i := by
    funext τ
    have hN : (periodic A0 L0 rc mt).N = L0.inum := centres_length hL0
    rw [hN]
    exact h.totalOf (X := fun p e a => vecs (As p) (bonds (As p) (Ls p) rc (nodes p)) e a
        + τ * edgeDir (As p) (Ls p) rc (nodes p) (u p) e a) hL0 (fun p hp' => (hp p hp').list) hns hc hix hn
      (fun p hp' _ hi => h.envDir hp' (ix p) (hψ p hp') hψ0 τ hi (hc p hp' _ (List.getElem_mem hi)))
  rw [heq] at hd1
  have := hd1.unique hd0
  rw [Finset.sum_neg_distrib, hE0] at this
  exact neg_inj.mp this

end Verif.Lammps
