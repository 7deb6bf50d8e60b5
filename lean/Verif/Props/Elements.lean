import Verif.Props.ExtractExample

/-! # Property theorem: files extracted for different elements (C94) -/

namespace Verif.Props
open Verif.MACE Verif.Spec Verif.Extract

/-- Two structures which agree on the nodes `< N` and their edges. -/
structure SameScene (N : ℕ) (S S' : Scene) : Prop where
  z : ∀ i < N, S.z i = S'.z i
  edg : ∀ i < N, S.edg i = S'.edg i
  nbr : ∀ i < N, ∀ e ∈ S.edg i, S.nbr e = S'.nbr e ∧ S.nbr e < N
  nz : ∀ i < N, ∀ e ∈ S.edg i, S.nz e = S'.nz e
  len : ∀ i < N, ∀ e ∈ S.edg i, S.len e = S'.len e
  Y : ∀ i < N, ∀ e ∈ S.edg i, S.Y e = S'.Y e
  pair : ∀ i < N, S.pair i = S'.pair i

section
variable {M : Torch} {q : Radials} {cg : ℕ → ℕ → ℕ → ℕ → ℝ} {S S' : Scene} {N : ℕ}

theorem SameScene.feat0 (h : SameScene N S S') {i : ℕ} (hi : i < N) (LM k : ℕ) : tFeat0 M q S i LM k = tFeat0 M q S' i LM k := by
  have h1 : ∀ lm k, tConv0 M q S i lm k = tConv0 M q S' i lm k := by
    intro lm k
    unfold tConv0
    rw [← h.edg i hi]
    refine Finset.sum_congr rfl fun e he => ?_
    rw [h.z i hi, h.nz i hi e he, h.len i hi e he, h.Y i hi e he]
  have h2 : tNorm0 M q S i = tNorm0 M q S' i := by
    unfold tNorm0
    cases q.d0 with
    | none => rfl
    | some d =>
      simp only
      rw [← h.edg i hi]
      congr 1
      refine Finset.sum_congr rfl fun e he => ?_
      rw [h.z i hi, h.nz i hi e he, h.len i hi e he]
  simp only [tFeat0, tProd0, tMsg0, tLin0, h1, h2, h.z i hi]

theorem SameScene.energy (h : SameScene N S S') {i : ℕ} (hi : i < N) : torchEnergy M q cg S i = torchEnergy M q cg S' i := by
  have h1 : ∀ le mu k, tConv1 M q cg S i le mu k = tConv1 M q cg S' i le mu k := by
    intro le mu k
    unfold tConv1
    rw [← h.edg i hi]
    refine Finset.sum_congr rfl fun e he => ?_
    obtain ⟨n1, n2⟩ := h.nbr i hi e he
    rw [h.z i hi, h.nz i hi e he, h.len i hi e he, h.Y i hi e he, ← n1]
    simp only [tUp1, h.feat0 n2]
  have h2 : tNorm1 M q S i = tNorm1 M q S' i := by
    unfold tNorm1
    cases q.d1 with
    | none => rfl
    | some d =>
      simp only
      rw [← h.edg i hi]
      congr 1
      refine Finset.sum_congr rfl fun e he => ?_
      rw [h.z i hi, h.nz i hi e he, h.len i hi e he]
  simp only [torchEnergy, tRead0, tRead1, tFeat1, tProd1, tMsg1, h1, h2, h.feat0 hi, h.z i hi, h.pair i hi]

end

/-- The same structure for two files: types may be numbered differently, the elements are the same. -/
structure SameAtoms (f f' : File) (T T' : Sys) : Prop where
  N : T'.N = T.N
  nn : T'.nn = T.nn
  idx : T'.idx = T.idx
  types : ∀ i < T.N, nthN f'.atomicNumbers (nthN T'.types i) = nthN f.atomicNumbers (nthN T.types i)
  ntypes : ∀ e < T.E, nthN f'.atomicNumbers (nthN T'.ntypes e) = nthN f.atomicNumbers (nthN T.ntypes e)

theorem SameAtoms.E {f f' : File} {T T' : Sys} (h : SameAtoms f f' T T') : T'.E = T.E := by
  unfold Sys.E
  rw [h.N, h.nn]

theorem SameAtoms.scene {f f' : File} {T T' : Sys} (h : SameAtoms f f' T T') (hT : SysOk f T) (M : Torch) (sph : ℝ → ℝ → ℝ → ℕ → ℝ)
    (X : ℕ → ℕ → ℝ) : SameScene T.N (sceneOf M f.atomicNumbers sph T X) (sceneOf M f'.atomicNumbers sph T' X) := by
  have he : ∀ i, T'.edg i = T.edg i := fun i => by unfold Sys.edg; rw [h.nn]
  refine ⟨fun i hi => ?_, fun i _ => (he i).symm, fun i hi e hh => ⟨?_, hT.nbr e (edg_lt hi hh)⟩, fun i hi e hh => ?_, fun _ _ _ _ => rfl,
    fun _ _ _ _ => rfl, fun i hi => ?_⟩
  · simp only [sceneOf, h.types i hi]
  · simp only [sceneOf, h.idx]
  · simp only [sceneOf, h.ntypes e (edg_lt hi hh)]
  · simp only [sceneOf]
    cases M.zbl with
    | none => rfl
    | some p =>
      simp only
      rw [he]
      refine Finset.sum_congr rfl fun e hh => ?_
      rw [h.types i hi, h.ntypes e (edg_lt hi hh)]

/-- C94: two files extracted from one model for different sets of elements give the same energies and forces for every structure whose
elements both contain, for every history of the two objects. -/
theorem C94_elements {M : Torch} {cg : ℕ → ℕ → ℕ → ℕ → ℝ} {n : ℕ} {der : List ℝ → List ℝ} {inv : ℕ → (ℕ → ℕ → ℝ) → Option (ℕ → ℕ → ℝ)}
    {species species' : List ℕ} (h : TorchOk M cg) (hn : 2 ≤ n) (hd : ∀ v, (der v).length = v.length) (hsp : species.Nodup)
    (hsp' : species'.Nodup) (hi : InvOk inv) {f f' : File} (hf : extract n der inv species M = some f)
    (hf' : extract n der inv species' M = some f') {srt : List (List (List ℕ)) → List (List (List ℕ))} (hs : Poly.SortFn srt)
    {sph : ℝ → ℝ → ℝ → ℕ → ℝ} {dsph : ℝ → ℝ → ℝ → ℕ → ℕ → ℝ} (hsph : IsSphGrad sph dsph 16) :
    ∃ P s0 P' s0', load srt sph dsph f = some (P, s0) ∧ load srt sph dsph f' = some (P', s0') ∧
      ∀ T T' X, SysOk f T → SysOk f' T' → SameAtoms f f' T T' → Inside f T X → Inside f' T' X → ScalesNonzero f sph T X →
        ScalesNonzero f' sph T' X → ∀ s, Hist f P s0 s → ∀ s', Hist f' P' s0' s' → ∃ t t',
          computeNodeEnergiesForces f.zbl P (T.graph X) s = some t ∧ computeNodeEnergiesForces f'.zbl P' (T'.graph X) s' = some t' ∧
          t'.nodeEnergies = t.nodeEnergies ∧ t'.nodeForces = t.nodeForces := by
  have hok := ((C78_file_shape (inv := inv) h hn hd hsp).2 f hf).1
  have hok' := ((C78_file_shape (inv := inv) h hn hd hsp').2 f' hf').1
  obtain ⟨P, s0, h1, h2, h3⟩ := load_spec hok hs sph dsph
  obtain ⟨P', s0', h1', h2', h3'⟩ := load_spec hok' hs sph dsph
  refine ⟨P, s0, P', s0', h1, h1', fun T T' X hT hT' hTT hX hX' hsc hsc' s hh s' hh' => ?_⟩
  have hlm : (f.lmax + 1) * (f.lmax + 1) = 16 ∧ (f'.lmax + 1) * (f'.lmax + 1) = 16 := by
    obtain ⟨hl, -, us, u1, inv1, rfl, -⟩ := extract_some hf
    obtain ⟨-, -, us', u1', inv1', rfl, -⟩ := extract_some hf'
    have hl' : M.lmax = 3 := hl
    constructor
    · change (M.lmax + 1) * (M.lmax + 1) = 16
      rw [hl']
    · change (M.lmax + 1) * (M.lmax + 1) = 16
      rw [hl']
  have hen : ∀ X, ∀ i < T.N, energy (netOf f') (confOf f' sph T' X) i = energy (netOf f) (confOf f sph T X) i := by
    intro X i hiN
    have e1 : energy (netOf f) (confOf f sph T X) i
        = torchEnergy M (M.radials.map (splineOf M.rcut n der)) cg (sceneOf M f.atomicNumbers sph T X) i := by
      obtain ⟨-, ha, us, u1, inv1, rfl, hs, hs1, hinv⟩ := extract_some hf
      exact energy_eq h (elems_ok h hsp ha) hT hs hs1 (fun a ha b hb => hi _ _ _ hinv a ha b hb) hiN
    have e2 : energy (netOf f') (confOf f' sph T' X) i
        = torchEnergy M (M.radials.map (splineOf M.rcut n der)) cg (sceneOf M f'.atomicNumbers sph T' X) i := by
      obtain ⟨-, ha, us, u1, inv1, rfl, hs, hs1, hinv⟩ := extract_some hf'
      exact energy_eq h (elems_ok h hsp' ha) hT' hs hs1 (fun a ha b hb => hi _ _ _ hinv a ha b hb) (hTT.N ▸ hiN)
    rw [e1, e2, (hTT.scene hT M sph X).energy hiN]
  obtain ⟨t, a1, a2, a3, a4⟩ := compute_spec hok hT h2 hX (hh.ok hok h2 h3)
  obtain ⟨t', b1, b2, b3, b4⟩ := compute_spec hok' hT' h2' hX' (hh'.ok hok' h2' h3')
  refine ⟨t, t', a1, b1, ?_, ?_⟩
  · rw [a2, b2, hTT.N]
    exact tab_congr fun i hi => hen X i hi
  · have d1 := total_hasDerivAt hok hT hX (hlm.1 ▸ hsph) a4 (fun i hi => (hsc i hi).1) (fun i hi => (hsc i hi).2)
    have d2 := total_hasDerivAt hok' hT' hX' (hlm.2 ▸ hsph) b4 (fun i hi => (hsc' i hi).1) (fun i hi => (hsc' i hi).2)
    have hF : ∀ D : ℕ → ℕ → ℝ, ∑ e ∈ Finset.range T.E, ∑ a ∈ Finset.range 3, forceOf f sph dsph T X e a * D e a
        = ∑ e ∈ Finset.range T.E, ∑ a ∈ Finset.range 3, forceOf f' sph dsph T' X e a * D e a := by
      intro D
      have := d2 D
      rw [hTT.N, hTT.E] at this
      have e : (fun τ : ℝ => ∑ i ∈ Finset.range T.N, energy (netOf f') (confOf f' sph T' (fun e a => X e a + τ * D e a)) i)
          = fun τ : ℝ => ∑ i ∈ Finset.range T.N, energy (netOf f) (confOf f sph T (fun e a => X e a + τ * D e a)) i :=
        funext fun τ => Finset.sum_congr rfl fun i hi => hen _ i (Finset.mem_range.mp hi)
      rw [e] at this
      exact neg_injective ((d1 D).unique this)
    rw [a3, b3, hTT.E]
    refine tab2_congr fun e he a ha => ?_
    have := hF (fun e' a' => if e' = e ∧ a' = a then 1 else 0)
    have single : ∀ F : ℕ → ℕ → ℝ, ∑ e' ∈ Finset.range T.E, ∑ a' ∈ Finset.range 3, F e' a' * (if e' = e ∧ a' = a then 1 else 0) = F e a := by
      intro F
      rw [Finset.sum_eq_single e, Finset.sum_eq_single a]
      · simp
      · intro a' _ hne
        simp [hne]
      · intro hne
        exact absurd (Finset.mem_range.mpr ha) hne
      · intro e' _ hne
        exact Finset.sum_eq_zero fun a' _ => by simp [hne]
      · intro hne
        exact absurd (Finset.mem_range.mpr he) hne
    rw [single, single] at this
    exact this.symm

/-! ## Example: two carbon atoms, files for hydrogen and carbon, and for carbon only -/

noncomputable def torchEx2 : Torch := { torchEx with dens1 := none }

theorem torchEx2_ok : TorchOk torchEx2 cgEx := ⟨torchEx_ok.lmax, torchEx_ok.C, torchEx_ok.zs, torchEx_ok.rcut, torchEx_ok.zbl, torchEx_ok.avg,
  torchEx_ok.R0, torchEx_ok.R1, torchEx_ok.dens0, fun _ hd => (by simp [torchEx2] at hd), torchEx_ok.U0, torchEx_ok.U1, torchEx_ok.paths, torchEx_ok.phil,
  torchEx_ok.phil1, torchEx_ok.phil2, torchEx_ok.thr, torchEx_ok.tp⟩

theorem torchEx2_runs (species : List ℕ) (h : ∀ a ∈ species, a ∈ ([1, 6] : List ℕ)) (n : ℕ) (der : List ℝ → List ℝ) :
    ∃ f, extract n der invEx species torchEx2 = some f := by
  obtain ⟨B, hB⟩ := invEx_one
  refine extract_runs rfl (fun a ha => ?_) hB
  rw [mem_elems] at ha
  split_ifs at ha
  · exact ha
  · exact h a ha

/-- Two atoms of type `c`, each the neighbour of the other. -/
def pairSys (c : ℕ) : Sys := ⟨2, [c, c], [1, 1], [1, 0], [c, c]⟩

example : ∃ f f', extract 200 id invEx [] torchEx2 = some f ∧ extract 200 id invEx [6] torchEx2 = some f' ∧ SysOk f (pairSys 1) ∧
    SysOk f' (pairSys 0) ∧ SameAtoms f f' (pairSys 1) (pairSys 0) ∧
    ∃ X, Inside f (pairSys 1) X ∧ Inside f' (pairSys 0) X ∧ ∀ sph, ScalesNonzero f sph (pairSys 1) X ∧ ScalesNonzero f' sph (pairSys 0) X := by
  obtain ⟨f, hf⟩ := torchEx2_runs [] (by simp) 200 id
  obtain ⟨f', hf'⟩ := torchEx2_runs [6] (by simp) 200 id
  refine ⟨f, f', hf, hf', ?_⟩
  obtain ⟨-, -, us, u1, inv1, rfl, -⟩ := extract_some hf
  obtain ⟨-, -, us', u1', inv1', rfl, -⟩ := extract_some hf'
  have hX : len (fun a => if a = 0 then (1 : ℝ) else 0) = 1 := by simp [len, Finset.sum_range_succ]
  have e1 : elems torchEx2 [] = [1, 6] := by decide
  have e2 : elems torchEx2 [6] = [6] := by decide
  have hstep : (1 : ℝ) < gridStep 5 200 * (200 - 1 : ℕ) := by simp only [gridStep]; norm_num
  have hr : ∀ an us u1 inv1, an = [1, 6] ∨ an = [6] → InTable (fileOf 200 id torchEx2 an us u1 inv1) 1 := by
    intro an us u1 inv1 han
    have n0 : (fileOf 200 id torchEx2 an us u1 inv1).nodes0 = 200 := by
      rcases han with rfl | rfl <;>
        simp [File.nodes0, fileOf, elementPairs, radialTable, tableOf, tbl, row, torchEx2, torchEx]
    have n1 : (fileOf 200 id torchEx2 an us u1 inv1).nodes1 = 200 := by
      rcases han with rfl | rfl <;>
        simp [File.nodes1, fileOf, elementPairs, radialTable, tableOf, tbl, row, torchEx2, torchEx]
    refine ⟨one_pos, ?_, ?_, fun h => absurd h (by simp [fileOf, torchEx2, torchEx]), fun h => absurd h (by simp [fileOf, torchEx2, torchEx])⟩
    · rw [n0]; exact hstep
    · rw [n1]; exact hstep
  have hE : ∀ c, (pairSys c).E = 2 := fun _ => rfl
  refine ⟨⟨by decide, ?_, by decide, by decide, by decide, by decide, ?_⟩, ⟨by decide, ?_, by decide, by decide, by decide, by decide, ?_⟩,
    ⟨rfl, rfl, rfl, ?_, ?_⟩, fun _ a => if a = 0 then 1 else 0, fun e _ => ?_, fun e _ => ?_, fun sph => ⟨fun i _ => ⟨?_, ?_⟩, fun i _ => ⟨?_, ?_⟩⟩⟩
  · rw [e1]; change ∀ i < 2, nthN [1, 1] i < 2; decide
  · rw [e1]; change ∀ i < 2, nthN [1, 1] i < 2; decide
  · rw [e2]; change ∀ i < 2, nthN [0, 0] i < 1; decide
  · rw [e2]; change ∀ i < 2, nthN [0, 0] i < 1; decide
  · rw [e1, e2]; change ∀ i < 2, nthN [6] (nthN [0, 0] i) = nthN [1, 6] (nthN [1, 1] i); decide
  · rw [e1, e2]; change ∀ i < 2, nthN [6] (nthN [0, 0] i) = nthN [1, 6] (nthN [1, 1] i); decide
  · rw [hX]; exact hr _ _ _ _ (Or.inl e1)
  · rw [hX]; exact hr _ _ _ _ (Or.inr e2)
  all_goals simp [confOf, fileOf, torchEx2, torchEx]

end Verif.Props
