import Verif.Lemmas.MACE.StageGrad
import Verif.Props.MACE

/-! # Each reverse stage is the transposed derivative of its forward stage: stages that read the geometry -/

namespace Verif.MACE
open Verif.Spec Verif.Spline

variable {f : File} {T : Sys} {X : ℕ → ℕ → ℝ} {NH : ℕ} {sph : ℝ → ℝ → ℝ → ℕ → ℝ} {dsph : ℝ → ℝ → ℝ → ℕ → ℕ → ℝ}
  {P : Params ℝ} {s : State ℝ}

theorem onE_edg {v : ℕ → ℕ → ℕ → ℝ} {i e a : ℕ} (hi : i < T.N) (he : e ∈ T.edg i) : onE T.nn T.N v e a = v i e a := by
  unfold onE
  rw [if_pos (show e < off T.nn T.N from edg_lt hi he), own_eq (nn := T.nn) hi he]

theorem minusGrad_of {F : (ℕ → ℕ → ℝ) → Option (List ℝ)} {w : List ℝ} {v : ℕ → ℕ → ℕ → ℝ}
    (h : ∀ D : ℕ → ℕ → ℝ, ∃ y : ℝ → List ℝ,
      (∀ᶠ τ in nhds 0, F (fun e a => X e a + τ * D e a) = some (y τ) ∧ (y τ).length = w.length) ∧
      HasDerivAt (fun τ => dot w (y τ)) (- ∑ i ∈ Finset.range T.N, ∑ e ∈ T.edg i, ∑ a ∈ Finset.range 3, v i e a * D e a) 0) :
    IsMinusGradX T.E F X w (tab2 T.E 3 (onE T.nn T.N v)) := by
  refine ⟨by simp, fun D => ?_⟩
  obtain ⟨y, h1, h2⟩ := h D
  refine ⟨y, h1, h2.congr_deriv ?_⟩
  have e0 : ∀ e ∈ Finset.range T.E, ∑ a ∈ Finset.range 3, (tab2 T.E 3 (onE T.nn T.N v)).getD (e * 3 + a) 0 * D e a
      = ∑ a ∈ Finset.range 3, onE T.nn T.N v e a * D e a := by
    intro e he
    refine Finset.sum_congr rfl (fun a ha => ?_)
    rw [List.getD_eq_getElem?_getD, getElem?_tab2 (Finset.mem_range.mp he) (Finset.mem_range.mp ha)]
    rfl
  rw [Finset.sum_congr rfl e0]
  have e1 : ∀ g : ℕ → ℝ, ∑ e ∈ Finset.range T.E, g e = ∑ i ∈ Finset.range T.N, ∑ e ∈ T.edg i, g e :=
    fun g => sum_range_edges T.N T.nn g
  rw [e1]
  refine congrArg _ (Finset.sum_congr rfl (fun i hi => Finset.sum_congr rfl (fun e he => Finset.sum_congr rfl (fun a _ => ?_))))
  rw [onE_edg (Finset.mem_range.mp hi) he]

/-! ## Edge features along a line, without the normalisations -/

/-- A configuration without density normalisation. -/
noncomputable def unscaled (c : Conf ℝ) : Conf ℝ := { c with s0 := fun _ => 1, s1 := fun _ => 1 }

/-- A direction without change of the normalisation. -/
noncomputable def unscaledT (t : Tan ℝ) : Tan ℝ := { t with s0 := fun _ => 0, s1 := fun _ => 0 }

theorem curve_one (hf : FileOk f) (hT : SysIn f T NH) (hX : Inside f T X)
    (hsph : IsSphGrad sph dsph ((f.lmax + 1) * (f.lmax + 1))) (D : ℕ → ℕ → ℝ) :
    CurveOk (netOf f) (fun τ => unscaled (confOf f sph T (fun e a => X e a + τ * D e a))) 0 (unscaledT (tanOf f dsph T X D)) T.N f.nT
      (nthN T.types) T.edg (nthN T.idx) (nthN T.ntypes) := by
  have hlen : ∀ i < T.N, ∀ e ∈ T.edg i, 0 < len (X e) := fun i hi e he => (hX e (edg_lt hi he)).1
  refine ⟨fun _ => rfl, fun _ => rfl, fun _ => rfl, fun _ => rfl, hT.typ, ?_, ?_, ?_, fun _ _ => hasDerivAt_const _ _,
    fun _ _ => hasDerivAt_const _ _, fun _ _ => one_ne_zero, fun _ _ => one_ne_zero⟩
  · intro i hi e he l hl k hk
    exact comp_len (hlen i hi e he) (hermite_hasDerivAt hf.h _ _ (hlen i hi e he))
  · intro i hi e he q hq k hk
    exact comp_len (hlen i hi e he) (hermite_hasDerivAt hf.h _ _ (hlen i hi e he))
  · intro i hi e he lm hlm
    have := (hsph (X e 2) (X e 0) (X e 1) (D e 2) (D e 0) (D e 1) lm hlm (len_ne _ (hlen i hi e he))).mul_const
      (2 * Real.sqrt Real.pi)
    refine this.congr_deriv ?_
    simp only [unscaledT, tanOf, dconfOf, shufIx, Finset.sum_range_succ, Finset.sum_range_zero]
    simp
    ring

theorem a0_hasDerivAt (hf : FileOk f) (hT : SysIn f T NH) (hX : Inside f T X)
    (hsph : IsSphGrad sph dsph ((f.lmax + 1) * (f.lmax + 1))) (D : ℕ → ℕ → ℝ) {i lm k : ℕ} (hi : i < T.N)
    (hlm : lm < (netOf f).M) (hk : k < (netOf f).C) :
    HasDerivAt (fun τ : ℝ => a0 (netOf f) (confOf f sph T (fun e a => X e a + τ * D e a)) i lm k)
      (ta0 (netOf f) (confOf f sph T X) (tanOf f dsph T X D) i lm k) 0 := by
  have h0 : (fun e a => X e a + 0 * D e a) = X := by funext e a; ring
  have := deriv_a0s (curve_one hf hT hX hsph D) hi hlm hk
  rw [h0] at this
  unfold a0s ta0s at this
  have e1 : ∀ c : Conf ℝ, a0 (netOf f) (unscaled c) = a0 (netOf f) c := fun _ => rfl
  have e2 : ∀ (c : Conf ℝ) t, ta0 (netOf f) (unscaled c) (unscaledT t) = ta0 (netOf f) c t := fun _ _ => rfl
  have e3 : ∀ c : Conf ℝ, (unscaled c).s0 = fun _ => 1 := fun _ => rfl
  have e4 : ∀ t : Tan ℝ, (unscaledT t).s0 = fun _ => 0 := fun _ => rfl
  simp only [e1, e2, e3, e4, div_one, mul_zero, sub_zero] at this
  exact this

theorem phi1_hasDerivAt (hf : FileOk f) (hT : SysIn f T NH) (hX : Inside f T X)
    (hsph : IsSphGrad sph dsph ((f.lmax + 1) * (f.lmax + 1))) (D : ℕ → ℕ → ℝ) (H : ℕ → ℕ → ℕ → ℝ) {i o k : ℕ} (hi : i < T.N)
    (hk : k < (netOf f).C) :
    HasDerivAt (fun τ : ℝ => phi1 (netOf f) (confOf f sph T (fun e a => X e a + τ * D e a)) H i o k)
      (tphi1 (netOf f) (confOf f sph T X) (tanOf f dsph T X D) H (fun _ _ _ => 0) i o k) 0 := by
  have h0 : (fun e a => X e a + 0 * D e a) = X := by funext e a; ring
  unfold phi1 tphi1
  refine HasDerivAt.fun_sum (fun p hp => ?_)
  split
  · refine HasDerivAt.const_mul _ ?_
    have := deriv_phi1r (NH := NH) (H := fun _ => H) (H' := fun _ _ _ => 0) (netOk hf) (curve_one hf hT hX hsph D)
      (fun i hi e he => hT.nbr e (edg_lt hi he)) (fun _ _ _ _ _ _ => hasDerivAt_const _ _) hi
      ((netOk hf).cgIn p (Finset.mem_range.mp hp)) hk
    rw [h0] at this
    exact this
  · exact hasDerivAt_const _ _

/-- Derivative in the first-layer features, geometry fixed. -/
theorem phi1_lin (c : Conf ℝ) (W : Net ℝ) (H d : ℕ → ℕ → ℕ → ℝ) (i o k : ℕ) :
    HasDerivAt (fun τ : ℝ => phi1 W c (fun v LM k => H v LM k + τ * d v LM k) i o k) (phi1 W c d i o k) 0 := by
  unfold phi1 phi1r
  refine HasDerivAt.fun_sum (fun p hp => ?_)
  split
  · exact HasDerivAt.const_mul _ (HasDerivAt.fun_sum (fun e _ => (lin_deriv _ _).const_mul _))
  · exact hasDerivAt_const _ _

/-! ## Stages -/

/-- `compute_Y`, `compute_R0`, `compute_A0`. -/
noncomputable def toA0 (P : Params ℝ) (g : Graph ℝ) (s : State ℝ) : Option (State ℝ) :=
  ((computeY P g s).bind (computeR0 P g)).bind (computeA0 P g)

/-- `compute_Y`, `compute_R1`, `compute_Phi1`. -/
noncomputable def toPhi1 (P : Params ℝ) (g : Graph ℝ) (s : State ℝ) : Option (State ℝ) :=
  ((computeY P g s).bind (computeR1 P g)).bind (computePhi1 P g)

theorem toA0_spec (hf : FileOk f) (hT : SysIn f T NH) (hP : Loaded f sph dsph P) (hX : Inside f T X) (s : State ℝ) :
    ∃ Y Yg xs o1 o2, toA0 P (T.graph X) s = some { s with
        Y := Y, Yg := Yg, xyzs := xs, R0 := o1, R0d := o2, A0 := T3 T.N (netOf f).M (netOf f).C (a0 (netOf f) (confOf f sph T X)) } ∧
      (0 < T.E → Y = tab2 T.E (netOf f).M (confOf f sph T X).Y) ∧ (0 < T.E → Yg = T3 T.E 3 (netOf f).M (dconfOf f dsph T X).dY) ∧
      Rows (T.graph X) ((netOf f).lmax + 1) (netOf f).C o1 (confOf f sph T X).R0 ∧
      Rows (T.graph X) ((netOf f).lmax + 1) (netOf f).C o2 (dconfOf f dsph T X).dR0 := by
  have hg : GOk (T.graph X) f.nT NH (confOf f sph T X) (nthN T.nn) (dconfOf f dsph T X).X (dconfOf f dsph T X).R :=
    graph_ok hT le_rfl
  have hfe : FeatOk P (netOf f) (T.graph X) f.phil.length (confOf f sph T X) (dconfOf f dsph T X) := feat_ok hf hT hP hX
  have hEx : (T.graph X).Ex = T.E := gx_Ex
  obtain ⟨Y, Yg, xs, e1, y2⟩ := computeY_spec hP.wok hg s
  rw [hEx] at y2
  have hY : 0 < T.E → Y = tab2 T.E (netOf f).M (confOf f sph T X).Y := fun h => by
    rw [(y2 h).1]; exact tab2_congr (fun e he lm hlm => (hfe.y e (by rw [hEx]; exact he) lm hlm).symm)
  have hYg : 0 < T.E → Yg = T3 T.E 3 (netOf f).M (dconfOf f dsph T X).dY := fun h => by
    rw [(y2 h).2]; exact T3_congr (fun e he a ha lm hlm => (hfe.dy e (by rw [hEx]; exact he) a ha lm hlm).symm)
  obtain ⟨o1, o2, e2, r1, r2⟩ := computeR0_spec hg hfe { s with Y := Y, Yg := Yg, xyzs := xs }
  refine ⟨Y, Yg, xs, o1, o2, ?_, hY, hYg, r1, r2⟩
  unfold toA0
  rw [e1, Option.bind_some, e2, Option.bind_some]
  exact computeA0_spec hP.wok hg (by rw [hEx]; exact hY) r1

theorem toPhi1_spec (hf : FileOk f) (hT : SysIn f T NH) (hP : Loaded f sph dsph P) (hX : Inside f T X) (s : State ℝ)
    {H : ℕ → ℕ → ℕ → ℝ} (hH : s.H1 = T3 NH (netOf f).LM (netOf f).C H) :
    ∃ Y Yg xs o1 o2, toPhi1 P (T.graph X) s = some { s with
        Y := Y, Yg := Yg, xyzs := xs, R1 := o1, R1d := o2
        Phi1r := T3 T.N (netOf f).nQ (netOf f).C (phi1r (netOf f) (confOf f sph T X) H),
        Phi1 := T3 T.N (netOf f).nOut (netOf f).C (phi1 (netOf f) (confOf f sph T X) H) } ∧
      (0 < T.E → Y = tab2 T.E (netOf f).M (confOf f sph T X).Y) ∧ (0 < T.E → Yg = T3 T.E 3 (netOf f).M (dconfOf f dsph T X).dY) ∧
      Rows (T.graph X) f.phil.length (netOf f).C o1 (confOf f sph T X).R1 ∧
      Rows (T.graph X) f.phil.length (netOf f).C o2 (dconfOf f dsph T X).dR1 := by
  have hg : GOk (T.graph X) f.nT NH (confOf f sph T X) (nthN T.nn) (dconfOf f dsph T X).X (dconfOf f dsph T X).R :=
    graph_ok hT le_rfl
  have hfe : FeatOk P (netOf f) (T.graph X) f.phil.length (confOf f sph T X) (dconfOf f dsph T X) := feat_ok hf hT hP hX
  have hEx : (T.graph X).Ex = T.E := gx_Ex
  obtain ⟨Y, Yg, xs, e1, y2⟩ := computeY_spec hP.wok hg s
  rw [hEx] at y2
  have hY : 0 < T.E → Y = tab2 T.E (netOf f).M (confOf f sph T X).Y := fun h => by
    rw [(y2 h).1]; exact tab2_congr (fun e he lm hlm => (hfe.y e (by rw [hEx]; exact he) lm hlm).symm)
  have hYg : 0 < T.E → Yg = T3 T.E 3 (netOf f).M (dconfOf f dsph T X).dY := fun h => by
    rw [(y2 h).2]; exact T3_congr (fun e he a ha lm hlm => (hfe.dy e (by rw [hEx]; exact he) a ha lm hlm).symm)
  obtain ⟨o1, o2, e2, r1, r2⟩ := computeR1_spec hP.wok hg hfe { s with Y := Y, Yg := Yg, xyzs := xs }
  refine ⟨Y, Yg, xs, o1, o2, ?_, hY, hYg, r1, r2⟩
  unfold toPhi1
  rw [e1, Option.bind_some, e2, Option.bind_some]
  exact computePhi1_spec hP.wok hg (by rw [hEx]; exact hY) r1 hH

theorem tr_A0 (hf : FileOk f) (hT : SysIn f T NH) (hP : Loaded f sph dsph P)
    (hsph : IsSphGrad sph dsph ((f.lmax + 1) * (f.lmax + 1))) (hX : Inside f T X) (s : State ℝ) {w F : List ℝ}
    (hw : w.length = T.N * (netOf f).M * (netOf f).C) (hF : F.length = T.E * 3) :
    ∃ s1 s2 G, toA0 P (T.graph X) s = some s1 ∧
      reverseA0 P (T.graph X) { s1 with A0a := w, nodeForces := F } = some s2 ∧ s2.nodeForces = plus F G ∧
      IsMinusGradX T.E (fun X => (toA0 P (T.graph X) s).map (·.A0)) X w G := by
  obtain ⟨w, rfl⟩ := ex_T3 hw
  obtain ⟨F, rfl⟩ := ex_tab2 hF
  have hg : GOk (T.graph X) f.nT NH (confOf f sph T X) (nthN T.nn) (dconfOf f dsph T X).X (dconfOf f dsph T X).R :=
    graph_ok hT le_rfl
  have hEx : (T.graph X).Ex = T.E := gx_Ex
  obtain ⟨Y, Yg, xs, o1, o2, e1, hY, hYg, r1, r2⟩ := toA0_spec hf hT hP hX s
  refine ⟨_, _, tab2 T.E 3 (onE T.nn T.N (force0 (netOf f) (confOf f sph T X) (dconfOf f dsph T X) w)), e1,
    reverseA0_spec hP.wok hg (A := w) (F := F) (by rw [hEx]; exact hY) (by rw [hEx]; exact hYg) r1 r2 rfl (by rw [hEx]), ?_, ?_⟩
  · rw [plus_tab2, hEx]; rfl
  · refine minusGrad_of (fun D => ⟨fun τ => T3 T.N (netOf f).M (netOf f).C
      (a0 (netOf f) (confOf f sph T (fun e a => X e a + τ * D e a))), ?_, ?_⟩)
    · filter_upwards [Props.inside_open hX D] with τ h
      obtain ⟨_, _, _, _, _, k1, _⟩ := toA0_spec hf hT hP h s
      exact ⟨by rw [k1]; rfl, by simp⟩
    · refine dot_T3_deriv (fun i hi lm hlm k hk => a0_hasDerivAt hf hT hX hsph D hi hlm hk) ?_
      rw [← Finset.sum_neg_distrib]
      exact Finset.sum_congr rfl (fun i hi => pair_force0 (tan_ok T.N) w (Finset.mem_range.mp hi))

theorem start_tab2 (z : Bool) {old : List ℝ} {n m : ℕ} (ho : z = false → old.length = n * m) :
    ∃ F : ℕ → ℕ → ℝ, ((z = true ∧ F = fun _ _ => 0) ∨ (z = false ∧ old = tab2 n m F)) ∧ startOf z old (n * m) = tab2 n m F := by
  cases z with
  | true => exact ⟨_, Or.inl ⟨rfl, rfl⟩, (zeros_tab2 _ _).symm⟩
  | false =>
    obtain ⟨o, rfl⟩ := ex_tab2 (ho rfl)
    exact ⟨o, Or.inr ⟨rfl, rfl⟩, rfl⟩

theorem start_T3 (z : Bool) {old : List ℝ} {n m c : ℕ} (ho : z = false → old.length = n * m * c) :
    ∃ F : ℕ → ℕ → ℕ → ℝ, ((z = true ∧ F = fun _ _ _ => 0) ∨ (z = false ∧ old = T3 n m c F)) ∧
      startOf z old (n * m * c) = T3 n m c F := by
  cases z with
  | true => exact ⟨_, Or.inl ⟨rfl, rfl⟩, (zeros_T3 _ _ _).symm⟩
  | false =>
    obtain ⟨o, rfl⟩ := ex_T3 (ho rfl)
    exact ⟨o, Or.inr ⟨rfl, rfl⟩, rfl⟩

theorem tr_Phi1 (hf : FileOk f) (hT : SysIn f T NH) (hP : Loaded f sph dsph P)
    (hsph : IsSphGrad sph dsph ((f.lmax + 1) * (f.lmax + 1))) (hX : Inside f T X) (s : State ℝ) (zf zh : Bool)
    {H w F old : List ℝ} (hH : H.length = NH * (netOf f).LM * (netOf f).C) (hw : w.length = T.N * (netOf f).nOut * (netOf f).C)
    (hF : zf = false → F.length = T.E * 3) (ho : zh = false → old.length = NH * (netOf f).LM * (netOf f).C) :
    ∃ s1 s2 G Gh, toPhi1 P (T.graph X) { s with H1 := H } = some s1 ∧
      reversePhi1 P (T.graph X) zf zh { s1 with dPhi1 := w, nodeForces := F, H1a := old } = some s2 ∧
      s2.nodeForces = plus (startOf zf F (T.E * 3)) G ∧ s2.H1a = plus (startOf zh old (NH * (netOf f).LM * (netOf f).C)) Gh ∧
      IsMinusGradX T.E (fun X => (toPhi1 P (T.graph X) { s with H1 := H }).map (·.Phi1)) X w G ∧
      IsGrad (fun x => (toPhi1 P (T.graph X) { s with H1 := x }).map (·.Phi1)) H w Gh := by
  obtain ⟨H, rfl⟩ := ex_T3 hH
  obtain ⟨w, rfl⟩ := ex_T3 hw
  obtain ⟨F', hF', eF⟩ := start_tab2 zf hF
  obtain ⟨Ha, hHa, eH⟩ := start_T3 zh ho
  have hg : GOk (T.graph X) f.nT NH (confOf f sph T X) (nthN T.nn) (dconfOf f dsph T X).X (dconfOf f dsph T X).R :=
    graph_ok hT le_rfl
  have hEx : (T.graph X).Ex = T.E := gx_Ex
  have hn : ∀ i < T.N, ∀ e ∈ (confOf f sph T X).edg i, (confOf f sph T X).nbr e < NH := fun i hi e he => hT.nbr e (edg_lt hi he)
  obtain ⟨Y, Yg, xs, o1, o2, e1, hY, hYg, r1, r2⟩ := toPhi1_spec hf hT hP hX
    { s with H1 := T3 NH (netOf f).LM (netOf f).C H } rfl
  refine ⟨_, _, tab2 T.E 3 (onE T.nn T.N (force1 (netOf f) (confOf f sph T X) (dconfOf f dsph T X) H (dphi1r (netOf f) w))),
    T3 NH (netOf f).LM (netOf f).C (adj1 (netOf f) (confOf f sph T X) T.N (dphi1r (netOf f) w)), e1,
    reversePhi1_spec hP.wok hg (H := H) (D := w) (F := F') (Ha := Ha) (by rw [hEx]; exact hY) (by rw [hEx]; exact hYg) r1 r2 rfl
      rfl rfl zf zh (by rw [hEx]; exact hF') hHa, ?_, ?_, ?_, ?_⟩
  · rw [eF, plus_tab2, hEx]; rfl
  · rw [eH, plus_T3]; rfl
  · refine minusGrad_of (fun D => ⟨fun τ => T3 T.N (netOf f).nOut (netOf f).C
      (phi1 (netOf f) (confOf f sph T (fun e a => X e a + τ * D e a)) H), ?_, ?_⟩)
    · filter_upwards [Props.inside_open hX D] with τ h
      obtain ⟨_, _, _, _, _, k1, _⟩ := toPhi1_spec hf hT hP h { s with H1 := T3 NH (netOf f).LM (netOf f).C H } rfl
      exact ⟨by rw [k1]; rfl, by simp⟩
    · refine dot_T3_deriv (fun i hi o ho k hk => phi1_hasDerivAt hf hT hX hsph D H hi hk) ?_
      rw [← Finset.sum_neg_distrib]
      refine Finset.sum_congr rfl (fun i hi => ?_)
      rw [Finset.sum_comm]
      unfold tphi1
      rw [Finset.sum_congr rfl (fun k _ => pair_cg (netOk hf).cgOut (netOk hf).cgIn w
        (fun q k => tphi1r (netOf f) (confOf f sph T X) (tanOf f dsph T X D) H (fun _ _ _ => 0) i q k) i k), Finset.sum_comm,
        pair_force1 (tan_ok T.N) H (fun _ _ _ => 0) (dphi1r (netOf f) w) (Finset.mem_range.mp hi)]
      simp only [mul_zero, Finset.sum_const_zero, add_zero]
      rfl
  · refine isGrad_T3 (fun d => ⟨fun τ => T3 T.N (netOf f).nOut (netOf f).C
      (phi1 (netOf f) (confOf f sph T X) (fun v LM k => H v LM k + τ * d v LM k)), fun τ => ⟨?_, by simp⟩, ?_⟩)
    · obtain ⟨_, _, _, _, _, k1, _⟩ := toPhi1_spec hf hT hP hX
        { s with H1 := T3 NH (netOf f).LM (netOf f).C (fun v LM k => H v LM k + τ * d v LM k) } rfl
      dsimp only
      rw [k1]; rfl
    · refine dot_T3_deriv (fun i hi o ho k hk => phi1_lin _ _ H d i o k) ?_
      rw [← pair_adj1 hn (netOk hf).q2]
      refine Finset.sum_congr rfl (fun i hi => ?_)
      rw [Finset.sum_comm]
      unfold phi1
      rw [Finset.sum_congr rfl (fun k _ => pair_cg (netOk hf).cgOut (netOk hf).cgIn w
        (fun q k => phi1r (netOf f) (confOf f sph T X) d i q k) i k), Finset.sum_comm]
      unfold phi1r
      simp only [Finset.mul_sum]
      have h2 : ∀ g : ℕ → ℕ → ℕ → ℝ, ∑ q ∈ Finset.range (netOf f).nQ, ∑ k ∈ Finset.range (netOf f).C,
          ∑ e ∈ (confOf f sph T X).edg i, g q k e
          = ∑ e ∈ (confOf f sph T X).edg i, ∑ q ∈ Finset.range (netOf f).nQ, ∑ k ∈ Finset.range (netOf f).C, g q k e := fun g => by
        rw [Finset.sum_congr rfl (fun q _ => Finset.sum_comm), Finset.sum_comm]
      rw [h2]
      exact Finset.sum_congr rfl (fun _ _ => Finset.sum_congr rfl (fun _ _ => Finset.sum_congr rfl (fun _ _ => by ring)))

/-! ## Density normalisation -/

theorem s_hasDerivAt (hf : FileOk f) (hX : Inside f T X) (D : ℕ → ℕ → ℝ) {i : ℕ} (hi : i < T.N) :
    HasDerivAt (fun τ : ℝ => (confOf f sph T (fun e a => X e a + τ * D e a)).s0 i) ((tanOf f dsph T X D).s0 i) 0 ∧
    HasDerivAt (fun τ : ℝ => (confOf f sph T (fun e a => X e a + τ * D e a)).s1 i) ((tanOf f dsph T X D).s1 i) 0 := by
  have hlen : ∀ e ∈ T.edg i, 0 < len (X e) := fun e he => (hX e (edg_lt hi he)).1
  constructor
  · by_cases hs : f.A0scaled = true
    · simp only [confOf, if_pos hs, tanOf, dconfOf]
      refine HasDerivAt.const_add _ (HasDerivAt.fun_sum (fun e he => ?_))
      exact comp_len (hlen e he) (hermite_hasDerivAt (hf.A0s hs).1 _ _ (hlen e he))
    · simp only [confOf, if_neg hs, tanOf, dconfOf, zero_mul, Finset.sum_const_zero]
      exact hasDerivAt_const _ _
  · by_cases hs : f.A1scaled = true
    · simp only [confOf, if_pos hs, tanOf, dconfOf]
      refine HasDerivAt.const_add _ (HasDerivAt.fun_sum (fun e he => ?_))
      exact comp_len (hlen e he) (hermite_hasDerivAt (hf.A1s hs).1 _ _ (hlen e he))
    · simp only [confOf, if_neg hs, tanOf, dconfOf, zero_mul, Finset.sum_const_zero]
      exact hasDerivAt_const _ _

/-- The derivative of `w · a / s` along the geometry, for a table `a` that does not depend on it. -/
theorem scaled_geom {M C : ℕ} {a w : ℕ → ℕ → ℕ → ℝ} {sc : ℝ → ℕ → ℝ} {tsc : ℕ → ℝ} {dv : ℕ → ℝ} {D : ℕ → ℕ → ℝ}
    (hs : ∀ i < T.N, HasDerivAt (fun τ => sc τ i) (tsc i) 0) (hn : ∀ i < T.N, sc 0 i ≠ 0)
    (ht : ∀ i < T.N, tsc i = ∑ e ∈ T.edg i, dv e * ((∑ a ∈ Finset.range 3, X e a * D e a) / len (X e))) :
    HasDerivAt (fun τ => dot (T3 T.N M C w) (T3 T.N M C (fun i lm k => a i lm k / sc τ i)))
      (- ∑ i ∈ Finset.range T.N, ∑ e ∈ T.edg i, ∑ b ∈ Finset.range 3,
        forceS M C (dconfOf f dsph T X) (sc 0) dv (fun i lm k => a i lm k / sc 0 i) w i e b * D e b) 0 := by
  refine dot_T3_deriv (y' := fun i lm k => (0 - a i lm k / sc 0 i * tsc i) / sc 0 i) (fun i hi lm hlm k hk =>
    hasDerivAt_scaled (hasDerivAt_const _ _) (hs i hi) (hn i hi)) ?_
  rw [← Finset.sum_neg_distrib]
  refine Finset.sum_congr rfl (fun i hi => ?_)
  rw [pair_scale (Finset.range M) (Finset.range C) (w i) (fun lm k => a i lm k / sc 0 i) (fun _ _ => 0)]
  simp only [mul_zero, Finset.sum_const_zero, zero_sub]
  rw [pair_forceS (c := confOf f (fun _ _ _ _ => 0) T X) (d := dconfOf f dsph T X) (D := D) M C (sc 0) dv (fun i lm k => a i lm k / sc 0 i) w i (tsc i)
    (ht i (Finset.mem_range.mp hi))]
  rfl

/-- The derivative of `w · a / s` along the buffer. -/
theorem scaled_lin {N M C : ℕ} {a d w : ℕ → ℕ → ℕ → ℝ} {sc : ℕ → ℝ} :
    HasDerivAt (fun τ : ℝ => dot (T3 N M C w) (T3 N M C (fun i lm k => (a i lm k + τ * d i lm k) / sc i)))
      (∑ i ∈ Finset.range N, ∑ lm ∈ Finset.range M, ∑ k ∈ Finset.range C, w i lm k / sc i * d i lm k) 0 := by
  refine dot_T3_deriv (fun i hi lm hlm k hk => (lin_deriv _ _).div_const _) ?_
  exact Finset.sum_congr rfl (fun _ _ => Finset.sum_congr rfl (fun _ _ => Finset.sum_congr rfl (fun _ _ => by ring)))

theorem tr_A0Scaled (hf : FileOk f) (hT : SysIn f T NH) (hP : Loaded f sph dsph P) (hX : Inside f T X)
    (hn : ∀ i < T.N, (confOf f sph T X).s0 i ≠ 0) (s : State ℝ) {A w F : List ℝ}
    (hA : A.length = T.N * (netOf f).M * (netOf f).C) (hw : w.length = T.N * (netOf f).M * (netOf f).C) (hF : F.length = T.E * 3) :
    ∃ s1 s2 G, computeA0Scaled P (T.graph X) { s with A0 := A } = some s1 ∧
      reverseA0Scaled P (T.graph X) { s1 with A0a := w, nodeForces := F } = some s2 ∧ s2.nodeForces = plus F G ∧
      IsMinusGradX T.E (fun X => (computeA0Scaled P (T.graph X) { s with A0 := A }).map (·.A0)) X w G ∧
      IsGrad (fun x => (computeA0Scaled P (T.graph X) { s with A0 := x }).map (·.A0)) A w s2.A0a := by
  obtain ⟨A, rfl⟩ := ex_T3 hA
  obtain ⟨w, rfl⟩ := ex_T3 hw
  obtain ⟨F, rfl⟩ := ex_tab2 hF
  have h0 : ∀ D : ℕ → ℕ → ℝ, (fun e a => X e a + 0 * D e a) = X := by intro D; funext e a; ring
  have hg : ∀ X, GOk (T.graph X) f.nT NH (confOf f sph T X) (nthN T.nn) (dconfOf f dsph T X).X (dconfOf f dsph T X).R :=
    fun X => graph_ok hT le_rfl
  have hfe : ∀ X, Inside f T X → FeatOk P (netOf f) (T.graph X) f.phil.length (confOf f sph T X) (dconfOf f dsph T X) :=
    fun X hX => feat_ok hf hT hP hX
  have hEx : (T.graph X).Ex = T.E := gx_Ex
  have e1 := fun X hX A => computeA0Scaled_spec (s := { s with A0 := T3 T.N (netOf f).M (netOf f).C A }) (a := A) hP.wok (hg X)
    (hfe X hX).s0 rfl
  refine ⟨_, _, tab2 T.E 3 (onE T.nn T.N (forceS (netOf f).M (netOf f).C (dconfOf f dsph T X) (confOf f sph T X).s0
    (dconfOf f dsph T X).ds0 (fun i lm k => A i lm k / (confOf f sph T X).s0 i) w)), e1 X hX A,
    reverseA0Scaled_spec (d := dconfOf f dsph T X) hP.wok (hg X) (hfe X hX).s0
      (A := fun i lm k => A i lm k / (confOf f sph T X).s0 i) (Aa := w) (F := F) rfl rfl (by rw [hEx]), ?_, ?_, ?_⟩
  · rw [plus_tab2, hEx]; rfl
  · refine minusGrad_of (fun D => ⟨fun τ => T3 T.N (netOf f).M (netOf f).C
      (fun i lm k => A i lm k / (confOf f sph T (fun e a => X e a + τ * D e a)).s0 i), ?_, ?_⟩)
    · filter_upwards [Props.inside_open hX D] with τ h
      exact ⟨by rw [e1 _ h]; rfl, by simp⟩
    · have := scaled_geom (f := f) (dsph := dsph) (M := (netOf f).M) (C := (netOf f).C) (a := A) (w := w) (X := X) (D := D)
        (sc := fun τ => (confOf f sph T (fun e a => X e a + τ * D e a)).s0) (dv := (dconfOf f dsph T X).ds0)
        (fun i hi => (s_hasDerivAt (sph := sph) (dsph := dsph) hf hX D hi).1) (by rw [h0]; exact hn) (fun i hi => rfl)
      rw [h0] at this
      exact this
  · refine isGrad_T3 (fun d => ⟨_, fun τ => ⟨by rw [e1 X hX]; rfl, by rw [length_T3, length_T3]⟩, scaled_lin⟩)

theorem reverseA1Scaled_flag (P : Params ℝ) (g : Graph ℝ) (s : State ℝ) (z : Bool) (h : P.A1scaled = true) :
    reverseA1Scaled P g z s = reverseA1Scaled P g false { s with nodeForces :=
      (if z then List.replicate g.xyz.length 0 else resize s.nodeForces g.xyz.length) } := by
  unfold reverseA1Scaled
  rw [if_pos h, if_pos h]
  cases z <;> simp [resize_eq]

theorem tr_A1Scaled (hf : FileOk f) (hT : SysIn f T NH) (hP : Loaded f sph dsph P) (hX : Inside f T X)
    (hn : ∀ i < T.N, (confOf f sph T X).s1 i ≠ 0) (s : State ℝ) (z : Bool) {A w F : List ℝ}
    (hA : A.length = T.N * (netOf f).M * (netOf f).C) (hw : w.length = T.N * (netOf f).M * (netOf f).C)
    (hF : (z = false ∨ f.A1scaled = false) → F.length = T.E * 3) :
    ∃ s1 s2 G, computeA1Scaled P (T.graph X) { s with A1 := A } = some s1 ∧
      reverseA1Scaled P (T.graph X) z { s1 with A1a := w, nodeForces := F } = some s2 ∧
      s2.nodeForces = plus (startOf (z && f.A1scaled) F (T.E * 3)) G ∧
      IsMinusGradX T.E (fun X => (computeA1Scaled P (T.graph X) { s with A1 := A }).map (·.A1)) X w G ∧
      IsGrad (fun x => (computeA1Scaled P (T.graph X) { s with A1 := x }).map (·.A1)) A w s2.A1a := by
  obtain ⟨A, rfl⟩ := ex_T3 hA
  obtain ⟨w, rfl⟩ := ex_T3 hw
  obtain ⟨F', hF', eF⟩ := start_tab2 (z && f.A1scaled) (old := F) (n := T.E) (m := 3) (by
    intro h
    refine hF ?_
    cases z <;> simp_all)
  have h0 : ∀ D : ℕ → ℕ → ℝ, (fun e a => X e a + 0 * D e a) = X := by intro D; funext e a; ring
  have hg : ∀ X, GOk (T.graph X) f.nT NH (confOf f sph T X) (nthN T.nn) (dconfOf f dsph T X).X (dconfOf f dsph T X).R :=
    fun X => graph_ok hT le_rfl
  have hfe : ∀ X, Inside f T X → FeatOk P (netOf f) (T.graph X) f.phil.length (confOf f sph T X) (dconfOf f dsph T X) :=
    fun X hX => feat_ok hf hT hP hX
  have hEx : (T.graph X).Ex = T.E := gx_Ex
  have e1 := fun X hX A => computeA1Scaled_spec (s := { s with A1 := T3 T.N (netOf f).M (netOf f).C A }) (a := A) hP.wok (hg X)
    (hfe X hX).s1 rfl
  have e2 := fun s' (h1 : s'.A1 = _) (h2 : s'.A1a = _) (h3 : s'.nodeForces = _) =>
    reverseA1Scaled_spec (d := dconfOf f dsph T X) (s := s') hP.wok (hg X) (hfe X hX).s1
      (A := fun i lm k => A i lm k / (confOf f sph T X).s1 i) (Aa := w) (F := F') h1 h2 h3
  have e3 : ∀ s' : State ℝ, s'.A1 = T3 T.N (netOf f).M (netOf f).C (fun i lm k => A i lm k / (confOf f sph T X).s1 i) →
      s'.A1a = T3 T.N (netOf f).M (netOf f).C w → s'.nodeForces = F → ∃ s2, reverseA1Scaled P (T.graph X) z s' = some s2 ∧
      s2.nodeForces = tab2 T.E 3 (fun e a => F' e a + onE T.nn T.N (forceS (netOf f).M (netOf f).C (dconfOf f dsph T X)
        (confOf f sph T X).s1 (dconfOf f dsph T X).ds1 (fun i lm k => A i lm k / (confOf f sph T X).s1 i) w) e a) ∧
      s2.A1a = T3 T.N (netOf f).M (netOf f).C (fun i lm k => w i lm k / (confOf f sph T X).s1 i) := by
    intro s' h1 h2 h3
    have hlen : (T.graph X).xyz.length = T.E * 3 := by rw [(hg X).xyz_len, hEx]
    by_cases hs : f.A1scaled = true
    · rw [reverseA1Scaled_flag P _ s' z (by rw [hP.A1s]; exact hs)]
      have h4 : (if z then List.replicate (T.graph X).xyz.length 0 else resize s'.nodeForces (T.graph X).xyz.length) = tab2 T.E 3 F' := by
        rw [← eF, hs, Bool.and_true, hlen, h3]
        unfold startOf
        cases z with
        | true => rfl
        | false => exact resize_eq (hF (Or.inl rfl))
      refine ⟨_, e2 _ h1 h2 (by rw [hEx]; exact h4), ?_, ?_⟩
      · rw [hEx]; rfl
      · rfl
    · have hs' : f.A1scaled = false := by simpa using hs
      have h5 : reverseA1Scaled P (T.graph X) z s' = reverseA1Scaled P (T.graph X) false s' := by
        unfold reverseA1Scaled
        rw [hP.A1s, hs', if_neg (by simp), if_neg (by simp)]
      rw [h5]
      refine ⟨_, e2 _ h1 h2 ?_, ?_, ?_⟩
      · rw [hEx, h3, ← eF, hs', Bool.and_false]; rfl
      · rw [hEx]; rfl
      · rfl
  obtain ⟨s2, k1, k2, k3⟩ := e3 { s with
    A1 := T3 T.N (netOf f).M (netOf f).C (fun i lm k => A i lm k / (confOf f sph T X).s1 i)
    A1a := T3 T.N (netOf f).M (netOf f).C w, nodeForces := F } rfl rfl rfl
  refine ⟨_, s2, tab2 T.E 3 (onE T.nn T.N (forceS (netOf f).M (netOf f).C (dconfOf f dsph T X) (confOf f sph T X).s1
    (dconfOf f dsph T X).ds1 (fun i lm k => A i lm k / (confOf f sph T X).s1 i) w)), e1 X hX A, k1, ?_, ?_, ?_⟩
  · rw [eF, plus_tab2, k2]
  · refine minusGrad_of (fun D => ⟨fun τ => T3 T.N (netOf f).M (netOf f).C
      (fun i lm k => A i lm k / (confOf f sph T (fun e a => X e a + τ * D e a)).s1 i), ?_, ?_⟩)
    · filter_upwards [Props.inside_open hX D] with τ h
      exact ⟨by rw [e1 _ h]; rfl, by simp⟩
    · have := scaled_geom (f := f) (dsph := dsph) (M := (netOf f).M) (C := (netOf f).C) (a := A) (w := w) (X := X) (D := D)
        (sc := fun τ => (confOf f sph T (fun e a => X e a + τ * D e a)).s1) (dv := (dconfOf f dsph T X).ds1)
        (fun i hi => (s_hasDerivAt (sph := sph) (dsph := dsph) hf hX D hi).2) (by rw [h0]; exact hn) (fun i hi => rfl)
      rw [h0] at this
      exact this
  · rw [k3]
    refine isGrad_T3 (fun d => ⟨_, fun τ => ⟨by rw [e1 X hX]; rfl, by rw [length_T3, length_T3]⟩, scaled_lin⟩)

end Verif.MACE
