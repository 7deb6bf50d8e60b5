import Verif.Lemmas.Num.Stages2

/-!
# Families of runs: products, second layer, readouts
-/

namespace Verif.Num
open Filter

variable {ι : Type} {l : Filter ι} {K F : Type} [Field F] {A : ι → Arith K} {V : (ι → K) → F → Prop} {D : F → Prop}
  {E : ℕ} {X : ℕ → ℕ → F} {g : ι → MACE.Graph K} {g' : MACE.Graph F} {P : ι → MACE.Params K} {P' : MACE.Params F}
  {s : ι → MACE.State K} {s' : MACE.State F}

/-! ## Products -/

theorem dcopy_rel {k aoff ainc boff binc : ℕ} {a b : ι → List K} {a' b' : List F} (ha : RL V a a') (hb : RL V b b') :
    RO l (RL V) (fun n => dcopy k (a n) aoff ainc boff binc (b n)) (MACE.dcopy k a' aoff ainc boff binc b') := by
  unfold dcopy MACE.dcopy
  rel

theorem productStep_rel (hS : Sound A V D) (hP : RParams A V D E X P P') {a : ι → List K} {a' : List F} (ha : RL V a a') {i j k m : ℕ}
    {st : ι → List K × List K × List K × List (Poly.Poly K)} {st' : List F × List F × List F × List (Poly.Poly F)}
    (hst : RP (RL V) (RP (RL V) (RP (RL V) (RL (RPoly V)))) st st') :
    RO l (RP (RL V) (RP (RL V) (RP (RL V) (RL (RPoly V))))) (fun n => productStep (A := A n) (P n) (a n) i j k m (st n))
      (MACE.productStep P' a' i j k m st') := by
  unfold productStep MACE.productStep
  simp only [hP.M, hP.C]
  refine RO.bind (dcopy_rel ha hst.fst) fun x x' hx => RO.bind (hst.snd.snd.snd.get _) fun p p' hp => ?_
  refine RO.bind (polyGradient_rel hS hp hx) fun f f' hf => RO.bind (hst.snd.fst.wr hf.fst _) fun o o' ho => ?_
  refine RO.bind (dcopy_rel hf.snd.fst hst.snd.snd.fst) fun d d' hd => RO.pure ?_
  exact RP.mk hx (RP.mk ho (RP.mk hd (hst.snd.snd.snd.set hf.snd.snd _)))

theorem computeM0_rel (hS : Sound A V D) (hP : RParams A V D E X P P') (hg : RGraph V D E X g g') (hs : RState V s s') :
    RO l (RState V) (fun n => computeM0 (A := A n) (P n) (g n) (s n)) (MACE.computeM0 P' g' s') := by
  unfold computeM0 MACE.computeM0
  simp only [hP.M, hP.LM, hP.C, hg.N, hg.types]
  refine RO.bind (R := RP (RL V) (RP (RL V) (RL (RPoly V)))) (RO.loop (fun i st st' hst => ?_)
    (RP.mk (hs.M0.resize hS _) (RP.mk (hs.M0g.resize hS _) hs.P0))) fun q q' hq =>
      RO.pure { hs with M0 := hq.fst, M0g := hq.snd.fst, P0 := hq.snd.snd }
  refine RO.bind (R := RP RE (RP (RL V) (RP (RL V) (RP (RL V) (RL (RPoly V)))))) (RO.loop (fun lm q q' hq => ?_)
    (RP.mk rfl (RP.mk (RL.zeros hS _) hst))) fun q q' hq => RO.pure hq.snd.snd
  obtain ⟨q, rfl, hq2⟩ := hq.counter
  exact RO.cnt (fun k c q q' hq => RO.bindConst fun ti => productStep_rel hS hP hs.A0 hq) hq2

theorem reverseM0_rel (hS : Sound A V D) (hP : RParams A V D E X P P') (hg : RGraph V D E X g g') (hs : RState V s s') :
    RO l (RState V) (fun n => reverseM0 (A := A n) (P n) (g n) (s n)) (MACE.reverseM0 P' g' s') := by
  unfold reverseM0 MACE.reverseM0
  simp only [hP.M, hP.LM, hP.C, hg.N, hs.A0.length]
  have h1 := hs.M0g
  have h2 := hs.M0a
  refine RO.bind (R := RL V) ?_ fun q q' hq => RO.pure { hs with A0a := hq }
  rel

theorem computeH1_rel (hS : Sound A V D) (hP : RParams A V D E X P P') (hg : RGraph V D E X g g') (hs : RState V s s') :
    RO l (RState V) (fun n => computeH1 (A := A n) (P n) (g n) (s n)) (MACE.computeH1 P' g' s') := by
  unfold computeH1 MACE.computeH1
  simp only [hP.Lmax, hP.LM, hP.C, hg.N, hs.M0.length]
  exact RO.bind (R := RL V) (RO.loop (fun i b b' hb => RO.loop (fun j b b' hb => gemm_rel hS hs.M0 hP.H1w hb) hb) (hs.H1.resize hS _))
    fun q q' hq => RO.pure { hs with H1 := hq }

theorem reverseH1_rel (hS : Sound A V D) (hP : RParams A V D E X P P') (hg : RGraph V D E X g g') (hs : RState V s s') :
    RO l (RState V) (fun n => reverseH1 (A := A n) (P n) (g n) (s n)) (MACE.reverseH1 P' g' s') := by
  unfold reverseH1 MACE.reverseH1
  simp only [hP.Lmax, hP.LM, hP.C, hg.N, hs.M0.length]
  exact RO.bind (R := RL V) (RO.loop (fun i b b' hb => RO.loop (fun j b b' hb => gemm_rel hS hs.H1a hP.H1w hb) hb) (hs.M0a.resize hS _))
    fun q q' hq => RO.pure { hs with M0a := hq }

/-! ## Second layer -/

theorem tripleLoop_rel (hP : RParams A V D E X P P') {σ σ' : Type} {R : (ι → σ) → σ' → Prop} {f : ι → ℕ → ℕ → ℕ → ℕ → σ → Option σ}
    {f' : ℕ → ℕ → ℕ → ℕ → σ' → Option σ'} (hf : ∀ a b c d x x', R x x' → RO l R (fun n => f n a b c d (x n)) (f' a b c d x'))
    {x : ι → σ} {x' : σ'} (hx : R x x') :
    RO l R (fun n => tripleLoop (P n) (f n) (x n)) (MACE.tripleLoop P' f' x') := by
  unfold tripleLoop MACE.tripleLoop
  simp only [hP.phil, hP.phil1, hP.phil2]
  refine RO.bind (R := RP RE R) (RO.loop (fun le q q' hq => ?_) (RP.mk rfl hx)) fun q q' hq => RO.pure hq.snd
  refine RO.bindConst fun l1 => RO.bindConst fun l2 => RO.loop (fun m1 q q' hq => ?_) hq
  obtain ⟨q, rfl, hq2⟩ := hq.counter
  exact RO.cnt (fun m2 c x x' hx => hf _ _ _ _ x x' hx) hq2

theorem phi1Edge_rel (hS : Sound A V D) (hP : RParams A V D E X P P') (hg : RGraph V D E X g g') (hs : RState V s s')
    {i ij : ℕ} {b : ι → List K} {b' : List F} (hb : RL V b b') :
    RO l (RL V) (fun n => phi1Edge (A := A n) (P n) (g n) (s n) i ij (b n)) (MACE.phi1Edge P' g' s' i ij b') := by
  unfold phi1Edge MACE.phi1Edge
  simp only [hP.M, hP.LM, hP.C, hP.numLelm, hg.idx]
  have h1 := hs.Y
  have h2 := hs.R1
  have h3 := hs.H1
  refine RO.bind (hP.splSet1.get _) fun s0 s0' hs0 => RO.bindConst fun v => tripleLoop_rel hP (fun le a c q b b' hb => ?_) hb
  simp only [hs0]
  rel

theorem cgPass_rel (hS : Sound A V D) {C N nd ns : ℕ} {di si : List ℕ} {cg src b : ι → List K} {cg' src' b' : List F} (h1 : RL V cg cg')
    (h2 : RL V src src') (hb : RL V b b') :
    RO l (RL V) (fun n => cgPass (A := A n) C N (cg n) nd ns di si (src n) (b n)) (MACE.cgPass C N cg' nd ns di si src' b') := by
  unfold cgPass MACE.cgPass
  simp only [h1.length]
  rel

theorem computePhi1_rel (hS : Sound A V D) (hP : RParams A V D E X P P') (hg : RGraph V D E X g g') (hs : RState V s s') :
    RO l (RState V) (fun n => computePhi1 (A := A n) (P n) (g n) (s n)) (MACE.computePhi1 P' g' s') := by
  unfold computePhi1 MACE.computePhi1
  simp only [hP.C, hP.numLelm, hP.numLme, hP.philme, hP.philelm, hg.N, hg.nn]
  refine RO.bind (R := RP RE (RL V)) (RO.loop (fun i q q' hq => ?_) (RP.mk rfl (RL.zeros hS _))) fun q q' hq => ?_
  · obtain ⟨q, rfl, hq2⟩ := hq.counter
    exact RO.bindConst fun k => (RO.edgesFrom (R := RL V) (fun j _ b b' hb => phi1Edge_rel hS hP hg hs hb) hq2).mono fun _ _ _ h => h.2
  · exact RO.bind (cgPass_rel hS hP.cg hq.snd (RL.zeros hS _)) fun p p' hp => RO.pure { hs with Phi1r := hq.snd, Phi1 := hp }

theorem phi1Force_rel (hS : Sound A V D) (hP : RParams A V D E X P P') (hg : RGraph V D E X g g') (hs : RState V s s')
    {i ij : ℕ} {dr b : ι → List K} {dr' b' : List F} (hdr : RL V dr dr') (hb : RL V b b') :
    RO l (RL V) (fun n => phi1Force (A := A n) (P n) (g n) (s n) (dr n) i ij (b n)) (MACE.phi1Force P' g' s' dr' i ij b') := by
  unfold phi1Force MACE.phi1Force
  simp only [hP.M, hP.LM, hP.C, hP.numLelm, hg.idx]
  have h1 := hs.Y
  have h2 := hs.R1
  have h3 := hs.H1
  have h4 := hs.Yg
  have h5 := hs.R1d
  have h6 := hg.xyz
  refine RO.bind (hP.splSet1.get _) fun s0 s0' hs0 => RO.bindConst fun v => RO.bindGet hg.r fun r r' _ hr' hr => ?_
  have hd := hg.pos _ _ hr'
  refine tripleLoop_rel hP (fun le a c q b b' hb => ?_) hb
  simp only [hs0]
  rel
  exact forceTerm_rel hS ‹_› ‹_› ‹_› ‹_› ‹_› ‹_› ‹_› ‹_› hd

theorem phi1Adj_rel (hS : Sound A V D) (hP : RParams A V D E X P P') (hg : RGraph V D E X g g') (hs : RState V s s')
    {i ij : ℕ} {dr b : ι → List K} {dr' b' : List F} (hdr : RL V dr dr') (hb : RL V b b') :
    RO l (RL V) (fun n => phi1Adj (A := A n) (P n) (g n) (s n) (dr n) i ij (b n)) (MACE.phi1Adj P' g' s' dr' i ij b') := by
  unfold phi1Adj MACE.phi1Adj
  simp only [hP.M, hP.LM, hP.C, hP.numLelm, hg.idx]
  have h1 := hs.Y
  have h2 := hs.R1
  refine RO.bind (hP.splSet1.get _) fun s0 s0' hs0 => RO.bindConst fun v => tripleLoop_rel hP (fun le a c q b b' hb => ?_) hb
  simp only [hs0]
  rel

theorem reversePhi1_rel (hS : Sound A V D) (hP : RParams A V D E X P P') (hg : RGraph V D E X g g') (hs : RState V s s') (z z1 : Bool) :
    RO l (RState V) (fun n => reversePhi1 (A := A n) (P n) (g n) z z1 (s n)) (MACE.reversePhi1 P' g' z z1 s') := by
  unfold reversePhi1 MACE.reversePhi1
  simp only [hP.C, hP.numLelm, hP.numLme, hP.philme, hP.philelm, hg.N, hg.nn, hg.xyz.length, hs.Phi1r.length, hs.H1.length]
  refine RO.bind (cgPass_rel hS hP.cg hs.dPhi1 (RL.zeros hS _)) fun dr dr' hdr => ?_
  refine RO.bind (R := RP RE (RL V)) (RO.loop (fun i q q' hq => ?_) (RP.mk rfl (RL.zeroIf hS (hs.nodeForces.resize hS _) z))) fun q q' hq => ?_
  · obtain ⟨q, rfl, hq2⟩ := hq.counter
    exact RO.bindConst fun k => (RO.edgesFrom (R := RL V) (fun j _ b b' hb => phi1Force_rel hS hP hg hs hdr hb) hq2).mono fun _ _ _ h => h.2
  · refine RO.bind (R := RP RE (RL V)) (RO.loop (fun i q q' hq => ?_) (RP.mk rfl (RL.zeroIf hS (hs.H1a.resize hS _) z1))) fun h h' hh =>
      RO.pure { hs with dPhi1r := hdr, nodeForces := hq.snd, H1a := hh.snd }
    obtain ⟨q, rfl, hq2⟩ := hq.counter
    exact RO.bindConst fun k => (RO.edgesFrom (R := RL V) (fun j _ b b' hb => phi1Adj_rel hS hP hg hs hdr hb) hq2).mono fun _ _ _ h => h.2

theorem numE_eq (hP : RParams A V D E X P P') (n : ι) : numE (P n) = MACE.numE P' := by
  unfold numE MACE.numE
  simp only [hP.phil, hP.lmax]

/-- Two running offsets and a buffer. -/
abbrev RQ (V : (ι → K) → F → Prop) : (ι → ℕ × ℕ × List K) → ℕ × ℕ × List F → Prop := RP RE (RP RE (RL V))

theorem computeA1_rel (hS : Sound A V D) (hP : RParams A V D E X P P') (hg : RGraph V D E X g g') (hs : RState V s s') :
    RO l (RState V) (fun n => computeA1 (A := A n) (P n) (g n) (s n)) (MACE.computeA1 P' g' s') := by
  unfold computeA1 MACE.computeA1
  simp only [numE_eq hP, hP.M, hP.C, hP.lmax, hP.phil, hg.N]
  refine RO.bindConst fun ne => RO.bind (R := RL V) (RO.loop (fun i b b' hb => ?_) (hs.A1.resize hS _)) fun q q' hq => RO.pure { hs with A1 := hq }
  refine RO.bind (R := RQ V) (RO.loop (fun j q q' hq => ?_) (RP.mk rfl (RP.mk rfl hb))) fun q q' hq => RO.pure hq.snd.snd
  obtain ⟨q, rfl, h1⟩ := hq.counter
  obtain ⟨q, rfl, h2⟩ := h1.counter
  refine RO.bindConst fun e => RO.bind (hP.A1w.get _) fun w w' hw => RO.bind (gemm_rel hS hs.Phi1 hw h2) fun b b' hb => ?_
  exact RO.pure (RP.mk rfl (RP.mk rfl hb))

theorem reverseA1_rel (hS : Sound A V D) (hP : RParams A V D E X P P') (hg : RGraph V D E X g g') (hs : RState V s s') :
    RO l (RState V) (fun n => reverseA1 (A := A n) (P n) (g n) (s n)) (MACE.reverseA1 P' g' s') := by
  unfold reverseA1 MACE.reverseA1
  simp only [numE_eq hP, hP.M, hP.C, hP.lmax, hP.phil, hg.N, hs.Phi1.length]
  refine RO.bindConst fun ne => RO.bind (R := RL V) (RO.loop (fun i b b' hb => ?_) (hs.dPhi1.resize hS _)) fun q q' hq =>
    RO.pure { hs with dPhi1 := hq }
  refine RO.bind (R := RQ V) (RO.loop (fun j q q' hq => ?_) (RP.mk rfl (RP.mk rfl hb))) fun q q' hq => RO.pure hq.snd.snd
  obtain ⟨q, rfl, h1⟩ := hq.counter
  obtain ⟨q, rfl, h2⟩ := h1.counter
  refine RO.bindConst fun e => RO.bind (hP.A1w.get _) fun w w' hw => RO.bind (gemm_rel hS hs.A1a hw h2) fun b b' hb => ?_
  exact RO.pure (RP.mk rfl (RP.mk rfl hb))

theorem computeM1_rel (hS : Sound A V D) (hP : RParams A V D E X P P') (hg : RGraph V D E X g g') (hs : RState V s s') :
    RO l (RState V) (fun n => computeM1 (A := A n) (P n) (g n) (s n)) (MACE.computeM1 P' g' s') := by
  unfold computeM1 MACE.computeM1
  simp only [hP.M, hP.C, hg.N, hg.types]
  refine RO.bind (R := RP (RL V) (RP (RL V) (RL (RPoly V)))) (RO.loop (fun i st st' hst => ?_)
    (RP.mk (hs.M1.resize hS _) (RP.mk (hs.M1g.resize hS _) hs.P1))) fun q q' hq =>
      RO.pure { hs with M1 := hq.fst, M1g := hq.snd.fst, P1 := hq.snd.snd }
  refine RO.bind (R := RP (RL V) (RP (RL V) (RP (RL V) (RL (RPoly V))))) (RO.loop (fun k q q' hq => ?_)
    (RP.mk (RL.zeros hS _) hst)) fun q q' hq => RO.pure hq.snd
  exact RO.bindConst fun ti => productStep_rel hS hP hs.A1 hq

theorem reverseM1_rel (hS : Sound A V D) (hP : RParams A V D E X P P') (hg : RGraph V D E X g g') (hs : RState V s s') :
    RO l (RState V) (fun n => reverseM1 (A := A n) (P n) (g n) (s n)) (MACE.reverseM1 P' g' s') := by
  unfold reverseM1 MACE.reverseM1
  simp only [hP.M, hP.C, hg.N, hs.A1.length]
  have h1 := hs.M1g
  have h2 := hs.M1a
  have h3 := hs.A1a
  refine RO.bind (R := RL V) ?_ fun q q' hq => RO.pure { hs with A1a := hq }
  rel

theorem computeH2_rel (hS : Sound A V D) (hP : RParams A V D E X P P') (hg : RGraph V D E X g g') (hs : RState V s s') :
    RO l (RState V) (fun n => computeH2 (A := A n) (P n) (g n) (s n)) (MACE.computeH2 P' g' s') := by
  unfold computeH2 MACE.computeH2
  simp only [hP.LM, hP.C, hg.N, hg.types]
  refine RO.bind (R := RL V) (RO.loop (fun i b b' hb => ?_) (hs.H2.resize hS _)) fun q q' hq => RO.pure { hs with H2 := hq }
  refine RO.bindConst fun ti => RO.bind (hP.H2wH1.get _) fun w w' hw => RO.bind (gemv_rel hS hw hs.H1 hb) fun b b' hb => ?_
  exact gemvAcc_rel hS hP.H2wM1 hs.M1 hb

theorem reverseH2_rel (hS : Sound A V D) (hP : RParams A V D E X P P') (hg : RGraph V D E X g g') (hs : RState V s s') (z : Bool) :
    RO l (RState V) (fun n => reverseH2 (A := A n) (P n) (g n) z (s n)) (MACE.reverseH2 P' g' z s') := by
  unfold reverseH2 MACE.reverseH2
  simp only [hP.LM, hP.C, hg.N, hg.types, hs.H1.length, hs.M1.length]
  refine RO.bind (R := RP (RL V) (RL V)) (RO.loop (fun i q q' hq => ?_)
    (RP.mk (RL.zeroIf hS (hs.H1a.resize hS _) z) (hs.M1a.resize hS _))) fun q q' hq => RO.pure { hs with H1a := hq.fst, M1a := hq.snd }
  refine RO.bindConst fun ti => RO.bind (hP.H2wH1.get _) fun w w' hw => RO.bind (gemvAcc_rel hS hw hs.H2a hq.fst) fun a a' ha => ?_
  exact RO.bind (gemv_rel hS hP.H2wM1 hs.H2a hq.snd) fun b b' hb => RO.pure (RP.mk ha hb)

/-! ## Readouts -/

theorem computeReadouts_rel (hS : Sound A V D) (hP : RParams A V D E X P P') (hg : RGraph V D E X g g') (hs : RState V s s') :
    RO l (RState V) (fun n => computeReadouts (A := A n) (P n) (g n) (s n)) (MACE.computeReadouts P' g' s') := by
  unfold computeReadouts MACE.computeReadouts
  simp only [hP.LM, hP.C, hg.N, hg.types, hs.H1.length, hs.H2.length]
  refine RO.bind (R := RP (RL V) (RP (RL V) (RP (RL V) (RMLP V)))) (RO.loop (fun i q q' hq => ?_)
    (RP.mk (hs.nodeEnergies.resize hS _) (RP.mk (RL.zeros hS _) (RP.mk (hs.H2a.resize hS _) hs.ro2)))) fun q q' hq =>
      RO.pure { hs with nodeEnergies := hq.fst, H1a := hq.snd.fst, H2a := hq.snd.snd.fst, ro2 := hq.snd.snd.snd }
  refine RO.bindConst fun ti => RO.bind (hP.atomicEnergies.get _) fun e e' he => RO.bind (RL.ad hS hq.fst he _) fun b b' hb => ?_
  refine RO.bind (R := RP (RL V) (RL V)) (RO.loop (fun k p p' hp => ?_) (RP.mk hb hq.snd.fst)) fun p p' hp => ?_
  · refine RO.bind (hP.ro1.get _) fun w w' hw => RO.bind (hs.H1.get _) fun h h' hh => ?_
    exact RO.bind (RL.ad hS hp.fst (hS.mul' hw hh) _) fun b b' hb => RO.bind (hp.snd.wr hw _) fun c c' hc => RO.pure (RP.mk hb hc)
  · refine RO.bind (R := RL V) (RO.ite (RO.some ((hs.H2.drop _).take _)) RO.none) fun x x' hx => ?_
    refine RO.bind (mlpGradient_rel hS hP.ex hq.snd.snd.snd hx) fun f f' hf => RO.bind (hf.fst.get _) fun y y' hy => ?_
    refine RO.bind (RL.ad hS hp.fst hy _) fun b b' hb => ?_
    have h1 := hf.snd.fst
    refine RO.bind (R := RL V) (RO.loop (fun k b b' hb => ?_) hq.snd.snd.fst) fun c c' hc => RO.pure (RP.mk hb (RP.mk hp.snd (RP.mk hc hf.snd.snd)))
    rel

end Verif.Num
