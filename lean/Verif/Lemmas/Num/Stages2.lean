import Verif.Lemmas.Num.Stages

/-!
# Families of runs: the stages of the evaluator, continued
-/

namespace Verif.Num
open Filter

variable {ι : Type} {l : Filter ι} {K F : Type} [Field F] {A : ι → Arith K} {V : (ι → K) → F → Prop} {D : F → Prop}
  {E : ℕ} {X : ℕ → ℕ → F} {g : ι → MACE.Graph K} {g' : MACE.Graph F} {P : ι → MACE.Params K} {P' : MACE.Params F}
  {s : ι → MACE.State K} {s' : MACE.State F}

/-! ## First layer -/

theorem phi0Edge_rel (hS : Sound A V D) (hP : RParams A V D E X P P') (hg : RGraph V D E X g g') {Y R0 phi : ι → List K} {Y' R0' phi' : List F}
    (hY : RL V Y Y') (hR : RL V R0 R0') {ij : ℕ} (hphi : RL V phi phi') :
    RO l (RL V) (fun n => phi0Edge (A := A n) (P n) (g n) (Y n) (R0 n) ij (phi n)) (MACE.phi0Edge P' g' Y' R0' ij phi') := by
  unfold phi0Edge MACE.phi0Edge
  simp only [hP.M, hP.C, hP.lmax, hg.ntypes]
  have h0 := hP.H0w
  rel

theorem computeA0_rel (hS : Sound A V D) (hP : RParams A V D E X P P') (hg : RGraph V D E X g g') (hs : RState V s s') :
    RO l (RState V) (fun n => computeA0 (A := A n) (P n) (g n) (s n)) (MACE.computeA0 P' g' s') := by
  unfold computeA0 MACE.computeA0
  simp only [hP.M, hP.C, hP.lmax, hg.N, hg.nn, hg.types]
  refine RO.bind (RO.loop (R := RP RE (RL V)) (fun i q q' hq => ?_) (RP.mk rfl (hs.A0.resize hS _))) fun q q' hq =>
    RO.pure { hs with A0 := hq.snd }
  obtain ⟨a, rfl, ha⟩ := hq.counter
  refine RO.bindConst fun k => RO.bind (RO.edgesFrom (R := RL V) (fun j _ b b' hb => phi0Edge_rel hS hP hg hs.Y hs.R0 hb) (RL.zeros hS _))
    fun e e' he => ?_
  obtain ⟨e1, he1, he2⟩ := he.2.counter
  subst he1
  refine RO.bind (RO.loop (R := RL V) (fun k b b' hb => ?_) ha) fun b b' hb => RO.pure (RP.mk rfl hb)
  refine RO.bindConst fun ti => RO.bind (hP.A0w.get _) fun W W' hW => RO.bind (hW.get _) fun w w' hw => ?_
  exact gemm_rel hS he2 hw hb

theorem forceTerm_rel (hS : Sound A V D) {a x r Rd y h R yg : ι → K} {a' x' r' Rd' y' h' R' yg' : F} (h1 : V a a') (h2 : V x x') (h3 : V r r')
    (h4 : V Rd Rd') (h5 : V y y') (h6 : V h h') (h7 : V R R') (h8 : V yg yg') (hd : D r') :
    V (fun n => forceTerm (A := A n) (a n) (x n) (r n) (Rd n) (y n) (h n) (R n) (yg n)) (MACE.forceTerm a' x' r' Rd' y' h' R' yg') := by
  unfold forceTerm MACE.forceTerm
  rel

theorem phi0Force_rel (hS : Sound A V D) (hP : RParams A V D E X P P') (hg : RGraph V D E X g g') (hs : RState V s s')
    {adj G : ι → List K} {adj' G' : List F} (ha : RL V adj adj') {ij : ℕ} (hG : RL V G G') :
    RO l (RL V) (fun n => phi0Force (A := A n) (P n) (g n) (s n) (adj n) ij (G n)) (MACE.phi0Force P' g' s' adj' ij G') := by
  unfold phi0Force MACE.phi0Force
  simp only [hP.M, hP.C, hP.lmax, hg.ntypes]
  have h0 := hP.H0w
  have h1 := hs.Y
  have h2 := hs.Yg
  have h3 := hs.R0
  have h4 := hs.R0d
  have h5 := hg.xyz
  refine RO.bindConst fun tj => RO.bindGet hg.r fun r r' _ hr' hr => ?_
  have hd := hg.pos _ _ hr'
  rel
  exact forceTerm_rel hS ‹_› ‹_› ‹_› ‹_› ‹_› ‹_› ‹_› ‹_› hd

theorem reverseA0_rel (hS : Sound A V D) (hP : RParams A V D E X P P') (hg : RGraph V D E X g g') (hs : RState V s s') :
    RO l (RState V) (fun n => reverseA0 (A := A n) (P n) (g n) (s n)) (MACE.reverseA0 P' g' s') := by
  unfold reverseA0 MACE.reverseA0
  simp only [hP.M, hP.C, hP.lmax, hg.N, hg.nn, hg.types]
  refine RO.bind (RO.loop (R := RP RE (RL V)) (fun i q q' hq => ?_) (RP.mk rfl hs.nodeForces)) fun q q' hq =>
    RO.pure { hs with nodeForces := hq.snd }
  obtain ⟨a, rfl, ha⟩ := hq.counter
  refine RO.bind (RO.loop (R := RL V) (fun k b b' hb => ?_) (RL.zeros hS _)) fun adj adj' hadj => RO.bindConst fun k => ?_
  · refine RO.bindConst fun ti => RO.bind (hP.A0w.get _) fun W W' hW => RO.bind (hW.get _) fun w w' hw => ?_
    exact gemm_rel hS hs.A0a hw hb
  · exact (RO.edgesFrom (R := RL V) (fun j _ b b' hb => phi0Force_rel hS hP hg hs hadj hb) ha).mono fun _ _ _ h => h.2

theorem RL.zeroIf (hS : Sound A V D) {b : ι → List K} {b' : List F} (hb : RL V b b') (z : Bool) :
    RL V (fun n => letI := A n; if z then List.replicate (b n).length (0 : K) else b n) (if z then List.replicate b'.length 0 else b') := by
  cases z
  · exact hb
  · simp only [hb.length]; exact RL.zeros hS _

/-! ## Rescaling -/

section scale
variable [LinearOrder F] [IsStrictOrderedRing F] [FloorRing F]

/-- The values of the splines agree on the edges. -/
def REvalVal (l : Filter ι) (A : ι → Arith K) (V : (ι → K) → F → Prop) (nE : ℕ) (g : ι → MACE.Graph K) (g' : MACE.Graph F)
    (spl : ι → List (Spline.CubicSpline K)) (spl' : List (Spline.CubicSpline F)) : Prop :=
  ∀ ti ij tj, EdgeOf g' ti ij tj → ∀ (s : ι → Spline.CubicSpline K) (s' : Spline.CubicSpline F) (r : ι → K) (r' : F),
    (∀ n, (spl n)[MACE.pairIndex nE ti tj]? = some (s n)) → spl'[MACE.pairIndex nE ti tj]? = some s' →
    (∀ n, (g n).r[ij]? = some (r n)) → g'.r[ij]? = some r' →
    RO l V (fun n => MACE.ofOut (splineValue (A := A n) (s n) (r n))) (MACE.ofOut (s'.evaluate r'))

/-- The derivatives of the splines agree on the edges. -/
def REvalDer (l : Filter ι) (A : ι → Arith K) (V : (ι → K) → F → Prop) (nE : ℕ) (g : ι → MACE.Graph K) (g' : MACE.Graph F)
    (spl : ι → List (Spline.CubicSpline K)) (spl' : List (Spline.CubicSpline F)) : Prop :=
  ∀ ti ij tj, EdgeOf g' ti ij tj → ∀ (s : ι → Spline.CubicSpline K) (s' : Spline.CubicSpline F) (r : ι → K) (r' : F),
    (∀ n, (spl n)[MACE.pairIndex nE ti tj]? = some (s n)) → spl'[MACE.pairIndex nE ti tj]? = some s' →
    (∀ n, (g n).r[ij]? = some (r n)) → g'.r[ij]? = some r' →
    RO l (RP V V) (fun n => MACE.ofOut (splineDeriv (A := A n) (s n) (r n))) (MACE.ofOut (s'.evaluateDeriv r'))

/-- The scale factors may be divided by. -/
def RDen (D : F → Prop) (nE : ℕ) (g' : MACE.Graph F) (spl' : List (Spline.CubicSpline F)) : Prop :=
  ∀ i < g'.N, ∀ ti k f, g'.types[i]? = some ti → g'.nn[i]? = some k → MACE.scaleFactor nE spl' g' ti k (off g'.nn i) = some f → D f.2

variable {nE : ℕ} {spl : ι → List (Spline.CubicSpline K)} {spl' : List (Spline.CubicSpline F)}

theorem scaleFactor_rel (hS : Sound A V D) (hg : RGraph V D E X g g') (hl : RL (fun _ _ => True) spl spl')
    (he : REvalVal l A V nE g g' spl spl') {i ti k : ℕ} (hi : i < g'.N) (hti : g'.types[i]? = some ti) (hk : g'.nn[i]? = some k) :
    RO l (fun q q' => q'.1 = off g'.nn i + k ∧ RP RE V q q') (fun n => scaleFactor (A := A n) nE (spl n) (g n) ti k (off g'.nn i))
      (MACE.scaleFactor nE spl' g' ti k (off g'.nn i)) := by
  unfold scaleFactor MACE.scaleFactor
  simp only [hg.ntypes]
  refine RO.edgesFrom (R := V) (fun j hj a a' ha => ?_) hS.one'
  refine RO.bindConst' fun tj htj => RO.bindGet hl fun s s' h1 h2 _ => RO.bindGet hg.r fun r r' h3 h4 _ => ?_
  exact RO.bind (he ti _ tj ⟨i, hi, k, hti, hk, by omega, by omega, htj⟩ s s' r r' h1 h2 h3 h4) fun v v' hv => RO.pure (hS.add' ha hv)

theorem scaleForward_rel (hS : Sound A V D) (hg : RGraph V D E X g g') (hl : RL (fun _ _ => True) spl spl')
    (he : REvalVal l A V nE g g' spl spl') (hd : RDen D nE g' spl') {len : ℕ} {b : ι → List K} {b' : List F} (hb : RL V b b') :
    RO l (RL V) (fun n => scaleForward (A := A n) nE (spl n) len (g n) (b n)) (MACE.scaleForward nE spl' len g' b') := by
  unfold scaleForward MACE.scaleForward
  simp only [hg.N, hg.types, hg.nn]
  refine RO.bind (RO.loop' (fun i => RC g'.nn i (RL V)) (RC.zero hb) (fun i hi q q' hq => ?_)) fun q q' hq => RO.pure hq.2.snd
  obtain ⟨a, b, rfl, rfl, hab⟩ := hq.elim
  refine RO.bindConst' fun ti hti => RO.bindConst' fun k hk => ?_
  refine RO.bind' (scaleFactor_rel hS hg hl he hi hti hk) fun f f' ef hf => ?_
  have hD := hd i hi ti k f' hti hk ef
  obtain ⟨f, rfl, hf2⟩ := hf.2.counter
  refine RO.bind (R := RL V) (RO.loop (fun p b b' hb => ?_) hab) fun b b' hb => RO.pure (RC.next hk ⟨hf.1, RP.mk rfl hb⟩)
  rel

theorem sumO_rel (hS : Sound A V D) {k : ℕ} {f : ι → ℕ → Option K} {f' : ℕ → Option F} (hf : ∀ i, RO l V (fun n => f n i) (f' i)) :
    RO l V (fun n => letI := A n; sumO k (f n)) (sumO k f') := by
  induction k with
  | zero => exact RO.some hS.zero'
  | succ k ih => exact RO.bind ih fun a a' ha => RO.bind (hf k) fun b b' hb => RO.pure (hS.add' ha hb)

theorem scaleReverse_rel (hS : Sound A V D) (hg : RGraph V D E X g g') (hl : RL (fun _ _ => True) spl spl')
    (he : REvalVal l A V nE g g' spl spl') (hed : REvalDer l A V nE g g' spl spl') (hd : RDen D nE g' spl') {len : ℕ} {a : ι → List K}
    {a' : List F} (ha : RL V a a') {b : ι → List K × List K} {b' : List F × List F} (hb : RP (RL V) (RL V) b b') :
    RO l (RP (RL V) (RL V)) (fun n => scaleReverse (A := A n) nE (spl n) len (g n) (a n) (b n)) (MACE.scaleReverse nE spl' len g' a' b') := by
  unfold scaleReverse MACE.scaleReverse
  simp only [hg.N, hg.types, hg.nn, hg.ntypes]
  refine RO.bind (RO.loop' (fun i => RC g'.nn i (RP (RL V) (RL V))) (RC.zero hb) (fun i hi q q' hq => ?_)) fun q q' hq => RO.pure hq.2.snd
  obtain ⟨c, c', rfl, rfl, hc⟩ := hq.elim
  have hc2 := hc.snd
  refine RO.bindConst' fun ti hti => RO.bindConst' fun k hk => ?_
  refine RO.bind' (scaleFactor_rel hS hg hl he hi hti hk) fun f f' ef hf => ?_
  have hD := hd i hi ti k f' hti hk ef
  obtain ⟨f, rfl, hf2⟩ := hf.2.counter
  refine RO.bind (sumO_rel hS fun p => ?_) fun dot dot' hdot => ?_
  · rel
  simp only [hf.1, Nat.add_sub_cancel]
  refine RO.bind (RO.edgesFrom (R := RL V) (fun j hj F F' hF => ?_) hc.fst) fun e e' he' => ?_
  · refine RO.bindConst' fun tj htj => RO.bindGet hl fun s s' h1 h2 _ => RO.bindGet hg.r fun r r' h3 h4 hr => ?_
    refine RO.bind (hed ti _ tj ⟨i, hi, k, hti, hk, by omega, by omega, htj⟩ s s' r r' h1 h2 h3 h4) fun v v' hv => ?_
    have hv2 := hv.snd
    have hr2 := hg.pos _ _ h4
    have hx := hg.xyz
    rel
  · obtain ⟨e, rfl, he2⟩ := he'.2.counter
    refine RO.bind (R := RL V) (RO.loop (fun p b b' hb => ?_) hc2) fun b b' hb => RO.pure (RC.next hk ⟨he'.1, RP.mk rfl (RP.mk he2 hb)⟩)
    rel

theorem computeA0Scaled_rel (hS : Sound A V D) (hP : RParams A V D E X P P') (hg : RGraph V D E X g g') (hs : RState V s s')
    (hl : RL (fun _ _ => True) (fun n => (P n).A0splines) P'.A0splines)
    (he : P'.A0scaled = true → REvalVal l A V P'.atomicNumbers.length g g' (fun n => (P n).A0splines) P'.A0splines)
    (hd : P'.A0scaled = true → RDen D P'.atomicNumbers.length g' P'.A0splines) :
    RO l (RState V) (fun n => computeA0Scaled (A := A n) (P n) (g n) (s n)) (MACE.computeA0Scaled P' g' s') := by
  unfold computeA0Scaled MACE.computeA0Scaled
  simp only [hP.A0scaled, hP.atomicNumbers, hP.M, hP.C]
  by_cases h : P'.A0scaled
  · simp only [if_pos h]
    exact RO.bind (scaleForward_rel hS hg hl (he h) (hd h) hs.A0) fun b b' hb => RO.pure { hs with A0 := hb }
  · simp only [if_neg h]; exact RO.some hs

theorem reverseA0Scaled_rel (hS : Sound A V D) (hP : RParams A V D E X P P') (hg : RGraph V D E X g g') (hs : RState V s s')
    (hl : RL (fun _ _ => True) (fun n => (P n).A0splines) P'.A0splines)
    (he : P'.A0scaled = true → REvalVal l A V P'.atomicNumbers.length g g' (fun n => (P n).A0splines) P'.A0splines)
    (hed : P'.A0scaled = true → REvalDer l A V P'.atomicNumbers.length g g' (fun n => (P n).A0splines) P'.A0splines)
    (hd : P'.A0scaled = true → RDen D P'.atomicNumbers.length g' P'.A0splines) :
    RO l (RState V) (fun n => reverseA0Scaled (A := A n) (P n) (g n) (s n)) (MACE.reverseA0Scaled P' g' s') := by
  unfold reverseA0Scaled MACE.reverseA0Scaled
  simp only [hP.A0scaled, hP.atomicNumbers, hP.M, hP.C]
  by_cases h : P'.A0scaled
  · simp only [if_pos h]
    exact RO.bind (scaleReverse_rel hS hg hl (he h) (hed h) (hd h) hs.A0 (RP.mk hs.nodeForces hs.A0a)) fun b b' hb =>
      RO.pure { hs with nodeForces := hb.fst, A0a := hb.snd }
  · simp only [if_neg h]; exact RO.some hs

theorem computeA1Scaled_rel (hS : Sound A V D) (hP : RParams A V D E X P P') (hg : RGraph V D E X g g') (hs : RState V s s')
    (hl : RL (fun _ _ => True) (fun n => (P n).A1splines) P'.A1splines)
    (he : P'.A1scaled = true → REvalVal l A V P'.atomicNumbers.length g g' (fun n => (P n).A1splines) P'.A1splines)
    (hd : P'.A1scaled = true → RDen D P'.atomicNumbers.length g' P'.A1splines) :
    RO l (RState V) (fun n => computeA1Scaled (A := A n) (P n) (g n) (s n)) (MACE.computeA1Scaled P' g' s') := by
  unfold computeA1Scaled MACE.computeA1Scaled
  simp only [hP.A1scaled, hP.atomicNumbers, hP.M, hP.C]
  by_cases h : P'.A1scaled
  · simp only [if_pos h]
    exact RO.bind (scaleForward_rel hS hg hl (he h) (hd h) hs.A1) fun b b' hb => RO.pure { hs with A1 := hb }
  · simp only [if_neg h]; exact RO.some hs

theorem reverseA1Scaled_rel (hS : Sound A V D) (hP : RParams A V D E X P P') (hg : RGraph V D E X g g') (hs : RState V s s')
    (hl : RL (fun _ _ => True) (fun n => (P n).A1splines) P'.A1splines)
    (he : P'.A1scaled = true → REvalVal l A V P'.atomicNumbers.length g g' (fun n => (P n).A1splines) P'.A1splines)
    (hed : P'.A1scaled = true → REvalDer l A V P'.atomicNumbers.length g g' (fun n => (P n).A1splines) P'.A1splines)
    (hd : P'.A1scaled = true → RDen D P'.atomicNumbers.length g' P'.A1splines) (z : Bool) :
    RO l (RState V) (fun n => reverseA1Scaled (A := A n) (P n) (g n) z (s n)) (MACE.reverseA1Scaled P' g' z s') := by
  unfold reverseA1Scaled MACE.reverseA1Scaled
  simp only [hP.A1scaled, hP.atomicNumbers, hP.M, hP.C, hg.xyz.length]
  by_cases h : P'.A1scaled
  · simp only [if_pos h]
    exact RO.bind (scaleReverse_rel hS hg hl (he h) (hed h) (hd h) hs.A1 (RP.mk (RL.zeroIf hS (hs.nodeForces.resize hS _) z) hs.A1a))
      fun b b' hb => RO.pure { hs with nodeForces := hb.fst, A1a := hb.snd }
  · simp only [if_neg h]; exact RO.some hs

end scale

end Verif.Num
