import Verif.Lemmas.Num.Stages3

/-!
# Families of runs: ZBL and the whole evaluation
-/

namespace Verif.Num
open Filter

variable {ι : Type} {l : Filter ι} {K : Type} {A : ι → Arith K} {V : (ι → K) → ℝ → Prop} {D : ℝ → Prop}
  {E : ℕ} {X : ℕ → ℕ → ℝ} {g : ι → MACE.Graph K} {g' : MACE.Graph ℝ} {P : ι → MACE.Params K} {P' : MACE.Params ℝ}
  {s : ι → MACE.State K} {s' : MACE.State ℝ}

/-- The pair repulsion agrees on the edges. -/
structure REvalZbl (l : Filter ι) (A : ι → Arith K) (V : (ι → K) → ℝ → Prop) (g : ι → MACE.Graph K) (g' : MACE.Graph ℝ) (an : List ℕ)
    (z : ι → ZBL K) (z' : ZBLModel.ZBL) : Prop where
  val : ∀ ti ij tj, EdgeOf g' ti ij tj → ∀ Zi Zj, an[ti]? = some Zi → an[tj]? = some Zj → ∀ (r : ι → K) (r' : ℝ),
    (∀ n, (g n).r[ij]? = some (r n)) → g'.r[ij]? = some r' →
    RO l V (fun n => zblCompute (A := A n) (z n) Zi Zj (r n)) (z'.compute Zi Zj r')
  der : ∀ ti ij tj, EdgeOf g' ti ij tj → ∀ Zi Zj, an[ti]? = some Zi → an[tj]? = some Zj → ∀ (r : ι → K) (r' : ℝ),
    (∀ n, (g n).r[ij]? = some (r n)) → g'.r[ij]? = some r' →
    RO l V (fun n => zblGradient (A := A n) (z n) Zi Zj (r n)) (z'.computeGradient Zi Zj r')

theorem zblAll_rel (hS : Sound A V D) (hg : RGraph V D E X g g') {an : List ℕ} {z : ι → ZBL K} {z' : ZBLModel.ZBL}
    (hz : REvalZbl l A V g g' an z z') {st : ι → Bufs Bool K} {st' : Bufs Bool ℝ} (hst : RB V st st') :
    RO l (RB V) (fun n => zblAll (A := A n) (z n) (g n).N (g n).types (g n).nn (g n).ntypes an (g n).r (g n).xyz (st n))
      (z'.computeZBL g'.N g'.types g'.nn g'.ntypes an g'.r g'.xyz st') := by
  unfold zblAll ZBLModel.ZBL.computeZBL
  simp only [hg.N, hg.types, hg.nn, hg.ntypes]
  rw [Option.map_eq_bind]
  refine RO.bind (RO.loop' (fun i => RC g'.nn i (RB V)) (RC.zero hst) (fun i hi q q' hq => ?_)) fun q q' hq => RO.pure hq.2.snd
  obtain ⟨a, b, rfl, rfl, hab⟩ := hq.elim
  refine RO.bindConst' fun ti hti => RO.bindConst' fun Zi hZi => RO.bindConst' fun k hk => ?_
  refine (RO.edgesFrom (R := RB V) (fun j hj st st' hst => ?_) hab).mono fun _ _ _ h => RC.next hk h
  unfold zblEdge ZBLModel.ZBL.edgeBody
  refine RO.bindConst' fun tj htj => RO.bindConst' fun Zj hZj => RO.bindGet hg.r fun r r' h3 h4 hr => ?_
  have he : EdgeOf g' ti (off g'.nn i + j) tj := ⟨i, hi, k, hti, hk, by omega, by omega, htj⟩
  have hd := hg.pos _ _ h4
  refine RO.bind (hz.val ti _ tj he Zi Zj hZi hZj r r' h3 h4) fun f f' hf => ?_
  refine RO.bind (RO.modAt hst fun x x' hx => hS.add' hx hf) fun st st' hst => ?_
  refine RO.bind (hz.der ti _ tj he Zi Zj hZi hZj r r' h3 h4) fun d d' hd' => ?_
  refine RO.bind (hg.xyz.get _) fun x x' hx => RO.bind (RO.modAt hst fun w w' hw => ?_) fun st st' hst => ?_
  · rel
  refine RO.bind (hg.xyz.get _) fun y y' hy => RO.bind (RO.modAt hst fun w w' hw => ?_) fun st st' hst => ?_
  · rel
  refine RO.bind (hg.xyz.get _) fun z z' hz => RO.modAt hst fun w w' hw => ?_
  rel

/-- The evaluations of tables agree on the edges. -/
structure REvals (l : Filter ι) (A : ι → Arith K) (V : (ι → K) → ℝ → Prop) (D : ℝ → Prop) (g : ι → MACE.Graph K) (g' : MACE.Graph ℝ)
    (P : ι → MACE.Params K) (P' : MACE.Params ℝ) : Prop where
  R0 : REvalSet l A V P'.atomicNumbers.length g g' (fun n => (P n).splSet0) P'.splSet0
  R1 : REvalSet l A V P'.atomicNumbers.length g g' (fun n => (P n).splSet1) P'.splSet1
  A0l : RL (fun _ _ => True) (fun n => (P n).A0splines) P'.A0splines
  A0v : P'.A0scaled = true → REvalVal l A V P'.atomicNumbers.length g g' (fun n => (P n).A0splines) P'.A0splines
  A0d : P'.A0scaled = true → REvalDer l A V P'.atomicNumbers.length g g' (fun n => (P n).A0splines) P'.A0splines
  A0n : P'.A0scaled = true → RDen D P'.atomicNumbers.length g' P'.A0splines
  A1l : RL (fun _ _ => True) (fun n => (P n).A1splines) P'.A1splines
  A1v : P'.A1scaled = true → REvalVal l A V P'.atomicNumbers.length g g' (fun n => (P n).A1splines) P'.A1splines
  A1d : P'.A1scaled = true → REvalDer l A V P'.atomicNumbers.length g g' (fun n => (P n).A1splines) P'.A1splines
  A1n : P'.A1scaled = true → RDen D P'.atomicNumbers.length g' P'.A1splines

theorem pipeline_rel (hS : Sound A V D) (hP : RParams A V D E X P P') (hg : RGraph V D E X g g') (hs : RState V s s')
    (h : REvals l A V D g g' P P') :
    RO l (RState V) (fun n => pipeline (A := A n) (P n) (g n) (s n)) (MACE.pipeline P' g' s') := by
  unfold pipeline MACE.pipeline
  refine RO.bind (computeY_rel hS hP hg hs) fun s s' hs => RO.bind (computeR0_rel hS hP hg h.R0 hs) fun s s' hs => ?_
  refine RO.bind (computeA0_rel hS hP hg hs) fun s s' hs => RO.bind (computeA0Scaled_rel hS hP hg hs h.A0l h.A0v h.A0n) fun s s' hs => ?_
  refine RO.bind (computeM0_rel hS hP hg hs) fun s s' hs => RO.bind (computeH1_rel hS hP hg hs) fun s s' hs => ?_
  refine RO.bind (computeR1_rel hS hP hg h.R1 hs) fun s s' hs => RO.bind (computePhi1_rel hS hP hg hs) fun s s' hs => ?_
  refine RO.bind (computeA1_rel hS hP hg hs) fun s s' hs => RO.bind (computeA1Scaled_rel hS hP hg hs h.A1l h.A1v h.A1n) fun s s' hs => ?_
  refine RO.bind (computeM1_rel hS hP hg hs) fun s s' hs => RO.bind (computeH2_rel hS hP hg hs) fun s s' hs => ?_
  refine RO.bind (computeReadouts_rel hS hP hg hs) fun s s' hs => RO.bind (reverseH2_rel hS hP hg hs _) fun s s' hs => ?_
  refine RO.bind (reverseM1_rel hS hP hg hs) fun s s' hs => RO.bind (reverseA1Scaled_rel hS hP hg hs h.A1l h.A1v h.A1d h.A1n _) fun s s' hs => ?_
  refine RO.bind (reverseA1_rel hS hP hg hs) fun s s' hs => RO.bind (reversePhi1_rel hS hP hg hs _ _) fun s s' hs => ?_
  refine RO.bind (reverseH1_rel hS hP hg hs) fun s s' hs => RO.bind (reverseM0_rel hS hP hg hs) fun s s' hs => ?_
  exact RO.bind (reverseA0Scaled_rel hS hP hg hs h.A0l h.A0v h.A0d h.A0n) fun s s' hs => reverseA0_rel hS hP hg hs

theorem compute_rel (hS : Sound A V D) (hP : RParams A V D E X P P') (hg : RGraph V D E X g g') (hs : RState V s s')
    (h : REvals l A V D g g' P P') {zbl : ι → Option (ZBL K)} {zbl' : Option ZBLModel.ZBL}
    (hz : (∀ n, zbl n = none) ∧ zbl' = none ∨ ∃ z z', (∀ n, zbl n = some (z n)) ∧ zbl' = some z' ∧ REvalZbl l A V g g' P'.atomicNumbers z z') :
    RO l (RState V) (fun n => compute (A := A n) (zbl n) (P n) (g n) (s n)) (MACE.computeNodeEnergiesForces zbl' P' g' s') := by
  unfold compute MACE.computeNodeEnergiesForces
  simp only [hP.atomicNumbers]
  have h0 : RB V (fun n => letI := A n; fun b : Bool => if b then List.replicate (g n).xyz.length (0 : K) else List.replicate (g n).N (0 : K))
      (fun b => if b then List.replicate g'.xyz.length 0 else List.replicate g'.N 0) := by
    intro b
    cases b
    · simp only [hg.N]; exact RL.zeros hS _
    · simp only [hg.xyz.length]; exact RL.zeros hS _
  rcases hz with ⟨hz, rfl⟩ | ⟨z, z', hz, rfl, hzz⟩
  · simp only [hz]
    refine RO.bind (R := RB V) (RO.some h0) fun st st' hst => ?_
    exact pipeline_rel hS hP hg { hs with nodeEnergies := hst false, nodeForces := hst true } h
  · simp only [hz]
    refine RO.bind (R := RB V) (zblAll_rel hS hg hzz h0) fun st st' hst => ?_
    exact pipeline_rel hS hP hg { hs with nodeEnergies := hst false, nodeForces := hst true } h

end Verif.Num
