import Verif.Lemmas.MACE.A0
import Verif.Lemmas.MACE.H1
import Verif.Lemmas.MACE.H2
import Verif.Lemmas.MACE.Scaled
import Verif.Lemmas.MACE.Products
import Verif.Lemmas.MACE.Radial

/-! # The stages composed -/

namespace Verif.MACE
open Verif.Spec Verif.Blas Verif.Spline

section scaledStages
variable {K : Type} [Field K] [LinearOrder K] [IsStrictOrderedRing K] [FloorRing K]
  {P : Params K} {W : Net K} {g : Graph K} {nT nP NH : ℕ} {c : Conf K} {n : ℕ → ℕ} {X : ℕ → ℕ → K} {R : ℕ → K}

/-- Density normalisation `sc` with spline derivatives `dv`; `1` and `0` when switched off. -/
def ScOk (flag : Bool) (nE : ℕ) (spl : List (CubicSpline K)) (g : Graph K) (c : Conf K) (R : ℕ → K) (sc dv : ℕ → K) : Prop :=
  (flag = true ∧ ∃ v, SOk nE spl g c R v dv ∧ ∀ i < g.N, sc i = 1 + ∑ e ∈ edges g.nn i, v e) ∨
  (flag = false ∧ (∀ i < g.N, sc i = 1) ∧ ∀ e, dv e = 0)

theorem computeA0Scaled_spec (hw : WOk P W nT nP) (hg : GOk g nT NH c n X R) {sc dv : ℕ → K}
    (hs : ScOk P.A0scaled P.atomicNumbers.length P.A0splines g c R sc dv) {s : State K} {a : ℕ → ℕ → ℕ → K}
    (hA : s.A0 = T3 g.N W.M W.C a) :
    computeA0Scaled P g s = some { s with A0 := T3 g.N W.M W.C (fun i lm k => a i lm k / sc i) } := by
  unfold computeA0Scaled
  rcases hs with ⟨hf, v, h1, h2⟩ | ⟨hf, h1, -⟩
  · rw [if_pos hf, hw.M, hw.C, hA]
    exact (bind_of_some (scaleForward_spec hg h1 a h2) _).trans rfl
  · rw [if_neg (by simp [hf])]
    refine congrArg some ?_
    have : T3 g.N W.M W.C (fun i lm k => a i lm k / sc i) = s.A0 := by
      rw [hA]; exact T3_congr (fun i hi _ _ _ _ => by rw [h1 i hi, div_one])
    rw [this]

theorem computeA1Scaled_spec (hw : WOk P W nT nP) (hg : GOk g nT NH c n X R) {sc dv : ℕ → K}
    (hs : ScOk P.A1scaled P.atomicNumbers.length P.A1splines g c R sc dv) {s : State K} {a : ℕ → ℕ → ℕ → K}
    (hA : s.A1 = T3 g.N W.M W.C a) :
    computeA1Scaled P g s = some { s with A1 := T3 g.N W.M W.C (fun i lm k => a i lm k / sc i) } := by
  unfold computeA1Scaled
  rcases hs with ⟨hf, v, h1, h2⟩ | ⟨hf, h1, -⟩
  · rw [if_pos hf, hw.M, hw.C, hA]
    exact (bind_of_some (scaleForward_spec hg h1 a h2) _).trans rfl
  · rw [if_neg (by simp [hf])]
    refine congrArg some ?_
    have : T3 g.N W.M W.C (fun i lm k => a i lm k / sc i) = s.A1 := by
      rw [hA]; exact T3_congr (fun i hi _ _ _ _ => by rw [h1 i hi, div_one])
    rw [this]

theorem reverseA0Scaled_spec {d : DConf K} (hw : WOk P W nT nP) (hg : GOk g nT NH c n d.X d.R) {sc dv : ℕ → K}
    (hs : ScOk P.A0scaled P.atomicNumbers.length P.A0splines g c d.R sc dv) {s : State K} {A Aa : ℕ → ℕ → ℕ → K} {F : ℕ → ℕ → K}
    (hA : s.A0 = T3 g.N W.M W.C A) (hAa : s.A0a = T3 g.N W.M W.C Aa) (hF : s.nodeForces = tab2 g.Ex 3 F) :
    reverseA0Scaled P g s = some { s with
      nodeForces := tab2 g.Ex 3 (fun e a => F e a + onE g.nn g.N (forceS W.M W.C d sc dv A Aa) e a)
      A0a := T3 g.N W.M W.C (fun i lm k => Aa i lm k / sc i) } := by
  unfold reverseA0Scaled
  rcases hs with ⟨hf, v, h1, h2⟩ | ⟨hf, h1, h2⟩
  · rw [if_pos hf, hw.M, hw.C, hA, hAa, hF]
    exact (bind_of_some (scaleReverse_spec hg h1 A Aa h2 F) _).trans rfl
  · rw [if_neg (by simp [hf])]
    refine congrArg some ?_
    have e1 : T3 g.N W.M W.C (fun i lm k => Aa i lm k / sc i) = s.A0a := by
      rw [hAa]; exact T3_congr (fun i hi _ _ _ _ => by rw [h1 i hi, div_one])
    have e2 : tab2 g.Ex 3 (fun e a => F e a + onE g.nn g.N (forceS W.M W.C d sc dv A Aa) e a) = s.nodeForces := by
      rw [hF]; exact tab2_congr (fun e _ a _ => by simp [onE, forceS, h2])
    rw [e1, e2]

theorem reverseA1Scaled_spec {d : DConf K} (hw : WOk P W nT nP) (hg : GOk g nT NH c n d.X d.R) {sc dv : ℕ → K}
    (hs : ScOk P.A1scaled P.atomicNumbers.length P.A1splines g c d.R sc dv) {s : State K} {A Aa : ℕ → ℕ → ℕ → K} {F : ℕ → ℕ → K}
    (hA : s.A1 = T3 g.N W.M W.C A) (hAa : s.A1a = T3 g.N W.M W.C Aa) (hF : s.nodeForces = tab2 g.Ex 3 F) :
    reverseA1Scaled P g false s = some { s with
      nodeForces := tab2 g.Ex 3 (fun e a => F e a + onE g.nn g.N (forceS W.M W.C d sc dv A Aa) e a)
      A1a := T3 g.N W.M W.C (fun i lm k => Aa i lm k / sc i) } := by
  unfold reverseA1Scaled
  rcases hs with ⟨hf, v, h1, h2⟩ | ⟨hf, h1, h2⟩
  · rw [if_pos hf]
    dsimp only
    rw [if_neg (by simp), hw.M, hw.C, hA, hAa, hF, resize_eq (by rw [hg.xyz_len]; simp)]
    exact (bind_of_some (scaleReverse_spec hg h1 A Aa h2 F) _).trans rfl
  · rw [if_neg (by simp [hf])]
    refine congrArg some ?_
    have e1 : T3 g.N W.M W.C (fun i lm k => Aa i lm k / sc i) = s.A1a := by
      rw [hAa]; exact T3_congr (fun i hi _ _ _ _ => by rw [h1 i hi, div_one])
    have e2 : tab2 g.Ex 3 (fun e a => F e a + onE g.nn g.N (forceS W.M W.C d sc dv A Aa) e a) = s.nodeForces := by
      rw [hF]; exact tab2_congr (fun e _ a _ => by simp [onE, forceS, h2])
    rw [e1, e2]

end scaledStages

/-! ## The reverse pass as formulas -/

section adjoint
variable {K : Type} [Field K] (W : Net K) (c : Conf K) (d : DConf K) (N : ℕ) (H : ℕ → ℕ → ℕ → K)
  (G : (ℕ → K) → ℕ → K)

/-- `H2_adj`. -/
def H2adj (i k : ℕ) : K := G (h2 W c H i) k

/-- `H1_adj` after `reverse_H2`. -/
def H1adj0 (v LM k : ℕ) : K :=
  (if v < N ∧ LM = 0 then W.read1 k else 0) +
    if v < N ∧ LM = 0 then ∑ k' ∈ Finset.range W.C, W.lin2h (c.typ v) k k' * H2adj W c H G v k' else 0

/-- `M1_adj`. -/
def M1adj (i k : ℕ) : K := ∑ k' ∈ Finset.range W.C, W.lin2m k k' * H2adj W c H G i k'

/-- `A1_adj` after `reverse_M1`. -/
def A1adj (i lm k : ℕ) : K := g1 W c (a1s W c H) i lm k * M1adj W c H G i k

/-- `dPhi1r`. -/
def Dr1 : ℕ → ℕ → ℕ → K := dphi1r W (phi1a W (fun i lm k => A1adj W c H G i lm k / c.s1 i))

/-- Force on edge `e` of node `i` from the second layer. -/
def forceL2 (i e a : ℕ) : K :=
  forceS W.M W.C d c.s1 d.ds1 (a1s W c H) (A1adj W c H G) i e a + force1 W c d H (Dr1 W c H G) i e a

/-- `H1_adj` after `reverse_Phi1`. -/
def H1adj (v LM k : ℕ) : K := H1adj0 W c N H G v LM k + adj1 W c N (Dr1 W c H G) v LM k

/-- `A0_adj` after `reverse_M0`, from `H1_adj = Ha`. -/
def A0adj (Ha : ℕ → ℕ → ℕ → K) (i lm k : ℕ) : K :=
  ∑ LM ∈ Finset.range W.LM, g0 W c (a0s W c) i LM lm k * ∑ k' ∈ Finset.range W.C, Ha i LM k' * W.lin1 (Nat.sqrt LM) k k'

/-- Force on edge `e` of node `i` from the first layer. -/
def forceL1 (Ha : ℕ → ℕ → ℕ → K) (i e a : ℕ) : K :=
  forceS W.M W.C d c.s0 d.ds0 (a0s W c) (A0adj W c Ha) i e a +
    force0 W c d (fun i lm k => A0adj W c Ha i lm k / c.s0 i) i e a

end adjoint

/-! ## Segments -/

section segments
variable {P : Params ℝ} {W : Net ℝ} {g : Graph ℝ} {nT nP NH : ℕ} {c : Conf ℝ} {n : ℕ → ℕ} {d : DConf ℝ}

/-- First layer forward. -/
noncomputable def seg1 (P : Params ℝ) (g : Graph ℝ) (s : State ℝ) : Option (State ℝ) := do
  let s ← computeY P g s
  let s ← computeR0 P g s
  let s ← computeA0 P g s
  let s ← computeA0Scaled P g s
  let s ← computeM0 P g s
  computeH1 P g s

/-- Second layer forward, readout and second layer backward. -/
noncomputable def seg2 (P : Params ℝ) (g : Graph ℝ) (s : State ℝ) : Option (State ℝ) := do
  let s ← computeR1 P g s
  let s ← computePhi1 P g s
  let s ← computeA1 P g s
  let s ← computeA1Scaled P g s
  let s ← computeM1 P g s
  let s ← computeH2 P g s
  let s ← computeReadouts P g s
  let s ← reverseH2 P g false s
  let s ← reverseM1 P g s
  let s ← reverseA1Scaled P g false s
  let s ← reverseA1 P g s
  reversePhi1 P g false false s

/-- First layer backward. -/
noncomputable def seg3 (P : Params ℝ) (g : Graph ℝ) (s : State ℝ) : Option (State ℝ) := do
  let s ← reverseH1 P g s
  let s ← reverseM0 P g s
  let s ← reverseA0Scaled P g s
  reverseA0 P g s

theorem pipeline_segs (P : Params ℝ) (g : Graph ℝ) (s : State ℝ) :
    pipeline P g s = (seg1 P g s).bind (fun s => (seg2 P g s).bind (seg3 P g)) := by
  unfold pipeline seg1 seg2 seg3
  simp only [Option.bind_eq_bind, Option.bind_assoc]

/-- Everything the evaluator's geometry-dependent inputs must satisfy. -/
structure FeatOk (P : Params ℝ) (W : Net ℝ) (g : Graph ℝ) (nP : ℕ) (c : Conf ℝ) (d : DConf ℝ) : Prop where
  y : ∀ e < g.Ex, ∀ lm < W.M, c.Y e lm = harm P (d.X e) lm
  dy : ∀ e < g.Ex, ∀ a < 3, ∀ lm < W.M, d.dY e a lm = harmD P (d.X e) a lm
  n0 : ∃ s0, P.splSet0[0]? = some s0 ∧ s0.num_splines = (W.lmax + 1) * W.C
  r0 : RadOk P.atomicNumbers.length P.splSet0 ((W.lmax + 1) * W.C) g c d.R (fun e p => c.R0 e (p / W.C) (p % W.C))
    (fun e p => d.dR0 e (p / W.C) (p % W.C))
  r1 : RadOk P.atomicNumbers.length P.splSet1 (nP * W.C) g c d.R (fun e p => c.R1 e (p / W.C) (p % W.C))
    (fun e p => d.dR1 e (p / W.C) (p % W.C))
  s0 : ScOk P.A0scaled P.atomicNumbers.length P.A0splines g c d.R c.s0 d.ds0
  s1 : ScOk P.A1scaled P.atomicNumbers.length P.A1splines g c d.R c.s1 d.ds1

theorem rows_of {K : Type} [Field K] {g : Graph K} {A C : ℕ} {b : List K} {f : ℕ → ℕ → ℕ → K}
    (h : ∀ e < g.E, ∀ q < A * C, b[e * (A * C) + q]? = some (f e (q / C) (q % C))) : Rows g A C b f := by
  intro e he p hp k hk
  have := h e he (p * C + k) (flat_lt hp hk)
  rw [flat_div hk, flat_mod hk] at this
  rw [← this]
  congr 1
  ring

theorem computeR0_spec (hg : GOk g nT NH c n d.X d.R) (hf : FeatOk P W g nP c d) (s : State ℝ) :
    ∃ o1 o2, computeR0 P g s = some { s with R0 := o1, R0d := o2 } ∧ Rows g (W.lmax + 1) W.C o1 c.R0 ∧
      Rows g (W.lmax + 1) W.C o2 d.dR0 := by
  obtain ⟨o1, o2, h1, h2, h3⟩ := radial_spec hg hf.n0 hf.r0 s.R0 s.R0d
  exact ⟨o1, o2, (bind_of_some h1 _).trans rfl, rows_of h2, rows_of h3⟩

theorem computeR1_spec (hw : WOk P W nT nP) (hg : GOk g nT NH c n d.X d.R) (hf : FeatOk P W g nP c d) (s : State ℝ) :
    ∃ o1 o2, computeR1 P g s = some { s with R1 := o1, R1d := o2 } ∧ Rows g nP W.C o1 c.R1 ∧ Rows g nP W.C o2 d.dR1 := by
  obtain ⟨o1, o2, h1, h2, h3⟩ := radial_spec hg hw.spl1 hf.r1 s.R1 s.R1d
  exact ⟨o1, o2, (bind_of_some h1 _).trans rfl, rows_of h2, rows_of h3⟩

/-- What the first segment leaves behind. -/
structure Seg1Out (W : Net ℝ) (g : Graph ℝ) (nT : ℕ) (c : Conf ℝ) (d : DConf ℝ) (s s' : State ℝ) : Prop where
  Y : 0 < g.Ex → s'.Y = tab2 g.Ex W.M c.Y
  Yg : 0 < g.Ex → s'.Yg = T3 g.Ex 3 W.M d.dY
  R0 : Rows g (W.lmax + 1) W.C s'.R0 c.R0
  R0d : Rows g (W.lmax + 1) W.C s'.R0d d.dR0
  A0 : s'.A0 = T3 g.N W.M W.C (a0s W c)
  M0 : s'.M0 = T3 g.N W.LM W.C (m0 W c)
  M0g : ∀ i < g.N, ∀ LM < W.LM, ∀ lm < W.M, ∀ k < W.C,
        s'.M0g[((i * W.LM + LM) * W.M + lm) * W.C + k]? = some (g0 W c (a0s W c) i LM lm k)
  P0 : P0Ok W nT s'.P0
  H1 : s'.H1 = T3 g.N W.LM W.C (h1 W c)
  nodeEnergies : s'.nodeEnergies = s.nodeEnergies
  nodeForces : s'.nodeForces = s.nodeForces
  P1 : s'.P1 = s.P1
  ro2 : s'.ro2 = s.ro2

theorem seg1_spec (hw : WOk P W nT nP) (hg : GOk g nT NH c n d.X d.R) (hf : FeatOk P W g nP c d) {s : State ℝ}
    (hP : P0Ok W nT s.P0) : ∃ s', seg1 P g s = some s' ∧ Seg1Out W g nT c d s s' := by
  obtain ⟨Y, Yg, xs, e1, y2⟩ := computeY_spec hw hg s
  have hY : 0 < g.Ex → Y = tab2 g.Ex W.M c.Y := fun h => by
    rw [(y2 h).1]; exact tab2_congr (fun e he lm hlm => (hf.y e he lm hlm).symm)
  have hYg : 0 < g.Ex → Yg = T3 g.Ex 3 W.M d.dY := fun h => by
    rw [(y2 h).2]; exact T3_congr (fun e he a ha lm hlm => (hf.dy e he a ha lm hlm).symm)
  obtain ⟨s1, hs1⟩ : ∃ t : State ℝ, t = { s with Y := Y, Yg := Yg, xyzs := xs } := ⟨_, rfl⟩
  rw [← hs1] at e1
  obtain ⟨o1, o2, e2, ho1, ho2⟩ := computeR0_spec hg hf s1
  obtain ⟨s2, hs2⟩ : ∃ t : State ℝ, t = { s1 with R0 := o1, R0d := o2 } := ⟨_, rfl⟩
  rw [← hs2] at e2
  obtain ⟨s3, hs3⟩ : ∃ t : State ℝ, t = { s2 with A0 := T3 g.N W.M W.C (a0 W c) } := ⟨_, rfl⟩
  have e3 := computeA0_spec (s := s2) hw hg (by simp only [hs2, hs1]; exact fun h => hY (h.trans_le hg.le)) (by simp only [hs2]; exact ho1)
  rw [← hs3] at e3
  obtain ⟨s4, hs4⟩ : ∃ t : State ℝ, t = { s3 with A0 := T3 g.N W.M W.C (fun i lm k => a0 W c i lm k / c.s0 i) } := ⟨_, rfl⟩
  have e4 := computeA0Scaled_spec (s := s3) (a := a0 W c) hw hg hf.s0 (by simp only [hs3])
  rw [← hs4] at e4
  obtain ⟨M0g, P0', e5, m2, m3⟩ := computeM0_spec (s := s4) (a := a0s W c) hw hg (by simp only [hs4]; rfl)
    (by simp only [hs4, hs3, hs2, hs1]; exact hP)
  obtain ⟨s5, hs5⟩ : ∃ t : State ℝ, t = { s4 with M0 := T3 g.N W.LM W.C (m0 W c), M0g := M0g, P0 := P0' } := ⟨_, rfl⟩
  replace e5 : computeM0 P g s4 = some s5 := by rw [e5, hs5]; rfl
  have e6 := computeH1_spec (g := g) (s := s5) (m := m0 W c) hw (by simp only [hs5])
  obtain ⟨s6, hs6⟩ : ∃ t : State ℝ, t = { s5 with H1 := T3 g.N W.LM W.C (h1 W c) } := ⟨_, rfl⟩
  replace e6 : computeH1 P g s5 = some s6 := by rw [e6, hs6]; rfl
  refine ⟨s6, ?_, ?_⟩
  · unfold seg1
    simp only [Option.bind_eq_bind, Option.bind_some, e1, e2, e3, e4, e5, e6]
  · constructor <;> simp only [hs6, hs5, hs4, hs3, hs2, hs1]
    · exact hY
    · exact hYg
    · exact ho1
    · exact ho2
    · rfl
    · exact m3
    · exact m2

/-- What the second segment leaves behind; it starts from energies `E`, forces `F`, first-layer features `H`. -/
structure Seg2Out (W : Net ℝ) (g : Graph ℝ) (nT NH : ℕ) (c : Conf ℝ) (d : DConf ℝ) (G : (ℕ → ℝ) → ℕ → ℝ)
    (I : MLP.MLP ℝ → Prop) (H : ℕ → ℕ → ℕ → ℝ) (E : ℕ → ℝ) (F : ℕ → ℕ → ℝ) (s s' : State ℝ) : Prop where
  nodeEnergies : s'.nodeEnergies = tab g.N (fun i => E i + W.atomE (c.typ i) + (∑ k ∈ Finset.range W.C, W.read1 k * H i 0 k)
          + W.read2 (h2 W c H i))
  nodeForces : s'.nodeForces = tab2 g.Ex 3 (fun e a => F e a + onE g.nn g.N (forceL2 W c d H G) e a)
  H1a : s'.H1a = T3 NH W.LM W.C (H1adj W c g.N H G)
  P1 : P1Ok W nT s'.P1
  ro2 : I s'.ro2
  Y : s'.Y = s.Y
  Yg : s'.Yg = s.Yg
  R0 : s'.R0 = s.R0
  R0d : s'.R0d = s.R0d
  A0 : s'.A0 = s.A0
  M0 : s'.M0 = s.M0
  M0g : s'.M0g = s.M0g
  P0 : s'.P0 = s.P0
  H1 : s'.H1 = s.H1

/-- Second segment, for `NH ≥ N` nodes with first-layer features `H`. -/
theorem seg2_spec (hw : WOk P W nT nP) (hg : GOk g nT NH c n d.X d.R) (hN : g.N ≤ NH) (hf : FeatOk P W g nP c d)
    {G : (ℕ → ℝ) → ℕ → ℝ} {I : MLP.MLP ℝ → Prop} (hro : ROk P.ex W.C W.read2 G I) {s : State ℝ}
    {H : ℕ → ℕ → ℕ → ℝ} {E : ℕ → ℝ} {F : ℕ → ℕ → ℝ}
    (hP : P1Ok W nT s.P1) (hI : I s.ro2) (hH : s.H1 = T3 NH W.LM W.C H) (hE : s.nodeEnergies = tab g.N E)
    (hF : s.nodeForces = tab2 g.Ex 3 F) (hY : 0 < g.Ex → s.Y = tab2 g.Ex W.M c.Y) (hYg : 0 < g.Ex → s.Yg = T3 g.Ex 3 W.M d.dY) :
    ∃ s', seg2 P g s = some s' ∧ Seg2Out W g nT NH c d G I H E F s s' := by
  replace hY := fun h : 0 < g.E => hY (h.trans_le hg.le)
  replace hYg := fun h : 0 < g.E => hYg (h.trans_le hg.le)
  obtain ⟨o1, o2, e1, ho1, ho2⟩ := computeR1_spec hw hg hf s
  obtain ⟨s1, hs1⟩ : ∃ t : State ℝ, t = { s with R1 := o1, R1d := o2 } := ⟨_, rfl⟩
  rw [← hs1] at e1
  have e2 := computePhi1_spec (s := s1) hw hg (by simp only [hs1]; exact hY) (by simp only [hs1]; exact ho1) (by simp only [hs1]; exact hH)
  obtain ⟨s2, hs2⟩ : ∃ t : State ℝ, t = { s1 with Phi1r := T3 g.N W.nQ W.C (phi1r W c H), Phi1 := T3 g.N W.nOut W.C (phi1 W c H) } := ⟨_, rfl⟩
  rw [← hs2] at e2
  have e3 := computeA1_spec (g := g) (s := s2) (p := phi1 W c H) hw (by simp only [hs2, hs1])
  obtain ⟨s3, hs3⟩ : ∃ t : State ℝ, t = { s2 with A1 := T3 g.N W.M W.C (a1 W c H) } := ⟨_, rfl⟩
  replace e3 : computeA1 P g s2 = some s3 := by rw [e3, hs3]; rfl
  have e4 := computeA1Scaled_spec (s := s3) (a := a1 W c H) hw hg hf.s1 (by simp only [hs3, hs2, hs1])
  obtain ⟨s4, hs4⟩ : ∃ t : State ℝ, t = { s3 with A1 := T3 g.N W.M W.C (a1s W c H) } := ⟨_, rfl⟩
  replace e4 : computeA1Scaled P g s3 = some s4 := by rw [e4, hs4]; rfl
  obtain ⟨G1, P1', e5, mP, mG⟩ := computeM1_spec (s := s4) (a := a1s W c H) hw hg (by simp only [hs4, hs3, hs2, hs1]) (by simp only [hs4, hs3, hs2, hs1]; exact hP)
  obtain ⟨s5, hs5⟩ : ∃ t : State ℝ, t = { s4 with M1 := tab2 g.N W.C (m1 W c H), M1g := G1, P1 := P1' } := ⟨_, rfl⟩
  replace e5 : computeM1 P g s4 = some s5 := by rw [e5, hs5]; rfl
  have e6 := computeH2_spec (s := s5) (m := m1 W c H) hw hg hN (by simp only [hs5, hs4, hs3, hs2, hs1]; exact hH) (by simp only [hs5, hs4, hs3, hs2, hs1])
  obtain ⟨s6, hs6⟩ : ∃ t : State ℝ, t = { s5 with H2 := tab2 g.N W.C (h2 W c H) } := ⟨_, rfl⟩
  replace e6 : computeH2 P g s5 = some s6 := by rw [e6, hs6]; rfl
  obtain ⟨ro, r1, e7⟩ := computeReadouts_spec (s := s6) (h := h2 W c H) hw hg hN (by simp only [hs6, hs5, hs4, hs3, hs2, hs1]; exact hH) (by simp only [hs6, hs5, hs4, hs3, hs2, hs1]) (by simp only [hs6, hs5, hs4, hs3, hs2, hs1]; exact hE) hro (by simp only [hs6, hs5, hs4, hs3, hs2, hs1]; exact hI)
  obtain ⟨s7, hs7⟩ : ∃ t : State ℝ, t = { s6 with
      nodeEnergies := tab g.N (fun i => E i + W.atomE (c.typ i) + (∑ k ∈ Finset.range W.C, W.read1 k * H i 0 k)
        + W.read2 (h2 W c H i))
      H1a := T3 NH W.LM W.C (fun v LM k => if v < g.N ∧ LM = 0 then W.read1 k else 0)
      H2a := tab2 g.N W.C (H2adj W c H G)
      ro2 := ro } := ⟨_, rfl⟩
  replace e7 : computeReadouts P g s6 = some s7 := by rw [e7, hs7]; rfl
  have e8 := reverseH2_spec (s := s7) (m := m1 W c H) (Ga := H2adj W c H G) (Ha := fun v LM k => if v < g.N ∧ LM = 0 then W.read1 k else 0) hw hg hN (by simp only [hs7, hs6, hs5, hs4, hs3, hs2, hs1]; exact hH) (by simp only [hs7, hs6, hs5, hs4, hs3, hs2, hs1]) (by simp only [hs7, hs6, hs5, hs4, hs3, hs2, hs1]) false (Or.inr ⟨rfl, (by simp only [hs7, hs6, hs5, hs4, hs3, hs2, hs1])⟩)
  obtain ⟨s8, hs8⟩ : ∃ t : State ℝ, t = { s7 with H1a := T3 NH W.LM W.C (H1adj0 W c g.N H G), M1a := tab2 g.N W.C (M1adj W c H G) } := ⟨_, rfl⟩
  replace e8 : reverseH2 P g false s7 = some s8 := by rw [e8, hs8]; rfl
  have e9 := reverseM1_spec (g := g) (s := s8) (A := a1s W c H) (Ma := M1adj W c H G) (G := g1 W c (a1s W c H)) hw (by simp only [hs8, hs7, hs6, hs5, hs4, hs3, hs2, hs1]) (by simp only [hs8, hs7, hs6, hs5, hs4, hs3, hs2, hs1]) (by simp only [hs8, hs7, hs6, hs5, hs4, hs3, hs2, hs1]; exact mG)
  obtain ⟨s9, hs9⟩ : ∃ t : State ℝ, t = { s8 with A1a := T3 g.N W.M W.C (A1adj W c H G) } := ⟨_, rfl⟩
  replace e9 : reverseM1 P g s8 = some s9 := by rw [e9, hs9]; rfl
  have e10 := reverseA1Scaled_spec (s := s9) (A := a1s W c H) (Aa := A1adj W c H G) (F := F) hw hg hf.s1 (by simp only [hs9, hs8, hs7, hs6, hs5, hs4, hs3, hs2, hs1]) (by simp only [hs9, hs8, hs7, hs6, hs5, hs4, hs3, hs2, hs1]) (by simp only [hs9, hs8, hs7, hs6, hs5, hs4, hs3, hs2, hs1]; exact hF)
  obtain ⟨s10, hs10⟩ : ∃ t : State ℝ, t = { s9 with nodeForces := tab2 g.Ex 3 (fun e a => F e a + onE g.nn g.N (forceS W.M W.C d c.s1 d.ds1 (a1s W c H) (A1adj W c H G)) e a), A1a := T3 g.N W.M W.C (fun i lm k => A1adj W c H G i lm k / c.s1 i) } := ⟨_, rfl⟩
  rw [← hs10] at e10
  have e11 := reverseA1_spec (g := g) (s := s10) (p := phi1 W c H) (A := fun i lm k => A1adj W c H G i lm k / c.s1 i) hw (by simp only [hs10, hs9, hs8, hs7, hs6, hs5, hs4, hs3, hs2, hs1]) (by simp only [hs10, hs9, hs8, hs7, hs6, hs5, hs4, hs3, hs2, hs1])
  obtain ⟨s11, hs11⟩ : ∃ t : State ℝ, t = { s10 with dPhi1 := T3 g.N W.nOut W.C (phi1a W (fun i lm k => A1adj W c H G i lm k / c.s1 i)) } := ⟨_, rfl⟩
  rw [← hs11] at e11
  have e12 := reversePhi1_spec (s := s11) (F := fun e a => F e a + onE g.nn g.N (forceS W.M W.C d c.s1 d.ds1 (a1s W c H) (A1adj W c H G)) e a) (H := H) (pr := phi1r W c H) (Ha := H1adj0 W c g.N H G)
    (D := phi1a W (fun i lm k => A1adj W c H G i lm k / c.s1 i)) hw hg (by simp only [hs11, hs10, hs9, hs8, hs7, hs6, hs5, hs4, hs3, hs2, hs1]; exact hY) (by simp only [hs11, hs10, hs9, hs8, hs7, hs6, hs5, hs4, hs3, hs2, hs1]; exact hYg) (by simp only [hs11, hs10, hs9, hs8, hs7, hs6, hs5, hs4, hs3, hs2, hs1]; exact ho1) (by simp only [hs11, hs10, hs9, hs8, hs7, hs6, hs5, hs4, hs3, hs2, hs1]; exact ho2) (by simp only [hs11, hs10, hs9, hs8, hs7, hs6, hs5, hs4, hs3, hs2, hs1]; exact hH)
    (by simp only [hs11, hs10, hs9, hs8, hs7, hs6, hs5, hs4, hs3, hs2, hs1]) (by simp only [hs11, hs10, hs9, hs8, hs7, hs6, hs5, hs4, hs3, hs2, hs1]) false false (Or.inr ⟨rfl, (by simp only [hs11, hs10, hs9, hs8, hs7, hs6, hs5, hs4, hs3, hs2, hs1])⟩) (Or.inr ⟨rfl, (by simp only [hs11, hs10, hs9, hs8, hs7, hs6, hs5, hs4, hs3, hs2, hs1])⟩)
  obtain ⟨s12, hs12⟩ : ∃ t : State ℝ, t = { s11 with
      dPhi1r := T3 g.N W.nQ W.C (Dr1 W c H G)
      nodeForces := tab2 g.Ex 3 (fun e a => F e a + onE g.nn g.N (forceL2 W c d H G) e a)
      H1a := T3 NH W.LM W.C (H1adj W c g.N H G) } := ⟨_, rfl⟩
  replace e12 : reversePhi1 P g false false s11 = some s12 := by
    rw [e12, hs12]
    have : (fun e a => F e a + onE g.nn g.N (forceL2 W c d H G) e a) =
        fun e a => F e a + onE g.nn g.N (forceS W.M W.C d c.s1 d.ds1 (a1s W c H) (A1adj W c H G)) e a +
          onE g.nn g.N (force1 W c d H (Dr1 W c H G)) e a := by
      funext e a; unfold forceL2; rw [onE_add]; ring
    rw [this]
    rfl
  refine ⟨s12, ?_, ?_⟩
  · unfold seg2
    simp only [Option.bind_eq_bind, Option.bind_some, e1, e2, e3, e4, e5, e6, e7, e8, e9, e10, e11, e12]
  · constructor <;> simp only [hs12, hs11, hs10, hs9, hs8, hs7, hs6, hs5, hs4, hs3, hs2, hs1]
    · exact mP
    · exact r1

theorem seg3_spec (hw : WOk P W nT nP) (hg : GOk g nT NH c n d.X d.R) (hN : g.N ≤ NH) (hf : FeatOk P W g nP c d)
    {s : State ℝ} {Ha m : ℕ → ℕ → ℕ → ℝ} {F : ℕ → ℕ → ℝ}
    (hA : s.A0 = T3 g.N W.M W.C (a0s W c)) (hM : s.M0 = T3 g.N W.LM W.C m)
    (hG : ∀ i < g.N, ∀ LM < W.LM, ∀ lm < W.M, ∀ k < W.C,
        s.M0g[((i * W.LM + LM) * W.M + lm) * W.C + k]? = some (g0 W c (a0s W c) i LM lm k))
    (hHa : s.H1a = T3 NH W.LM W.C Ha) (hR : Rows g (W.lmax + 1) W.C s.R0 c.R0)
    (hRd : Rows g (W.lmax + 1) W.C s.R0d d.dR0)
    (hF : s.nodeForces = tab2 g.Ex 3 F) (hY : 0 < g.Ex → s.Y = tab2 g.Ex W.M c.Y) (hYg : 0 < g.Ex → s.Yg = T3 g.Ex 3 W.M d.dY) :
    ∃ s', seg3 P g s = some s' ∧
      s'.nodeForces = tab2 g.Ex 3 (fun e a => F e a + onE g.nn g.N (forceL1 W c d Ha) e a) ∧
      s'.nodeEnergies = s.nodeEnergies ∧ s'.P0 = s.P0 ∧ s'.P1 = s.P1 ∧ s'.ro2 = s.ro2 := by
  replace hY := fun h : 0 < g.E => hY (h.trans_le hg.le)
  replace hYg := fun h : 0 < g.E => hYg (h.trans_le hg.le)
  have e1 := reverseH1_spec hw hM hHa hN
  obtain ⟨s1, hs1⟩ : ∃ t : State ℝ, t = { s with M0a := T3 g.N W.LM W.C (fun i LM k => ∑ k' ∈ Finset.range W.C, Ha i LM k' * W.lin1 (Nat.sqrt LM) k k') } := ⟨_, rfl⟩
  rw [← hs1] at e1
  have e2 := reverseM0_spec (g := g) (s := s1) (A := a0s W c) (Ma := fun i LM k => ∑ k' ∈ Finset.range W.C, Ha i LM k' * W.lin1 (Nat.sqrt LM) k k') (G := g0 W c (a0s W c)) hw (by simp only [hs1]; exact hA) (by simp only [hs1]) (by simp only [hs1]; exact hG)
  obtain ⟨s2, hs2⟩ : ∃ t : State ℝ, t = { s1 with A0a := T3 g.N W.M W.C (A0adj W c Ha) } := ⟨_, rfl⟩
  replace e2 : reverseM0 P g s1 = some s2 := by rw [e2, hs2]; rfl
  have e3 := reverseA0Scaled_spec (s := s2) (A := a0s W c) (Aa := A0adj W c Ha) (F := F) hw hg hf.s0 (by simp only [hs2, hs1]; exact hA) (by simp only [hs2, hs1]) (by simp only [hs2, hs1]; exact hF)
  obtain ⟨s3, hs3⟩ : ∃ t : State ℝ, t = { s2 with nodeForces := tab2 g.Ex 3 (fun e a => F e a + onE g.nn g.N (forceS W.M W.C d c.s0 d.ds0 (a0s W c) (A0adj W c Ha)) e a), A0a := T3 g.N W.M W.C (fun i lm k => A0adj W c Ha i lm k / c.s0 i) } := ⟨_, rfl⟩
  rw [← hs3] at e3
  have e4 := reverseA0_spec (s := s3) (F := fun e a => F e a + onE g.nn g.N (forceS W.M W.C d c.s0 d.ds0 (a0s W c) (A0adj W c Ha)) e a) (A := fun i lm k => A0adj W c Ha i lm k / c.s0 i) hw hg (by simp only [hs3, hs2, hs1]; exact hY) (by simp only [hs3, hs2, hs1]; exact hYg) (by simp only [hs3, hs2, hs1]; exact hR) (by simp only [hs3, hs2, hs1]; exact hRd)
    (by simp only [hs3, hs2, hs1]) (by simp only [hs3, hs2, hs1])
  obtain ⟨s4, hs4⟩ : ∃ t : State ℝ, t = { s3 with
      nodeForces := tab2 g.Ex 3 (fun e a => F e a + onE g.nn g.N (forceL1 W c d Ha) e a) } := ⟨_, rfl⟩
  replace e4 : reverseA0 P g s3 = some s4 := by
    rw [e4, hs4]
    have : (fun e a => F e a + onE g.nn g.N (forceL1 W c d Ha) e a) =
        fun e a => F e a + onE g.nn g.N (forceS W.M W.C d c.s0 d.ds0 (a0s W c) (A0adj W c Ha)) e a +
          onE g.nn g.N (force0 W c d (fun i lm k => A0adj W c Ha i lm k / c.s0 i)) e a := by
      funext e a; unfold forceL1; rw [onE_add]; ring
    rw [this]
  refine ⟨s4, ?_, ?_⟩
  · unfold seg3
    simp only [Option.bind_eq_bind, Option.bind_some, e1, e2, e3, e4]
  · simp only [hs4, hs3, hs2, hs1, and_self]

/-- The whole evaluation. -/
theorem pipeline_spec (hw : WOk P W nT nP) (hg : GOk g nT g.N c n d.X d.R) (hf : FeatOk P W g nP c d)
    {G : (ℕ → ℝ) → ℕ → ℝ} {I : MLP.MLP ℝ → Prop} (hro : ROk P.ex W.C W.read2 G I) {s : State ℝ}
    {E : ℕ → ℝ} {F : ℕ → ℕ → ℝ} (hP0 : P0Ok W nT s.P0) (hP1 : P1Ok W nT s.P1) (hI : I s.ro2)
    (hE : s.nodeEnergies = tab g.N E) (hF : s.nodeForces = tab2 g.Ex 3 F) :
    ∃ s', pipeline P g s = some s' ∧
      s'.nodeEnergies = tab g.N (fun i => E i + W.atomE (c.typ i) + (∑ k ∈ Finset.range W.C, W.read1 k * h1 W c i 0 k)
          + W.read2 (h2 W c (h1 W c) i)) ∧
      s'.nodeForces = tab2 g.Ex 3 (fun e a => F e a + onE g.nn g.N (forceL2 W c d (h1 W c) G) e a
        + onE g.nn g.N (forceL1 W c d (H1adj W c g.N (h1 W c) G)) e a) ∧
      P0Ok W nT s'.P0 ∧ P1Ok W nT s'.P1 ∧ I s'.ro2 := by
  obtain ⟨s1, e1, o1⟩ := seg1_spec hw hg hf hP0
  obtain ⟨s2, e2, o2⟩ := seg2_spec (s := s1) (E := E) (F := F) hw hg le_rfl hf hro (by rw [o1.P1]; exact hP1)
    (by rw [o1.ro2]; exact hI) o1.H1 (by rw [o1.nodeEnergies, hE]) (by rw [o1.nodeForces, hF]) o1.Y o1.Yg
  obtain ⟨s3, e3, f1, f2, f3, f4, f5⟩ := seg3_spec (s := s2) hw hg le_rfl hf (by rw [o2.A0, o1.A0]) (by rw [o2.M0, o1.M0])
    (by rw [o2.M0g]; exact o1.M0g) o2.H1a (by rw [o2.R0]; exact o1.R0) (by rw [o2.R0d]; exact o1.R0d) o2.nodeForces
    (by rw [o2.Y]; exact o1.Y) (by rw [o2.Yg]; exact o1.Yg)
  refine ⟨s3, ?_, by rw [f2, o2.nodeEnergies], f1, ?_, ?_, ?_⟩
  · rw [pipeline_segs, e1, Option.bind_some, e2, Option.bind_some, e3]
  · rw [f3, o2.P0]; exact o1.P0
  · rw [f4]; exact o2.P1
  · rw [f5]; exact o2.ro2

end segments

end Verif.MACE
