import Verif.Lemmas.Kokkos.Pipeline
import Verif.Model.Kokkos.Layers

/-! # The three groups of stages called by the domain-decomposed modes of the pair style -/

namespace Verif.Kokkos
open Verif.Par Verif.Par.Prog Verif.MACE Verif.Spec

section params
variable {K : Type} [Field K] [LinearOrder K] [FloorRing K]
variable {P : Params K} {W : Net K} {nT nP NH L : ℕ} {G : (ℕ → K) → ℕ → K} {g : Graph K} {c : Conf K} {d : DConf K} {n : ℕ → ℕ}

/-- What the derivatives of the first layer need from the state. -/
structure FirstData (V : Env K) (P : Params K) (W : Net K) (nT : ℕ) (g : Graph K) (c : Conf K) (d : DConf K) (s : State K) : Prop where
  Y : GF s.Y g.E W.M c.Y
  Yg : GD s.Yg g.E W.M d.dY
  R0 : GL s.R0 g.E (W.lmax + 1) W.C (fold0 W c g.nn g.N c.R0)
  R0d : GL s.R0d g.E (W.lmax + 1) W.C (fold0 W c g.nn g.N d.dR0)
  A0 : G3 s.A0 g.N W.M W.C (a0s W c)
  A0r : Room s.A0 [W.M, W.C] g.N
  M0r : Room s.M0 [W.LM, W.C] g.N
  scaled : ∀ {Aa forces : View K} {aa : ℕ → ℕ → ℕ → K} {Fo : ℕ → ℕ → K},
    Room Aa [W.M, W.C] g.N → G3 Aa g.N W.M W.C aa → Fc forces g.Ex Fo →
    ∃ f' Aa', scaledBwd V W.C W.M P.A0spl g s.A0sv s.A0sd s.A0 forces Aa = some (f', Aa') ∧
      Fc f' g.Ex (fun e b => Fo e b + onE g.nn g.N (forceS W.M W.C d c.s0 d.ds0 (a0s W c) aa) e b) ∧
      Room Aa' [W.M, W.C] g.N ∧ G3 Aa' g.N W.M W.C (fun i lm k => aa i lm k / c.s0 i)
  prod : ∃ (nd : ℕ → ℕ → List ℕ) (cf : ℕ → ℕ → ℕ → ℕ → K),
    (∀ lm < W.LM, KPoly nT W.M W.C (fun t => W.coef0 t lm) (W.mono0 lm) (P.M0spec lm) (P.M0coeff lm) (nd lm) (cf lm)) ∧
    ∀ lm < W.LM, G3 (s.M0v lm) g.N (W.M + (P.M0spec lm).extent 0) W.C (fun i q k => monomial (fun q => a0s W c i q k) (nd lm q))

/-- The state after other stages. -/
theorem FirstData.carry {V : Env K} {s s' : State K} (h : FirstData V P W nT g c d s) (e1 : s'.Y = s.Y) (e2 : s'.Yg = s.Yg) (e3 : s'.R0 = s.R0)
    (e4 : s'.R0d = s.R0d) (e5 : s'.A0 = s.A0) (e6 : s'.M0 = s.M0) (e7 : s'.A0sv = s.A0sv) (e8 : s'.A0sd = s.A0sd) (e9 : s'.M0v = s.M0v) :
    FirstData V P W nT g c d s' := by
  refine ⟨by rw [e1]; exact h.Y, by rw [e2]; exact h.Yg, by rw [e3]; exact h.R0, by rw [e4]; exact h.R0d, by rw [e5]; exact h.A0,
    by rw [e5]; exact h.A0r, by rw [e6]; exact h.M0r, ?_, by rw [e9]; exact h.prod⟩
  rw [e5, e7, e8]
  exact h.scaled

theorem firstLayer_spec (V : Env K) (hw : KWOk P W nT nP L G) (hg : GOk g nT NH c n d.X d.R) (hE : g.Ex = g.E) (hf : KFeat P W g nP c d)
    {s : State K} (hs : KSt P W nP L s) :
    ∃ s', firstLayer V P g s = some s' ∧ KSt P W nP L s' ∧ s'.energies = s.energies ∧ s'.forces = s.forces ∧
      FirstData V P W nT g c d s' ∧ Room s'.H1 [W.LM, W.C] g.N ∧ G3 s'.H1 g.N W.LM W.C (h1 W c) := by
  obtain ⟨R0, R0d, a1, a2, a3, a4⟩ := computeR0_spec V hg (RadX.none hE) hs.R0 hf.r0
  replace a3 := gl_of a3
  replace a4 := gl_of a4
  obtain ⟨Y, Yg, xs, Ygs, c1, c2, c3, c4, c5⟩ := computeY_spec V (M := W.M) (num := g.E) (sph := P.sph) (dsph := P.dsph) (nrm := P.nrm)
    (hg.xyz_len.trans (by rw [hE])) (fun e he a ha => hg.xyz_get' he ha) hs.Y hs.xs
  replace c4 : GF Y g.E W.M c.Y := fun e he lm hlm => by rw [c4 e he lm hlm, hf.y e he lm hlm]
  replace c5 : GD Yg g.E W.M d.dY := fun e he a ha lm hlm => by rw [c5 e he a ha lm hlm, hf.dy e he a ha lm hlm]
  obtain ⟨A0, d1, d2, d3⟩ := computeA0_spec V (C := W.C) (lmax := W.lmax) rfl hg a3 c4 hs.A0
  replace d3 : G3 A0 g.N W.M W.C (a0 W c) := d3.congr (fun i hi lm _ k _ => (fold_a0 hg hi).symm)
  obtain ⟨sv0, sd0, A0', e1, e2, e3, e4, e5⟩ := scaledFwd_spec V hg (ScX.none hE) hf.s0 hs.A0s d2 d3
  replace e4 : G3 A0' g.N W.M W.C (a0s W c) := e4
  obtain ⟨nd0, cf0, hp0⟩ := hw.m0
  obtain ⟨M0, M0v, f1, f2, f3, f4⟩ := computeM0_spec V hg.types hg.typ_lt hp0 e4 hs.M0 hs.M0v
  replace f3 : G3 M0 g.N W.LM W.C (m0 W c) := f3
  obtain ⟨H1, g1', g2, g3⟩ := computeH1_spec V (LM := W.LM) rfl hw.H1w f2 f3 hs.H1
  replace g3 : G3 H1 g.N W.LM W.C (h1 W c) := g3
  unfold firstLayer
  rw [hw.C, hw.M, hw.LM, hw.lmax, hw.Lmax]
  refine ⟨_, (bind_of_some c1 _).trans <| (bind_of_some a1 _).trans <| (bind_of_some d1 _).trans <| (bind_of_some e1 _).trans <|
    (bind_of_some f1 _).trans <| (bind_of_some g1' _).trans <| rfl, ?_, rfl, rfl, ?_, g2, g3⟩
  · have z : ∀ {m : ℕ}, 0 ≤ m := Nat.zero_le _
    exact { hs with
      R0 := a2.mono z
      Y := by obtain ⟨y, -, h⟩ := c2; exact ⟨y, z, h⟩
      xs := c3.mono z, A0 := e3.mono z, A0s := e2, M0 := f2.mono z
      M0v := fun lm hlm => (f4 lm hlm).1.mono z
      H1 := g2.mono z }
  · exact ⟨c4, c5, a3, a4, e4, e3, f2, fun h1 h2 h3 => e5 d rfl hg h1 h2 h3, nd0, cf0, hp0, fun lm hlm => (f4 lm hlm).2⟩

/-- Second layer of the nodes of `g`, from features `h` of `NH` nodes. -/
theorem secondLayer_spec (V : Env K) (hw : KWOk P W nT nP L G) (hg : GOk g nT NH c n d.X d.R) (hN : g.N ≤ NH)
    (hx1 : RadX P.radial1.h P.radial1.c (nP * W.C) (pairIndex (uniqueTypes P.radial1.numTypes)) g) (hx2 : ScX P.A1spl g)
    (n1 : P.radial1.numFun = nP * W.C)
    (r1 : RadOkK P.radial1.h P.radial1.c (nP * W.C) (pairIndex (uniqueTypes P.radial1.numTypes)) g c d.R
      (fun e p => c.R1 e (p / W.C) (p % W.C)) (fun e p => d.dR1 e (p / W.C) (p % W.C)))
    (s1 : ScK P.A1spl g c d.R c.s1 d.ds1) {s : State K} (hs : KSt P W nP L s) {h : ℕ → ℕ → ℕ → K}
    (c4 : GF s.Y g.E W.M c.Y) (c5 : GD s.Yg g.E W.M d.dY) (g2 : Room s.H1 [W.LM, W.C] NH) (g3 : G3 s.H1 NH W.LM W.C h)
    {e : ℕ → K} {F : ℕ → ℕ → K} (he : All s.energies g.N e) (hF : Fc s.forces g.Ex F) :
    ∃ s', secondLayer V P g s = some s' ∧ KSt P W nP L s' ∧
      All s'.energies g.N (fun i => e i + if i < g.N then
        W.atomE (c.typ i) + (∑ k ∈ Finset.range W.C, W.read1 k * h i 0 k) + W.read2 (h2 W c h i) else 0) ∧
      Fc s'.forces g.Ex (fun e a => F e a + onE g.nn g.N (forceL2 W c d h G) e a) ∧
      Room s'.H1a [W.LM, W.C] NH ∧ G3 s'.H1a NH W.LM W.C (H1adj W c g.N h G) ∧
      s'.H1 = s.H1 ∧ s'.Y = s.Y ∧ s'.Yg = s.Yg ∧ s'.R0 = s.R0 ∧ s'.R0d = s.R0d ∧ s'.A0 = s.A0 ∧ s'.M0 = s.M0 ∧ s'.A0sv = s.A0sv ∧
      s'.A0sd = s.A0sd ∧ s'.M0v = s.M0v := by
  have hLM : 0 < W.LM := Nat.mul_pos (Nat.succ_pos _) (Nat.succ_pos _)
  have g3' : G3 s.H1 g.N W.LM W.C h := fun i hi => g3 i (by omega)
  obtain ⟨R1, R1d, b1, b2, b3, b4⟩ := computeRadial_spec V n1 hg hx1 hs.R1 r1
  replace b3 := gl_of b3
  replace b4 := gl_of b4
  obtain ⟨Pr, Ph, i1, i2, i3, i4, i5⟩ := computePhi1_spec V hw.tabs hg b3 c4 g3 hs.Phi1r hs.Phi1
  obtain ⟨A1, j1, j2, j3⟩ := computeA1_spec V hw.block hw.A1w i4 i5 hs.A1
  replace j3 : G3 A1 g.N W.M W.C (Spec.a1 W c h) := j3
  obtain ⟨sv1, sd1, A1', k1, k2, k3, k4, k5⟩ := scaledFwd_spec V hg hx2 s1 hs.A1s j2 j3
  replace k4 : G3 A1' g.N W.M W.C (a1s W c h) := k4
  obtain ⟨nd1, cf1, hp1⟩ := hw.m1
  obtain ⟨M1, M1v, l1, l2, l3, l4, l5⟩ := computeM1_spec V hg.types hg.typ_lt hp1 k4 hs.M1 hs.M1v
  replace l3 : G2 M1 g.N W.C (m1 W c h) := l3
  obtain ⟨H2, m1', m2, m3⟩ := computeH2_spec V hg.types hg.typ_lt hw.H2wH1 hw.H2wM1 hLM g3' l3 hs.H2
  replace m3 : G2 H2 g.N W.C (h2 W c h) := m3
  obtain ⟨nn, Wt, hper, hL, hn0, hnL, hro⟩ := hw.ro2
  obtain ⟨HH, AD, r0, r1, r2, r3⟩ := hro (h2 W c h)
  obtain ⟨ro, n1, n2, -, n3, n4, n5, n6, n7, n8, n9, n10⟩ := computeReadouts_spec V hg.types hg.typ_lt hw.atomE hw.ro1 hN hper hL hn0 hnL r1 r2 hLM
    g2 g3' m2 (by rw [r0]; exact m3) he hs.H1a hs.H2a hs.ro2 hs.nv hs.nd
  replace n7 : G2 ro.H2a g.N W.C (H2adj W c h G) := n7.congr (fun i _ k hk => ((r3 i).2 k hk).symm)
  obtain ⟨H1a, M1a, o1, o2, o3, o4, o5, o6⟩ := reverseH2_spec V hg.types hg.typ_lt hw.H2wH1 hw.H2wM1 hN hLM n3 n4 n5 l2 hs.M1a n7
  replace o4 : G3 H1a NH W.LM W.C (H1adj0 W c g.N h G) := o4.congr (fun i hi lm _ k _ => by
    unfold H1adj0
    rfl)
  replace o6 : G2 M1a g.N W.C (M1adj W c h G) := o6
  obtain ⟨A1a, M1p, p1, p2, p3, p4⟩ := reverseM1_spec V hg.types hg.typ_lt hp1 k3 hs.A1a o6 l5 hs.M1p
  replace p3 : G3 A1a g.N W.M W.C (A1adj W c h G) := p3
  obtain ⟨fo1, A1a', q1, q2, q3, q4⟩ := k5 d rfl hg p2 p3 hF
  obtain ⟨dP, s1, s2, s3⟩ := reverseA1_spec V hw.block hw.A1wt q4 hs.dPhi1
  obtain ⟨dPr, fo2, H1a', t1, t2, t3, t4, t5, t6⟩ := reversePhi1_spec V hw.tabs hg b3 b4 c4 c5 g3 i2 s3 hs.dPhi1r q2 o2 o3 o4
  replace t6 : G3 H1a' NH W.LM W.C (H1adj W c g.N h G) := t6
  unfold secondLayer
  rw [hw.C, hw.M, hw.lmax, hw.nQ, hw.nOut, hw.len]
  refine ⟨_, (bind_of_some b1 _).trans <| (bind_of_some i1 _).trans <| (bind_of_some j1 _).trans <| (bind_of_some k1 _).trans <| (bind_of_some l1 _).trans <| (bind_of_some m1' _).trans <| (bind_of_some n1 _).trans <| (bind_of_some o1 _).trans <| (bind_of_some p1 _).trans <| (bind_of_some q1 _).trans <| (bind_of_some s1 _).trans <| (bind_of_some t1 _).trans <| rfl, ?_, ?_, ?_,
    t4, t6, rfl, rfl, rfl, rfl, rfl, rfl, rfl, rfl, rfl, rfl⟩
  · have z : ∀ {m : ℕ}, 0 ≤ m := Nat.zero_le _
    exact { hs with
      R1 := b2.mono z, H1a := t4.mono z, Phi1r := i2.mono z, dPhi1r := t2.mono z, Phi1 := i4.mono z, dPhi1 := s2.mono z
      A1 := k3.mono z, A1a := q3.mono z, A1s := k2, M1 := l2.mono z, M1a := o5.mono z, M1v := l4.mono z, M1p := p4.mono z
      H2 := m2.m2, H2a := n6.m2, ro2 := n8.mono z, nv := n9, nd := n10 }
  · exact n2.congr (fun i => by rw [(r3 i).1])
  · refine All.congr t3 (fun p => ?_)
    dsimp only
    unfold forceL2
    rw [onE_add, ← add_assoc]
    rfl

/-- Derivatives of the first layer, from the derivatives `Ha` with respect to its features. -/
theorem firstLayerBack_spec (V : Env K) (hw : KWOk P W nT nP L G) (hg : GOk g nT NH c n d.X d.R) {s : State K} (hs : KSt P W nP L s)
    (hd : FirstData V P W nT g c d s) {Ha : ℕ → ℕ → ℕ → K} (hH : G3 s.H1a g.N W.LM W.C Ha) {F : ℕ → ℕ → K} (hF : Fc s.forces g.Ex F) :
    ∃ s', firstLayerBack V P g s = some s' ∧ KSt P W nP L s' ∧ s'.energies = s.energies ∧
      Fc s'.forces g.Ex (fun e a => F e a + onE g.nn g.N (forceL1 W c d Ha) e a) ∧ s'.H1 = s.H1 ∧ s'.H1a = s.H1a := by
  obtain ⟨nd0, cf0, hp0, f4⟩ := hd.prod
  obtain ⟨M0a, u1, u2, u3⟩ := reverseH1_spec V (LM := W.LM) rfl hw.H1w hd.M0r hH hs.M0a
  obtain ⟨A0a, M0p, v1, v2, v3, v4⟩ := reverseM0_spec V hg.types hg.typ_lt hp0 hd.A0r hs.A0a u3 f4 hs.M0p
  replace v3 : G3 A0a g.N W.M W.C (A0adj W c Ha) := v3
  obtain ⟨fo3, A0a', w1, w2, w3, w4⟩ := hd.scaled v2 v3 hF
  obtain ⟨fo4, x1, x2⟩ := reverseA0_spec V (C := W.C) (lmax := W.lmax) rfl hg hd.R0 hd.R0d hd.Y hd.Yg w4 w2
  unfold firstLayerBack
  rw [hw.C, hw.M, hw.LM, hw.Lmax]
  refine ⟨_, (bind_of_some u1 _).trans <| (bind_of_some v1 _).trans <| (bind_of_some w1 _).trans <| (bind_of_some x1 _).trans <| rfl, ?_, rfl, ?_,
    rfl, rfl⟩
  · have z : ∀ {m : ℕ}, 0 ≤ m := Nat.zero_le _
    exact { hs with A0a := w3.mono z, M0a := u2.mono z, M0p := fun lm hlm => (v4 lm hlm).mono z }
  · refine All.congr x2 (fun p => ?_)
    dsimp only
    rw [show (W.lmax + 1) * (W.lmax + 1) = W.M from rfl, fold_force]
    unfold forceL1
    rw [onE_add, ← add_assoc]

end params

end Verif.Kokkos
