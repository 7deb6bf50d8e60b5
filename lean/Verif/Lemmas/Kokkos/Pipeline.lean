import Verif.Lemmas.Kokkos.Products
import Verif.Lemmas.Kokkos.Linear
import Verif.Lemmas.Kokkos.Layer1
import Verif.Lemmas.Kokkos.Radial
import Verif.Lemmas.Kokkos.Readout

/-! # The stages of the Kokkos evaluator composed -/

namespace Verif.Kokkos
open Verif.Par Verif.Par.Prog Verif.MACE Verif.Spec

section params
variable {K : Type} [Field K] [LinearOrder K] [FloorRing K]

/-- The readout network computes `read2`, with gradient `G`, for every batch `x` of inputs. -/
def RoK (ex : K → K) (mlp : Percep K) (C : ℕ) (read2 : (ℕ → K) → K) (G : (ℕ → K) → ℕ → K) (L : ℕ) : Prop :=
  ∃ (n : ℕ → ℕ) (W : ℕ → ℕ → ℕ → K), PerOk mlp L n W ∧ 1 ≤ L ∧ n 0 = C ∧ n L = 1 ∧ ∀ x : ℕ → ℕ → K, ∃ H AD : ℕ → ℕ → ℕ → K,
    H 0 = x ∧ (∀ l b i, H (l + 1) b i = MLP.act ex mlp.scale (MLP.pre n W H l b i)) ∧
    (∀ l b i, AD (l + 1) b i = MLP.actD ex mlp.scale (MLP.pre n W H l b i)) ∧
    ∀ i, MLP.outF n W H L i 0 = read2 (x i) ∧ ∀ k < C, MLP.Dk n W AD L (L - 1) i k = G (x i) k

/-- The parameters contain the weights of `W` for `nT` types and `nP` paths; `G` is the gradient of the last readout. -/
structure KWOk (P : Params K) (W : Net K) (nT nP L : ℕ) (G : (ℕ → K) → ℕ → K) : Prop where
  C : P.C = W.C
  lmax : P.lmax = W.lmax
  Lmax : P.Lmax = W.Lmax
  len : P.phil.length = nP
  m0 : ∃ (nd : ℕ → ℕ → List ℕ) (cf : ℕ → ℕ → ℕ → ℕ → K), ∀ lm < W.LM, KPoly nT W.M W.C (fun t => W.coef0 t lm) (W.mono0 lm) (P.M0spec lm) (P.M0coeff lm) (nd lm) (cf lm)
  H1w : G3 P.H1w (W.Lmax + 1) W.C W.C W.lin1
  tabs : TOk P.tables P.cg W nP
  nQ : P.numLelm = W.nQ
  nOut : P.numLme = W.nOut
  block : ∀ l < W.lmax + 1, blockOf P.phil l = some (W.base l, W.nE l)
  A1w : ∀ l < W.lmax + 1, ∀ e < W.nE l, ∀ k' < W.C, ∀ k < W.C, (P.A1w l).get [e * W.C + k', k] = some (W.mix1 l e k' k)
  A1wt : ∀ l < W.lmax + 1, ∀ e < W.nE l, ∀ k' < W.C, ∀ k < W.C, (P.A1wt l).get [k, e * W.C + k'] = some (W.mix1 l e k' k)
  m1 : ∃ nd cf, KPoly nT W.M W.C W.coef1 W.mono1 P.M1spec P.M1coeff nd cf
  H2wH1 : ∀ t < nT, ∀ k' < W.C, ∀ k < W.C, P.H2wH1.get [t, k' * W.C + k] = some (W.lin2h t k' k)
  H2wM1 : ∀ k' < W.C, ∀ k < W.C, P.H2wM1[k' * W.C + k]? = some (W.lin2m k' k)
  atomE : ∀ t < nT, P.atomicEnergies[t]? = some (W.atomE t)
  ro1 : ∀ k < W.C, P.ro1[k]? = some (W.read1 k)
  ro2 : RoK P.ex P.mlp W.C W.read2 G L

variable {P : Params K} {W : Net K} {nT nP NH L : ℕ} {G : (ℕ → K) → ℕ → K} {g : Graph K} {c : Conf K} {d : DConf K} {n : ℕ → ℕ}

theorem KWOk.M (hw : KWOk P W nT nP L G) : P.M = W.M := by unfold Params.M Net.M; rw [hw.lmax]

theorem KWOk.LM (hw : KWOk P W nT nP L G) : P.LM = W.LM := by unfold Params.LM Net.LM; rw [hw.Lmax]

/-- First-layer radial functions with the embedding and the mixing of the two types folded in. -/
def fold0 (W : Net K) (c : Conf K) (nn : List ℕ) (N : ℕ) (r : ℕ → ℕ → ℕ → K) (e l k : ℕ) : K :=
  ∑ k' ∈ Finset.range W.C, r e l k' * W.emb (c.nty e) k' * W.mix0 (c.typ (own nn N e)) l k' k

/-- Density normalisation; `none` when switched off. -/
def ScK (spl : Option (RadialSet K)) (g : Graph K) (c : Conf K) (R : ℕ → K) (sc dv : ℕ → K) : Prop :=
  match spl with
  | some s => s.numFun = 1 ∧ ∃ v : ℕ → K, RadOkK s.h s.c 1 (pairIndex (uniqueTypes s.numTypes)) g c R (fun e _ => v e) (fun e _ => dv e) ∧
      ∀ i < g.N, sc i = 1 + ∑ e ∈ edges g.nn i, v e
  | none => (∀ i < g.N, sc i = 1) ∧ ∀ e, dv e = 0

/-- What the geometry-dependent inputs must satisfy. -/
structure KFeat (P : Params K) (W : Net K) (g : Graph K) (nP : ℕ) (c : Conf K) (d : DConf K) : Prop where
  r0 : RadOkK P.R0h P.R0c ((W.lmax + 1) * W.C) (fun a b => a * P.atomicNumbers.length + b) g c d.R
    (fun e p => fold0 W c g.nn g.N c.R0 e (p / W.C) (p % W.C)) (fun e p => fold0 W c g.nn g.N d.dR0 e (p / W.C) (p % W.C))
  n1 : P.radial1.numFun = nP * W.C
  r1 : RadOkK P.radial1.h P.radial1.c (nP * W.C) (pairIndex (uniqueTypes P.radial1.numTypes)) g c d.R
    (fun e p => c.R1 e (p / W.C) (p % W.C)) (fun e p => d.dR1 e (p / W.C) (p % W.C))
  y : ∀ e < g.E, ∀ lm < W.M, c.Y e lm = P.sph (d.X e 2) (d.X e 0) (d.X e 1) lm * P.nrm
  dy : ∀ e < g.E, ∀ a < 3, ∀ lm < W.M, d.dY e a lm = P.dsph (d.X e 2) (d.X e 0) (d.X e 1) (shufIx a) lm * P.nrm
  s0 : ScK P.A0spl g c d.R c.s0 d.ds0
  s1 : ScK P.A1spl g c d.R c.s1 d.ds1

/-- Shapes of the work views between calls. -/
structure KSt (P : Params K) (W : Net K) (nP L : ℕ) (s : State K) : Prop where
  R0 : Twin s.R0 s.R0d [(W.lmax + 1) * W.C] 0
  R1 : Twin s.R1 s.R1d [nP * W.C] 0
  Y : YOk s.Y s.Yg s.Ygs 0
  xs : Room s.xs [] 0
  A0 : Room s.A0 [W.M, W.C] 0
  A0a : Room s.A0a [W.M, W.C] 0
  A0s : Twin s.A0sv s.A0sd [1] 0
  M0 : Room s.M0 [W.LM, W.C] 0
  M0a : Room s.M0a [W.LM, W.C] 0
  M0v : ∀ lm < W.LM, Room (s.M0v lm) [W.M + (P.M0spec lm).extent 0, W.C] 0
  M0p : ∀ lm < W.LM, Room (s.M0p lm) [W.M + (P.M0spec lm).extent 0, W.C] 0
  H1 : Room s.H1 [W.LM, W.C] 0
  H1a : Room s.H1a [W.LM, W.C] 0
  Phi1r : Room s.Phi1r [W.nQ, W.C] 0
  dPhi1r : Room s.dPhi1r [W.nQ, W.C] 0
  Phi1 : Room s.Phi1 [W.nOut, W.C] 0
  dPhi1 : Room s.dPhi1 [W.nOut, W.C] 0
  A1 : Room s.A1 [W.M, W.C] 0
  A1a : Room s.A1a [W.M, W.C] 0
  A1s : Twin s.A1sv s.A1sd [1] 0
  M1 : Room s.M1 [W.C] 0
  M1a : Room s.M1a [W.C] 0
  M1v : Room s.M1v [W.M + P.M1spec.extent 0, W.C] 0
  M1p : Room s.M1p [W.M + P.M1spec.extent 0, W.C] 0
  H2 : M2 s.H2
  H2a : M2 s.H2a
  ro2 : Room s.ro2 [] 0
  nv : ∀ l ≤ L, M2 (s.nv l)
  nd : ∀ l ≤ L, M2 (s.nd l)

theorem gl_of {v : View K} {E A C : ℕ} {f : ℕ → ℕ → ℕ → K} (h : G2 v E (A * C) (fun e p => f e (p / C) (p % C))) : GL v E A C f := by
  intro e he l hl k hk
  rw [h e he _ (flat_lt hl hk)]
  dsimp only
  rw [flat_div hk, flat_mod hk]

/-- `RadX` for the density normalisation. -/
def ScX (spl : Option (RadialSet K)) (g : Graph K) : Prop := ∀ s, spl = some s → RadX s.h s.c 1 (pairIndex (uniqueTypes s.numTypes)) g

theorem ScX.none {spl : Option (RadialSet K)} (hE : g.Ex = g.E) : ScX spl g := fun _ _ => RadX.none hE

theorem scaledFwd_spec (V : Env K) {C M : ℕ} {spl : Option (RadialSet K)} {X : ℕ → ℕ → K} {R : ℕ → K} (hg : GOk g nT NH c n X R) (hE : ScX spl g)
    {sc dv : ℕ → K} (hs : ScK spl g c R sc dv) {sv sd A : View K} (hr : Twin sv sd [1] 0) (hA : Room A [M, C] g.N)
    {F : ℕ → ℕ → ℕ → K} (hF : G3 A g.N M C F) :
    ∃ sv' sd' A', scaledFwd V C M spl g sv sd A = some (sv', sd', A') ∧ Twin sv' sd' [1] 0 ∧ Room A' [M, C] g.N ∧
      G3 A' g.N M C (fun i lm k => F i lm k / sc i) ∧
      ∀ (d : DConf K), d.R = R → GOk g nT NH c n d.X d.R → ∀ {Aa forces : View K} {aa : ℕ → ℕ → ℕ → K} {Fo : ℕ → ℕ → K},
        Room Aa [M, C] g.N → G3 Aa g.N M C aa → Fc forces g.Ex Fo →
        ∃ f' Aa', scaledBwd V C M spl g sv' sd' A' forces Aa = some (f', Aa') ∧
          Fc f' g.Ex (fun e b => Fo e b + onE g.nn g.N (forceS M C d sc dv (fun i lm k => F i lm k / sc i) aa) e b) ∧
          Room Aa' [M, C] g.N ∧ G3 Aa' g.N M C (fun i lm k => aa i lm k / sc i) := by
  cases spl with
  | some s =>
    obtain ⟨h1, v, h2, h3⟩ := hs
    obtain ⟨sv', sd', A', k1, k2, k3, k4, k5, k6⟩ := computeScaled_spec V (C := C) (M := M) h1 hg (hE s rfl) hr h2 h3 hA
    refine ⟨sv', sd', A', k1, k2.mono (Nat.zero_le _), k5, k6 F hF, ?_⟩
    rintro d - hg' Aa forces aa Fo r1 r2 r3
    exact reverseScaled_spec V hg' k3 k4 h3 (k6 F hF) r1 r2 r3
  | none =>
    obtain ⟨h1, h2⟩ := hs
    refine ⟨sv, sd, A, rfl, hr, hA, hF.congr (fun i hi lm _ k _ => by rw [h1 i hi, div_one]), ?_⟩
    rintro d - hg' Aa forces aa Fo r1 r2 r3
    refine ⟨forces, Aa, rfl, ?_, r1, r2.congr (fun i hi lm _ k _ => by rw [h1 i hi, div_one])⟩
    refine All.congr r3 (fun p => ?_)
    simp [onE, forceS, h2]

/-! ## The folded radial functions give the same density and forces -/

theorem fold_a0 (hg : GOk g nT NH c n d.X d.R) {i lm k : ℕ} (hi : i < g.N) :
    ∑ e ∈ edges g.nn i, fold0 W c g.nn g.N c.R0 e (Nat.sqrt lm) k * c.Y e lm = a0 W c i lm k := by
  unfold a0 phi0 fold0
  rw [hg.edg i hi]
  simp only [Finset.sum_mul]
  rw [Finset.sum_comm]
  refine Finset.sum_congr rfl (fun k' _ => Finset.sum_congr rfl (fun e he => ?_))
  rw [own_eq hi he]
  ring

theorem fold_sum {r : ℕ → ℕ → ℕ → K} {A : ℕ → ℕ → ℕ → K} {i e l lm : ℕ} (ho : own g.nn g.N e = i) (hl : l = Nat.sqrt lm) :
    ∑ k ∈ Finset.range W.C, fold0 W c g.nn g.N r e l k * A i lm k
      = ∑ k ∈ Finset.range W.C, phi0a W c A i lm k * (r e l k * W.emb (c.nty e) k) := by
  unfold fold0 phi0a
  simp only [Finset.sum_mul]
  rw [Finset.sum_comm]
  refine Finset.sum_congr rfl (fun k' _ => Finset.sum_congr rfl (fun k _ => ?_))
  rw [ho, hl]
  ring

theorem fold_force {A : ℕ → ℕ → ℕ → K} {e a : ℕ} :
    onE g.nn g.N (kforce0 W.M W.C d (fold0 W c g.nn g.N c.R0) (fold0 W c g.nn g.N d.dR0) c.Y A) e a = onE g.nn g.N (force0 W c d A) e a := by
  unfold onE
  split
  · unfold kforce0 force0
    rw [← Finset.sum_neg_distrib]
    refine Finset.sum_congr rfl (fun lm _ => ?_)
    rw [fold_sum rfl rfl, fold_sum rfl rfl, Finset.sum_mul, Finset.sum_mul, Finset.sum_mul, ← Finset.sum_add_distrib, ← Finset.sum_neg_distrib]
    refine Finset.sum_congr rfl (fun k _ => ?_)
    unfold forceTerm
    ring
  · rfl

/-- Energies `e` and forces `F` before, and after the stages from the radial functions on. -/
theorem evalRest_spec (V : Env K) (hw : KWOk P W nT nP L G) (hg : GOk g nT g.N c n d.X d.R) (hE : g.Ex = g.E) (hf : KFeat P W g nP c d)
    {s : State K} (hs : KSt P W nP L s) {energies forces : View K} {e : ℕ → K} {F : ℕ → ℕ → K} (he : All energies g.N e) (hF : Fc forces g.Ex F) :
    ∃ s', evalRest V P g energies forces s = some s' ∧ KSt P W nP L s' ∧
      All s'.energies g.N (fun i => e i + if i < g.N then
        W.atomE (c.typ i) + (∑ k ∈ Finset.range W.C, W.read1 k * h1 W c i 0 k) + W.read2 (h2 W c (h1 W c) i) else 0) ∧
      Fc s'.forces g.Ex (fun e a => F e a + onE g.nn g.N (forceL2 W c d (h1 W c) G) e a
        + onE g.nn g.N (forceL1 W c d (H1adj W c g.N (h1 W c) G)) e a) := by
  have hLM : 0 < W.LM := Nat.mul_pos (Nat.succ_pos _) (Nat.succ_pos _)
  obtain ⟨R0, R0d, a1, a2, a3, a4⟩ := computeR0_spec V hg (RadX.none hE) hs.R0 hf.r0
  replace a3 := gl_of a3
  replace a4 := gl_of a4
  obtain ⟨R1, R1d, b1, b2, b3, b4⟩ := computeRadial_spec V hf.n1 hg (RadX.none hE) hs.R1 hf.r1
  replace b3 := gl_of b3
  replace b4 := gl_of b4
  obtain ⟨Y, Yg, xs, Ygs, c1, c2, c3, c4, c5⟩ := computeY_spec V (M := W.M) (num := g.E) (sph := P.sph) (dsph := P.dsph) (nrm := P.nrm)
    (hg.xyz_len.trans (by rw [hE])) (fun e he a ha => hg.xyz_get' he ha) hs.Y hs.xs
  replace c4 : GF Y g.E W.M c.Y := fun e he lm hlm => by rw [c4 e he lm hlm, hf.y e he lm hlm]
  replace c5 : GD Yg g.E W.M d.dY := fun e he a ha lm hlm => by rw [c5 e he a ha lm hlm, hf.dy e he a ha lm hlm]
  obtain ⟨A0, d1, d2, d3⟩ := computeA0_spec V (C := W.C) (lmax := W.lmax) rfl hg a3 c4 hs.A0
  replace d3 : G3 A0 g.N W.M W.C (a0 W c) := d3.congr (fun i hi lm _ k _ => (fold_a0 hg hi).symm)
  obtain ⟨sv0, sd0, A0', e1, e2, e3, e4, e5⟩ := scaledFwd_spec V hg (ScX.none hE) hf.s0 hs.A0s d2 d3
  replace e4 : G3 A0' g.N W.M W.C (a0s W c) := e4
  obtain ⟨nd0, cf0, hp0⟩ := hw.m0
  obtain ⟨M0, M0v, f1, f2, f3, f4⟩ := computeM0_spec V hg.types hg.typ_lt hp0 e4 hs.M0 hs.M0v
  replace f3 : G3 M0 g.N W.LM W.C (m0 W c) := f3
  obtain ⟨H1, g1', g2, g3⟩ := computeH1_spec V (LM := W.LM) rfl hw.H1w f2 f3 hs.H1
  replace g3 : G3 H1 g.N W.LM W.C (h1 W c) := g3
  obtain ⟨Pr, Ph, i1, i2, i3, i4, i5⟩ := computePhi1_spec V hw.tabs hg b3 c4 g3 hs.Phi1r hs.Phi1
  obtain ⟨A1, j1, j2, j3⟩ := computeA1_spec V hw.block hw.A1w i4 i5 hs.A1
  replace j3 : G3 A1 g.N W.M W.C (Spec.a1 W c (h1 W c)) := j3
  obtain ⟨sv1, sd1, A1', k1, k2, k3, k4, k5⟩ := scaledFwd_spec V hg (ScX.none hE) hf.s1 hs.A1s j2 j3
  replace k4 : G3 A1' g.N W.M W.C (a1s W c (h1 W c)) := k4
  obtain ⟨nd1, cf1, hp1⟩ := hw.m1
  obtain ⟨M1, M1v, l1, l2, l3, l4, l5⟩ := computeM1_spec V hg.types hg.typ_lt hp1 k4 hs.M1 hs.M1v
  replace l3 : G2 M1 g.N W.C (m1 W c (h1 W c)) := l3
  obtain ⟨H2, m1', m2, m3⟩ := computeH2_spec V hg.types hg.typ_lt hw.H2wH1 hw.H2wM1 hLM g3 l3 hs.H2
  replace m3 : G2 H2 g.N W.C (h2 W c (h1 W c)) := m3
  obtain ⟨nn, Wt, hper, hL, hn0, hnL, hro⟩ := hw.ro2
  obtain ⟨HH, AD, r0, r1, r2, r3⟩ := hro (h2 W c (h1 W c))
  obtain ⟨ro, n1, n2, -, n3, n4, n5, n6, n7, n8, n9, n10⟩ := computeReadouts_spec V hg.types hg.typ_lt hw.atomE hw.ro1 le_rfl hper hL hn0 hnL r1 r2 hLM
    g2 g3 m2 (by rw [r0]; exact m3) he hs.H1a hs.H2a hs.ro2 hs.nv hs.nd
  replace n7 : G2 ro.H2a g.N W.C (H2adj W c (h1 W c) G) := n7.congr (fun i _ k hk => ((r3 i).2 k hk).symm)
  obtain ⟨H1a, M1a, o1, o2, o3, o4, o5, o6⟩ := reverseH2_spec V hg.types hg.typ_lt hw.H2wH1 hw.H2wM1 le_rfl hLM n3 n4 n5 l2 hs.M1a n7
  replace o4 : G3 H1a g.N W.LM W.C (H1adj0 W c g.N (h1 W c) G) := o4.congr (fun i hi lm _ k _ => by
    unfold H1adj0; simp only [hi, true_and])
  replace o6 : G2 M1a g.N W.C (M1adj W c (h1 W c) G) := o6
  obtain ⟨A1a, M1p, p1, p2, p3, p4⟩ := reverseM1_spec V hg.types hg.typ_lt hp1 k3 hs.A1a o6 l5 hs.M1p
  replace p3 : G3 A1a g.N W.M W.C (A1adj W c (h1 W c) G) := p3
  obtain ⟨fo1, A1a', q1, q2, q3, q4⟩ := k5 d rfl hg p2 p3 hF
  obtain ⟨dP, s1, s2, s3⟩ := reverseA1_spec V hw.block hw.A1wt q4 hs.dPhi1
  obtain ⟨dPr, fo2, H1a', t1, t2, t3, t4, t5, t6⟩ := reversePhi1_spec V hw.tabs hg b3 b4 c4 c5 g3 i2 s3 hs.dPhi1r q2 o2 o3 o4
  replace t6 : G3 H1a' g.N W.LM W.C (H1adj W c g.N (h1 W c) G) := t6
  obtain ⟨M0a, u1, u2, u3⟩ := reverseH1_spec V (LM := W.LM) rfl hw.H1w f2 t6 hs.M0a
  obtain ⟨A0a, M0p, v1, v2, v3, v4⟩ := reverseM0_spec V hg.types hg.typ_lt hp0 e3 hs.A0a u3 (fun lm hlm => (f4 lm hlm).2) hs.M0p
  replace v3 : G3 A0a g.N W.M W.C (A0adj W c (H1adj W c g.N (h1 W c) G)) := v3
  obtain ⟨fo3, A0a', w1, w2, w3, w4⟩ := e5 d rfl hg v2 v3 t3
  obtain ⟨fo4, x1, x2⟩ := reverseA0_spec V (C := W.C) (lmax := W.lmax) rfl hg a3 a4 c4 c5 w4 w2
  unfold evalRest
  rw [hw.C, hw.M, hw.LM, hw.lmax, hw.Lmax, hw.nQ, hw.nOut, hw.len]
  refine ⟨_, (bind_of_some a1 _).trans <| (bind_of_some b1 _).trans <| (bind_of_some c1 _).trans <| (bind_of_some d1 _).trans <| (bind_of_some e1 _).trans <| (bind_of_some f1 _).trans <| (bind_of_some g1' _).trans <| (bind_of_some i1 _).trans <| (bind_of_some j1 _).trans <| (bind_of_some k1 _).trans <| (bind_of_some l1 _).trans <| (bind_of_some m1' _).trans <| (bind_of_some n1 _).trans <| (bind_of_some o1 _).trans <| (bind_of_some p1 _).trans <| (bind_of_some q1 _).trans <| (bind_of_some s1 _).trans <| (bind_of_some t1 _).trans <| (bind_of_some u1 _).trans <| (bind_of_some v1 _).trans <| (bind_of_some w1 _).trans <| (bind_of_some x1 _).trans <| rfl, ?_, ?_, ?_⟩
  · have z : ∀ {m : ℕ}, 0 ≤ m := Nat.zero_le _
    exact {
      R0 := a2.mono z, R1 := b2.mono z
      Y := by obtain ⟨y, -, h⟩ := c2; exact ⟨y, z, h⟩
      xs := c3.mono z, A0 := e3.mono z, A0a := w3.mono z, A0s := e2, M0 := f2.mono z, M0a := u2.mono z
      M0v := fun lm hlm => (f4 lm hlm).1.mono z, M0p := fun lm hlm => (v4 lm hlm).mono z
      H1 := g2.mono z, H1a := t4.mono z, Phi1r := i2.mono z, dPhi1r := t2.mono z, Phi1 := i4.mono z, dPhi1 := s2.mono z
      A1 := k3.mono z, A1a := q3.mono z, A1s := k2, M1 := l2.mono z, M1a := o5.mono z, M1v := l4.mono z, M1p := p4.mono z
      H2 := m2.m2, H2a := n6.m2, ro2 := n8.mono z, nv := n9, nd := n10 }
  · exact n2.congr (fun i => by rw [(r3 i).1])
  · refine All.congr x2 (fun p => ?_)
    dsimp only
    rw [show (W.lmax + 1) * (W.lmax + 1) = W.M from rfl, fold_force]
    unfold forceL2 forceL1
    rw [onE_add, onE_add, ← add_assoc, ← add_assoc]
    rfl

end params

end Verif.Kokkos
