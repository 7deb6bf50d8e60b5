import Verif.Lemmas.MACE.Local
import Verif.Model.Lammps

/-! # Evaluations in which only the first nodes have energies -/

namespace Verif.MACE
open Verif.Spec Verif.Spline

section restrict
variable {K : Type} [Field K] {g : Graph K} {nT NH : ℕ} {c : Conf K} {n : ℕ → ℕ} {X : ℕ → ℕ → K} {R : ℕ → K}

theorem GOk.restrict (hg : GOk g nT NH c n X R) {N NH' : ℕ} (hN : N ≤ g.N) (hn : ∀ e < off g.nn N, c.nbr e < NH') :
    GOk { g with N := N } nT NH' c n X R := by
  have hE : off g.nn N ≤ g.E := off_mono g.nn hN
  exact ⟨fun i hi => hg.types i (lt_of_lt_of_le hi hN), fun i hi => hg.typ_lt i (lt_of_lt_of_le hi hN),
    fun i hi => hg.nn i (lt_of_lt_of_le hi hN), fun i hi => hg.edg i (lt_of_lt_of_le hi hN),
    fun e he => hg.idx e (lt_of_lt_of_le he hE), hn, fun e he => hg.ntypes e (lt_of_lt_of_le he hE),
    fun e he => hg.nty_lt e (lt_of_lt_of_le he hE), hE.trans hg.le, hg.xyz, hg.r⟩

end restrict

section restrict
variable {P : Params ℝ} {W : Net ℝ} {g : Graph ℝ} {nP : ℕ} {c : Conf ℝ} {d : DConf ℝ}

theorem ScOk.restrict {flag : Bool} {nE : ℕ} {spl : List (CubicSpline ℝ)} {R sc dv : ℕ → ℝ} (h : ScOk flag nE spl g c R sc dv)
    {N : ℕ} (hN : N ≤ g.N) : ScOk flag nE spl { g with N := N } c R sc dv := by
  rcases h with ⟨h1, v, h2, h3⟩ | ⟨h1, h2, h3⟩
  · exact Or.inl ⟨h1, v, fun i hi => h2 i (lt_of_lt_of_le hi hN), fun i hi => h3 i (lt_of_lt_of_le hi hN)⟩
  · exact Or.inr ⟨h1, fun i hi => h2 i (lt_of_lt_of_le hi hN), h3⟩

theorem FeatOk.restrict (h : FeatOk P W g nP c d) {N : ℕ} (hN : N ≤ g.N) : FeatOk P W { g with N := N } nP c d :=
  ⟨h.y, h.dy, h.n0, fun i hi => h.r0 i (lt_of_lt_of_le hi hN), fun i hi => h.r1 i (lt_of_lt_of_le hi hN), h.s0.restrict hN,
    h.s1.restrict hN⟩

end restrict

variable {f : File} {T : Sys} {X : ℕ → ℕ → ℝ} {NH nl : ℕ} {sph : ℝ → ℝ → ℝ → ℕ → ℝ} {dsph : ℝ → ℝ → ℝ → ℕ → ℕ → ℝ}
  {P : Params ℝ}

/-- The first `nl` nodes. -/
def cut (T : Sys) (nl : ℕ) : Sys := { T with N := nl }

theorem cut_E_le (h : nl ≤ T.N) : (cut T nl).E ≤ T.E := off_mono T.nn h

theorem owner_cut (h : nl ≤ T.N) {i e : ℕ} (hi : i < nl) (he : e ∈ T.edg i) : (cut T nl).owner e = T.owner e := by
  rw [owner_eq (T := cut T nl) hi he, owner_eq (T := T) (lt_of_lt_of_le hi h) he]

theorem cut_in (hT : SysIn f T NH) (h : nl ≤ T.N) : SysIn f (cut T nl) NH := by
  have hE := cut_E_le h
  exact ⟨h.trans hT.types, fun i hi => hT.typ i (lt_of_lt_of_le hi h), h.trans hT.nn, hE.trans hT.idx,
    fun e he => hT.nbr e (lt_of_lt_of_le he hE), hE.trans hT.ntypes, fun e he => hT.nty e (lt_of_lt_of_le he hE)⟩

theorem pairE_cut (h : nl ≤ T.N) {i : ℕ} (hi : i < nl) : (confOf f sph (cut T nl) X).pairE i = (confOf f sph T X).pairE i := by
  simp only [confOf]
  split
  · refine Finset.sum_congr rfl (fun e he => ?_)
    unfold zblEdge
    rw [owner_cut h hi he]
    rfl
  · rfl

theorem mem_owner {e : ℕ} (he : e < T.E) : T.owner e < T.N ∧ e ∈ T.edg (T.owner e) := owner_spec he

theorem zblForce_cut (h : nl ≤ T.N) {e : ℕ} (he : e < (cut T nl).E) (a : ℕ) : zblForce f (cut T nl) X e a = zblForce f T X e a := by
  obtain ⟨h1, h2⟩ := owner_spec he
  have : T.owner e = (cut T nl).owner e := (owner_cut h h1 h2).symm
  unfold zblForce
  split
  · unfold zblEdgeD
    rw [this]
    rfl
  · rfl

theorem startMace_spec (hf : FileOk f) (hT : SysIn f T NH) (hP : Loaded f sph dsph P) (h : nl ≤ T.N) (s : State ℝ) :
    Lammps.startMace f.zbl P { T.graph X with N := nl } s = some { s with
      nodeEnergies := tab nl (confOf f sph T X).pairE
      nodeForces := tab2 T.E 3 (fun e a => if e < off T.nn nl then zblForce f T X e a else 0) } := by
  obtain ⟨st, h1, h2, h3⟩ := zblStart_spec (X := X) hf (cut_in hT h) hP (cut_E_le h)
  have e1 : Lammps.startMace f.zbl P { T.graph X with N := nl } s
      = (zblStart f.zbl P (gx (cut T nl) T.E X)).bind (fun st => some { s with nodeEnergies := st false, nodeForces := st true }) := by
    unfold Lammps.startMace zblStart
    cases f.zbl <;> rfl
  rw [e1, h1, Option.bind_some, h2, h3]
  have e2 : tab (cut T nl).N (confOf f sph (cut T nl) X).pairE = tab nl (confOf f sph T X).pairE :=
    tab_congr (fun i hi => pairE_cut h hi)
  have e3 : tab2 T.E 3 (fun e a => if e < (cut T nl).E then zblForce f (cut T nl) X e a else 0)
      = tab2 T.E 3 (fun e a => if e < off T.nn nl then zblForce f T X e a else 0) := by
    refine tab2_congr (fun e _ a _ => ?_)
    by_cases he : e < (cut T nl).E
    · rw [if_pos he, zblForce_cut h he, if_pos (show e < off T.nn nl from he)]
    · rw [if_neg he, if_neg (show ¬ e < off T.nn nl from he)]
  rw [e2, e3]

/-- Force on edge `e` when the first `nl` nodes have energies, from first-layer features `H` and their adjoints `Ha`. -/
noncomputable def forcePart (f : File) (sph : ℝ → ℝ → ℝ → ℕ → ℝ) (dsph : ℝ → ℝ → ℝ → ℕ → ℕ → ℝ) (T : Sys) (X : ℕ → ℕ → ℝ)
    (nl : ℕ) (H Ha : ℕ → ℕ → ℕ → ℝ) (e a : ℕ) : ℝ :=
  (if T.owner e < nl then zblForce f T X e a + forceL2 (netOf f) (confOf f sph T X) (dconfOf f dsph T X) H (roGrad f) (T.owner e) e a
    else 0) + forceL1 (netOf f) (confOf f sph T X) (dconfOf f dsph T X) Ha (T.owner e) e a

theorem lt_off_iff (hE : nl ≤ T.N) {e : ℕ} (he : e < T.E) : e < off T.nn nl ↔ T.owner e < nl := by
  obtain ⟨h1, h2⟩ := owner_spec he
  constructor
  · intro h
    obtain ⟨k1, k2⟩ := owner_spec (T := cut T nl) h
    rwa [← owner_cut hE k1 k2]
  · intro h
    exact edg_lt (T := cut T nl) h h2

theorem own_cut (hE : nl ≤ T.N) {e : ℕ} (he : e < off T.nn nl) : own T.nn nl e = T.owner e := by
  obtain ⟨k1, k2⟩ := owner_spec (T := cut T nl) he
  rw [← owner_cut hE k1 k2]
  exact own_owner (T := cut T nl) he

theorem part_forces (h : nl ≤ T.N) {H Ha : ℕ → ℕ → ℕ → ℝ} :
    tab2 T.E 3 (fun e a => (if e < off T.nn nl then zblForce f T X e a else 0)
      + onE T.nn nl (forceL2 (netOf f) (confOf f sph T X) (dconfOf f dsph T X) H (roGrad f)) e a
      + onE T.nn T.N (forceL1 (netOf f) (confOf f sph T X) (dconfOf f dsph T X) Ha) e a)
      = tab2 T.E 3 (forcePart f sph dsph T X nl H Ha) := by
  refine tab2_congr (fun e he a _ => ?_)
  unfold forcePart onE
  rw [if_pos (show e < off T.nn T.N from he), own_cut le_rfl (show e < off T.nn T.N from he)]
  by_cases h1 : e < off T.nn nl
  · rw [if_pos h1, if_pos h1, if_pos ((lt_off_iff h he).mp h1), own_cut h h1]
  · rw [if_neg h1, if_neg h1, if_neg (fun h2 => h1 ((lt_off_iff h he).mpr h2))]
    ring

/-! ## Derivatives -/

theorem CurveOk.restrict {W : Net ℝ} {cv : ℝ → Conf ℝ} {x : ℝ} {t : Tan ℝ} {N N' nT : ℕ} {ty : ℕ → ℕ} {ed : ℕ → Finset ℕ}
    {nb nt : ℕ → ℕ} (h : CurveOk W cv x t N nT ty ed nb nt) (hN : N' ≤ N) : CurveOk W cv x t N' nT ty ed nb nt :=
  ⟨h.typ, h.edg, h.nbr, h.nty, fun i hi => h.ty_lt i (by omega), fun i hi => h.R0 i (by omega), fun i hi => h.R1 i (by omega),
    fun i hi => h.Y i (by omega), fun i hi => h.s0 i (by omega), fun i hi => h.s1 i (by omega), fun i hi => h.n0 i (by omega),
    fun i hi => h.n1 i (by omega)⟩

theorem tan_ok {D : ℕ → ℕ → ℝ} (N : ℕ) : TanOk (confOf f sph T X) (dconfOf f dsph T X) (tanOf f dsph T X D) N D :=
  ⟨fun _ _ _ _ _ _ => rfl, fun _ _ _ _ _ _ => rfl, fun _ _ _ _ _ => rfl, fun _ _ => rfl, fun _ _ => rfl⟩

/-- Derivative of the first-layer features along direction `D`. -/
noncomputable def tanH1 (f : File) (sph : ℝ → ℝ → ℝ → ℕ → ℝ) (dsph : ℝ → ℝ → ℝ → ℕ → ℕ → ℝ) (T : Sys) (X D : ℕ → ℕ → ℝ) : ℕ → ℕ → ℕ → ℝ :=
  th1 (netOf f) (confOf f sph T X) (tanOf f dsph T X D)

theorem h1_hasDerivAt (hf : FileOk f) (hT : SysIn f T NH) (hX : Inside f T X)
    (hsph : IsSphGrad sph dsph ((f.lmax + 1) * (f.lmax + 1))) {s : State ℝ} (hs : StOk f s)
    (hn0 : ∀ i < T.N, (confOf f sph T X).s0 i ≠ 0) (hn1 : ∀ i < T.N, (confOf f sph T X).s1 i ≠ 0) (D : ℕ → ℕ → ℝ)
    {i LM k : ℕ} (hi : i < T.N) (hLM : LM < (netOf f).LM) (hk : k < (netOf f).C) :
    HasDerivAt (fun τ : ℝ => h1 (netOf f) (confOf f sph T (fun e a => X e a + τ * D e a)) i LM k)
      (tanH1 f sph dsph T X D i LM k) 0 := by
  have h0 : (fun e a => X e a + 0 * D e a) = X := by funext e a; ring
  have := deriv_h1 (netOk hf) (curve_ok hf hT hX hsph hn0 hn1 D) hs.P0 hi hLM hk
  rw [h0] at this
  exact this

/-- Pairing of adjoints with the derivative of the first layer. -/
theorem pair_first (D : ℕ → ℕ → ℝ) (Ha : ℕ → ℕ → ℕ → ℝ) (i : ℕ) :
    ∑ LM ∈ Finset.range (netOf f).LM, ∑ k ∈ Finset.range (netOf f).C, Ha i LM k * tanH1 f sph dsph T X D i LM k
      = -∑ e ∈ T.edg i, ∑ a ∈ Finset.range 3,
        forceL1 (netOf f) (confOf f sph T X) (dconfOf f dsph T X) Ha i e a * D e a :=
  pair1 (W := netOf f) (tan_ok (i + 1)) Ha (Nat.lt_succ_self i)

/-- Derivative of the energies of the first `nl` nodes for given first-layer features `H`. -/
theorem second_hasDerivAt (hf : FileOk f) (hT : SysIn f T NH) (hX : Inside f T X)
    (hsph : IsSphGrad sph dsph ((f.lmax + 1) * (f.lmax + 1))) {s : State ℝ} (hs : StOk f s)
    (hn0 : ∀ i < T.N, (confOf f sph T X).s0 i ≠ 0) (hn1 : ∀ i < T.N, (confOf f sph T X).s1 i ≠ 0) (D : ℕ → ℕ → ℝ)
    (hl : nl ≤ T.N) {NH' : ℕ} (hN : nl ≤ NH') (hn : ∀ i < nl, ∀ e ∈ T.edg i, nthN T.idx e < NH') {H : ℝ → ℕ → ℕ → ℕ → ℝ}
    {H' : ℕ → ℕ → ℕ → ℝ} (hH : ∀ v < NH', ∀ LM < (netOf f).LM, ∀ k < (netOf f).C, HasDerivAt (fun τ => H τ v LM k) (H' v LM k) 0) :
    HasDerivAt (fun τ : ℝ => ∑ i ∈ Finset.range nl, nodeE (netOf f) (confOf f sph T (fun e a => X e a + τ * D e a)) (H τ) i)
      ((∑ v ∈ Finset.range NH', ∑ LM ∈ Finset.range (netOf f).LM, ∑ k ∈ Finset.range (netOf f).C,
          H1adj (netOf f) (confOf f sph T X) nl (H 0) (roGrad f) v LM k * H' v LM k)
        - ∑ i ∈ Finset.range nl, ∑ e ∈ T.edg i, ∑ a ∈ Finset.range 3, (zblForce f T X e a
          + forceL2 (netOf f) (confOf f sph T X) (dconfOf f dsph T X) (H 0) (roGrad f) i e a) * D e a) 0 := by
  have h0 : (fun e a => X e a + 0 * D e a) = X := by funext e a; ring
  have hc := (curve_ok hf hT hX hsph hn0 hn1 D).restrict hl
  have key : HasDerivAt (fun τ : ℝ => ∑ i ∈ Finset.range nl, nodeE (netOf f) (confOf f sph T (fun e a => X e a + τ * D e a)) (H τ) i)
      (∑ i ∈ Finset.range nl, (zblTan f T X D i + tE (netOf f) (confOf f sph T (fun e a => X e a + 0 * D e a)) (tanOf f dsph T X D) (H 0) H' (roGrad f) i)) 0 :=
    HasDerivAt.fun_sum (fun i hi =>
      deriv_nodeE (H := H) (netOk hf) hc hs.P1 hN hn hH (read2_ok f)
        (fun i hi => pairE_hasDerivAt (sph := sph) hf hX D (lt_of_lt_of_le hi hl)) (Finset.mem_range.mp hi))
  refine key.congr_deriv ?_
  rw [h0, Finset.sum_add_distrib, pair2 (tan_ok nl) hN (LM_pos (netOf f)) hn (netOk hf).q2 (netOk hf).cgOut (netOk hf).cgIn (H 0) H' (roGrad f)]
  unfold zblTan
  have he : (confOf f sph T X).edg = T.edg := rfl
  simp only [he, add_mul, neg_mul, Finset.sum_add_distrib, Finset.sum_neg_distrib]
  ring

/-- Sum over edges, node by node, of the forces `forcePart`. -/
theorem sum_forcePart (hl : nl ≤ T.N) (H Ha : ℕ → ℕ → ℕ → ℝ) (D : ℕ → ℕ → ℝ) :
    ∑ e ∈ Finset.range T.E, ∑ a ∈ Finset.range 3, forcePart f sph dsph T X nl H Ha e a * D e a
      = (∑ i ∈ Finset.range nl, ∑ e ∈ T.edg i, ∑ a ∈ Finset.range 3, (zblForce f T X e a
          + forceL2 (netOf f) (confOf f sph T X) (dconfOf f dsph T X) H (roGrad f) i e a) * D e a)
        + ∑ i ∈ Finset.range T.N, ∑ e ∈ T.edg i, ∑ a ∈ Finset.range 3,
          forceL1 (netOf f) (confOf f sph T X) (dconfOf f dsph T X) Ha i e a * D e a := by
  have e1 : ∀ g : ℕ → ℝ, ∑ e ∈ Finset.range T.E, g e = ∑ i ∈ Finset.range T.N, ∑ e ∈ T.edg i, g e :=
    fun g => sum_range_edges T.N T.nn g
  have e2 : ∀ g : ℕ → ℝ, ∑ i ∈ Finset.range nl, g i = ∑ i ∈ Finset.range T.N, if i < nl then g i else 0 := by
    intro g
    rw [← Finset.sum_filter]
    congr 1
    ext i
    simp only [Finset.mem_range, Finset.mem_filter]
    omega
  rw [e1, e2, ← Finset.sum_add_distrib]
  refine Finset.sum_congr rfl (fun i hi => ?_)
  have hi := Finset.mem_range.mp hi
  have : ∀ e ∈ T.edg i, ∀ a, forcePart f sph dsph T X nl H Ha e a * D e a
      = (if i < nl then (zblForce f T X e a + forceL2 (netOf f) (confOf f sph T X) (dconfOf f dsph T X) H (roGrad f) i e a) * D e a
        else 0) + forceL1 (netOf f) (confOf f sph T X) (dconfOf f dsph T X) Ha i e a * D e a := by
    intro e he a
    unfold forcePart
    rw [owner_eq hi he]
    split_ifs <;> ring
  rw [Finset.sum_congr rfl (fun e he => Finset.sum_congr rfl (fun a _ => this e he a))]
  simp only [Finset.sum_add_distrib]
  split_ifs <;> simp

end Verif.MACE
