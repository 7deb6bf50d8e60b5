import Verif.Lemmas.MACE.Tangent
import Verif.Lemmas.PolyEval
import Mathlib.Analysis.Calculus.Deriv.Inv

/-!
# The tangents are the derivatives

Along a curve of configurations whose edge features are differentiable, every feature of the formulas is differentiable and its
derivative is the corresponding `t…` of `Tangent.lean`.
-/

namespace Verif.MACE
open Verif.Spec Verif.Poly

/-- Index bounds of a network. -/
structure NetOk (W : Net ℝ) : Prop where
  q1 : ∀ q < W.nQ, W.q1 q < W.M
  q2 : ∀ q < W.nQ, W.q2 q < W.LM
  cgOut : ∀ p < W.nCG, W.cgOut p < W.nOut
  cgIn : ∀ p < W.nCG, W.cgIn p < W.nQ
  mono0 : ∀ LM < W.LM, ∀ m ∈ W.mono0 LM, ∀ v ∈ m, v < W.M
  mono1 : ∀ m ∈ W.mono1, ∀ v ∈ m, v < W.M

/-- A curve of configurations with fixed graph and differentiable features. -/
structure CurveOk (W : Net ℝ) (cv : ℝ → Conf ℝ) (x : ℝ) (t : Tan ℝ) (N nT : ℕ) (ty : ℕ → ℕ) (ed : ℕ → Finset ℕ)
    (nb nt : ℕ → ℕ) : Prop where
  typ : ∀ τ, (cv τ).typ = ty
  edg : ∀ τ, (cv τ).edg = ed
  nbr : ∀ τ, (cv τ).nbr = nb
  nty : ∀ τ, (cv τ).nty = nt
  ty_lt : ∀ i < N, ty i < nT
  R0 : ∀ i < N, ∀ e ∈ ed i, ∀ l < W.lmax + 1, ∀ k < W.C, HasDerivAt (fun τ => (cv τ).R0 e l k) (t.R0 e l k) x
  R1 : ∀ i < N, ∀ e ∈ ed i, ∀ q < W.nQ, ∀ k < W.C, HasDerivAt (fun τ => (cv τ).R1 e (W.qp q) k) (t.R1 e (W.qp q) k) x
  Y : ∀ i < N, ∀ e ∈ ed i, ∀ lm < W.M, HasDerivAt (fun τ => (cv τ).Y e lm) (t.Y e lm) x
  s0 : ∀ i < N, HasDerivAt (fun τ => (cv τ).s0 i) (t.s0 i) x
  s1 : ∀ i < N, HasDerivAt (fun τ => (cv τ).s1 i) (t.s1 i) x
  n0 : ∀ i < N, (cv x).s0 i ≠ 0
  n1 : ∀ i < N, (cv x).s1 i ≠ 0

variable {W : Net ℝ} {cv : ℝ → Conf ℝ} {x : ℝ} {t : Tan ℝ} {N nT : ℕ} {ty : ℕ → ℕ} {ed : ℕ → Finset ℕ} {nb nt : ℕ → ℕ}

theorem sqrt_lt_of {L lm : ℕ} (h : lm < (L + 1) * (L + 1)) : Nat.sqrt lm < L + 1 := Nat.sqrt_lt.mpr h

theorem hasDerivAt_scaled {a s : ℝ → ℝ} {a' s' x : ℝ} (ha : HasDerivAt a a' x) (hs : HasDerivAt s s' x) (h : s x ≠ 0) :
    HasDerivAt (fun τ => a τ / s τ) ((a' - a x / s x * s') / s x) x := by
  have := ha.div hs h
  refine this.congr_deriv ?_
  field_simp

theorem deriv_a0s (h : CurveOk W cv x t N nT ty ed nb nt) {i lm k : ℕ} (hi : i < N) (hlm : lm < W.M) (hk : k < W.C) :
    HasDerivAt (fun τ => a0s W (cv τ) i lm k) (ta0s W (cv x) t i lm k) x := by
  unfold a0s ta0s
  refine hasDerivAt_scaled ?_ (h.s0 i hi) (h.n0 i hi)
  unfold a0 ta0
  refine HasDerivAt.fun_sum (fun k' hk' => ?_)
  have hk' := Finset.mem_range.mp hk'
  simp only [h.typ]
  refine HasDerivAt.mul_const ?_ _
  unfold phi0 tphi0
  simp only [h.edg, h.nty]
  refine HasDerivAt.fun_sum (fun e he => ?_)
  refine HasDerivAt.mul_const ?_ _
  exact (h.R0 i hi e he _ (sqrt_lt_of hlm) k' hk').mul (h.Y i hi e he lm hlm)

theorem deriv_poly {M : ℕ} {co : List ℝ} {mo : List (List ℕ)} {p : Poly ℝ} (hp : PolyIs M co mo p)
    (hm : ∀ m ∈ mo, ∀ v ∈ m, v < M) {f : ℝ → ℕ → ℝ} {d : ℕ → ℝ} (hf : ∀ v < M, HasDerivAt (fun τ => f τ v) (d v) x) :
    HasDerivAt (fun τ => polynomial co mo (f τ)) (∑ v ∈ Finset.range M, polyGrad co mo (f x) v * d v) x := by
  rw [hp.pairing]
  exact hasDerivAt_polynomial co mo (fun m hmm v hv => hf v (hm m hmm v hv))

theorem P0Ok.get {P0 : List (Poly ℝ)} (hP : P0Ok W nT P0) {T LM k : ℕ} (hT : T < nT) (hLM : LM < W.LM) (hk : k < W.C) :
    ∃ p, PolyIs W.M (W.coef0 T LM k) (W.mono0 LM) p := by
  obtain ⟨p, _, hp⟩ := hP ((T * W.LM + LM) * W.C + k) (flat3_lt hT hLM hk)
  unfold P0At at hp
  rw [flat_div hk, flat_mod hk, flat_div hLM, flat_mod hLM] at hp
  exact ⟨p, hp⟩

theorem P1Ok.get {P1 : List (Poly ℝ)} (hP : P1Ok W nT P1) {T k : ℕ} (hT : T < nT) (hk : k < W.C) :
    ∃ p, PolyIs W.M (W.coef1 T k) W.mono1 p := by
  obtain ⟨p, _, hp⟩ := hP (T * W.C + k) (flat_lt hT hk)
  unfold P1At at hp
  rw [flat_div hk, flat_mod hk] at hp
  exact ⟨p, hp⟩

theorem deriv_h1 (hw : NetOk W) (h : CurveOk W cv x t N nT ty ed nb nt) {P0 : List (Poly ℝ)} (hP : P0Ok W nT P0)
    {i LM k : ℕ} (hi : i < N) (hLM : LM < W.LM) (hk : k < W.C) :
    HasDerivAt (fun τ => h1 W (cv τ) i LM k) (th1 W (cv x) t i LM k) x := by
  unfold h1 th1
  refine HasDerivAt.fun_sum (fun k' hk' => ?_)
  have hk' := Finset.mem_range.mp hk'
  refine HasDerivAt.mul_const ?_ _
  obtain ⟨p, hp⟩ := hP.get (h.ty_lt i hi) hLM hk'
  unfold m0 tm0 g0
  simp only [h.typ]
  exact deriv_poly hp (hw.mono0 LM hLM) (fun v hv => deriv_a0s h hi hv hk')

variable {H : ℝ → ℕ → ℕ → ℕ → ℝ} {H' : ℕ → ℕ → ℕ → ℝ} {NH : ℕ}

theorem deriv_phi1r (hw : NetOk W) (h : CurveOk W cv x t N nT ty ed nb nt) (hn : ∀ i < N, ∀ e ∈ ed i, nb e < NH)
    (hH : ∀ v < NH, ∀ LM < W.LM, ∀ k < W.C, HasDerivAt (fun τ => H τ v LM k) (H' v LM k) x)
    {i q k : ℕ} (hi : i < N) (hq : q < W.nQ) (hk : k < W.C) :
    HasDerivAt (fun τ => phi1r W (cv τ) (H τ) i q k) (tphi1r W (cv x) t (H x) H' i q k) x := by
  unfold phi1r tphi1r
  simp only [h.edg, h.nbr]
  refine HasDerivAt.fun_sum (fun e he => ?_)
  exact ((h.R1 i hi e he q hq k hk).mul (h.Y i hi e he _ (hw.q1 q hq))).mul (hH _ (hn i hi e he) _ (hw.q2 q hq) k hk)

theorem deriv_a1s (hw : NetOk W) (h : CurveOk W cv x t N nT ty ed nb nt) (hn : ∀ i < N, ∀ e ∈ ed i, nb e < NH)
    (hH : ∀ v < NH, ∀ LM < W.LM, ∀ k < W.C, HasDerivAt (fun τ => H τ v LM k) (H' v LM k) x)
    {i lm k : ℕ} (hi : i < N) :
    HasDerivAt (fun τ => a1s W (cv τ) (H τ) i lm k) (ta1s W (cv x) t (H x) H' i lm k) x := by
  unfold a1s ta1s
  refine hasDerivAt_scaled ?_ (h.s1 i hi) (h.n1 i hi)
  unfold a1 ta1
  refine HasDerivAt.fun_sum (fun e _ => HasDerivAt.fun_sum (fun k' hk' => HasDerivAt.mul_const ?_ _))
  have hk' := Finset.mem_range.mp hk'
  unfold phi1 tphi1
  refine HasDerivAt.fun_sum (fun p hp => ?_)
  have hp := Finset.mem_range.mp hp
  split_ifs
  · exact (deriv_phi1r hw h hn hH hi (hw.cgIn p hp) hk').const_mul _
  · exact hasDerivAt_const _ _

/-- `read2` has gradient `G` (on the first `C` entries). -/
def Read2Ok (W : Net ℝ) (G : (ℕ → ℝ) → ℕ → ℝ) : Prop :=
  ∀ (y : ℝ → ℕ → ℝ) (y' : ℕ → ℝ) (x : ℝ), (∀ k < W.C, HasDerivAt (fun τ => y τ k) (y' k) x) →
    HasDerivAt (fun τ => W.read2 (y τ)) (∑ k ∈ Finset.range W.C, G (y x) k * y' k) x

/-- Derivative of the node energy without the pair-repulsion term. -/
theorem deriv_nodeE (hw : NetOk W) (h : CurveOk W cv x t N nT ty ed nb nt) {P1 : List (Poly ℝ)} (hP : P1Ok W nT P1)
    (hN : N ≤ NH) (hn : ∀ i < N, ∀ e ∈ ed i, nb e < NH)
    (hH : ∀ v < NH, ∀ LM < W.LM, ∀ k < W.C, HasDerivAt (fun τ => H τ v LM k) (H' v LM k) x)
    {G : (ℕ → ℝ) → ℕ → ℝ} (hG : Read2Ok W G) {z : ℕ → ℝ} (hz : ∀ i < N, HasDerivAt (fun τ => (cv τ).pairE i) (z i) x)
    {i : ℕ} (hi : i < N) :
    HasDerivAt (fun τ => nodeE W (cv τ) (H τ) i) (z i + tE W (cv x) t (H x) H' G i) x := by
  unfold nodeE tE
  have hL : 0 < W.LM := LM_pos W
  have hH0 : ∀ k < W.C, HasDerivAt (fun τ => H τ i 0 k) (H' i 0 k) x := fun k hk => hH i (by omega) 0 hL k hk
  simp only [h.typ]
  rw [← add_assoc]
  refine HasDerivAt.add (HasDerivAt.add ((hz i hi).add_const _) ?_) ?_
  · exact HasDerivAt.fun_sum (fun k hk => (hH0 k (Finset.mem_range.mp hk)).const_mul _)
  · refine hG (fun τ => h2 W (cv τ) (H τ) i) (th2 W (cv x) t (H x) H' i) x (fun k _ => ?_)
    unfold h2 th2
    simp only [h.typ]
    refine HasDerivAt.add (HasDerivAt.fun_sum (fun k' hk' => (hH0 k' (Finset.mem_range.mp hk')).mul_const _)) ?_
    refine HasDerivAt.fun_sum (fun k' hk' => HasDerivAt.mul_const ?_ _)
    have hk' := Finset.mem_range.mp hk'
    obtain ⟨p, hp⟩ := hP.get (h.ty_lt i hi) hk'
    unfold m1 tm1 g1
    simp only [h.typ]
    exact deriv_poly hp hw.mono1 (fun v _ => deriv_a1s hw h hn hH hi)

/-- **Derivative of the total energy**: minus the pairing of the direction with the forces of the reverse pass. -/
theorem deriv_total (hw : NetOk W) (h : CurveOk W cv x t N nT ty ed nb nt) {P0 P1 : List (Poly ℝ)} (hP0 : P0Ok W nT P0)
    (hP1 : P1Ok W nT P1) (hn : ∀ i < N, ∀ e ∈ ed i, nb e < N)
    {G : (ℕ → ℝ) → ℕ → ℝ} (hG : Read2Ok W G) {z : ℕ → ℝ} (hz : ∀ i < N, HasDerivAt (fun τ => (cv τ).pairE i) (z i) x)
    {d : DConf ℝ} {D : ℕ → ℕ → ℝ} (ht : TanOk (cv x) d t N D) :
    HasDerivAt (fun τ => ∑ i ∈ Finset.range N, energy W (cv τ) i)
      ((∑ i ∈ Finset.range N, z i) - ∑ i ∈ Finset.range N, ∑ e ∈ (cv x).edg i, ∑ a ∈ Finset.range 3,
        (forceL2 W (cv x) d (h1 W (cv x)) G i e a
          + forceL1 W (cv x) d (H1adj W (cv x) N (h1 W (cv x)) G) i e a) * D e a) x := by
  have hH : ∀ v < N, ∀ LM < W.LM, ∀ k < W.C, HasDerivAt (fun τ => h1 W (cv τ) v LM k) (th1 W (cv x) t v LM k) x :=
    fun v hv LM hLM k hk => deriv_h1 hw h hP0 hv hLM hk
  have key : HasDerivAt (fun τ => ∑ i ∈ Finset.range N, energy W (cv τ) i)
      (∑ i ∈ Finset.range N, (z i + tE W (cv x) t (h1 W (cv x)) (th1 W (cv x) t) G i)) x :=
    HasDerivAt.fun_sum (fun i hi =>
      deriv_nodeE (H := fun τ => h1 W (cv τ)) hw h hP1 (le_refl N) hn hH hG hz (Finset.mem_range.mp hi))
  refine key.congr_deriv ?_
  rw [Finset.sum_add_distrib, pair2 ht (le_refl N) (LM_pos W)
    (fun i hi e he => by rw [h.nbr]; rw [h.edg] at he; exact hn i hi e he) hw.q2 hw.cgOut hw.cgIn (h1 W (cv x)) (th1 W (cv x) t) G]
  rw [Finset.sum_congr rfl (fun i hi => pair1 (W := W) ht (H1adj W (cv x) N (h1 W (cv x)) G) (Finset.mem_range.mp hi))]
  simp only [add_mul, Finset.sum_add_distrib, Finset.sum_neg_distrib]
  ring

end Verif.MACE
