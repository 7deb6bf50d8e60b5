import Verif.Lemmas.MACE.Eval
import Mathlib.Analysis.SpecialFunctions.Sqrt
import Mathlib.Analysis.Calculus.Deriv.Comp

/-! # The forces are minus the gradient of the summed energies -/

namespace Verif.Spec

/-- `dsph` is the gradient of the harmonics `sph` (away from the origin), for the first `M` of them. -/
def IsSphGrad (sph : ℝ → ℝ → ℝ → ℕ → ℝ) (dsph : ℝ → ℝ → ℝ → ℕ → ℕ → ℝ) (M : ℕ) : Prop :=
  ∀ x y z u v w : ℝ, ∀ lm < M, ¬ (x = 0 ∧ y = 0 ∧ z = 0) →
    HasDerivAt (fun τ => sph (x + τ * u) (y + τ * v) (z + τ * w) lm)
      (dsph x y z 0 lm * u + dsph x y z 1 lm * v + dsph x y z 2 lm * w) 0

end Verif.Spec

namespace Verif.MACE
open Verif.Spec Verif.Spline

variable {f : File} {T : Sys} {X : ℕ → ℕ → ℝ} {NH : ℕ} {sph : ℝ → ℝ → ℝ → ℕ → ℝ} {dsph : ℝ → ℝ → ℝ → ℕ → ℕ → ℝ}
  {P : Params ℝ}

theorem sum_range_edges (N : ℕ) (nn : List ℕ) (g : ℕ → ℝ) :
    ∑ e ∈ Finset.range (off nn N), g e = ∑ i ∈ Finset.range N, ∑ e ∈ edges nn i, g e := by
  induction N with
  | zero => simp [off]
  | succ N ih =>
    rw [Finset.sum_range_succ, ← ih]
    unfold edges
    rw [Finset.range_eq_Ico, Finset.range_eq_Ico]
    exact (Finset.sum_Ico_consecutive g (Nat.zero_le _) (off_mono nn (Nat.le_succ N))).symm

theorem len_hasDerivAt (x d : ℕ → ℝ) (h : 0 < len x) :
    HasDerivAt (fun τ : ℝ => len (fun a => x a + τ * d a)) ((∑ a ∈ Finset.range 3, x a * d a) / len x) 0 := by
  unfold len at h ⊢
  have h2 : HasDerivAt (fun τ : ℝ => ∑ a ∈ Finset.range 3, (x a + τ * d a) ^ 2) (∑ a ∈ Finset.range 3, 2 * (x a * d a)) 0 := by
    refine HasDerivAt.fun_sum (fun a _ => ?_)
    have h3 : HasDerivAt (fun τ : ℝ => x a + τ * d a) (d a) 0 := by
      simpa using ((hasDerivAt_id (0 : ℝ)).mul_const (d a)).const_add (x a)
    have := h3.pow 2
    refine this.congr_deriv ?_
    simp; ring
  have hne : (∑ a ∈ Finset.range 3, (x a + 0 * d a) ^ 2) ≠ 0 := by
    simp only [zero_mul, add_zero]
    exact (Real.sqrt_pos.mp h).ne'
  have h3 := h2.sqrt hne
  refine h3.congr_deriv ?_
  simp only [zero_mul, add_zero]
  rw [← Finset.mul_sum]
  field_simp

theorem len_ne (x : ℕ → ℝ) (h : 0 < len x) : ¬ (x 2 = 0 ∧ x 0 = 0 ∧ x 1 = 0) := by
  rintro ⟨h1, h2, h3⟩
  unfold len at h
  simp [Finset.sum_range_succ, h1, h2, h3] at h

/-- Tangents of the edge features in direction `D`. -/
noncomputable def tanOf (f : File) (dsph : ℝ → ℝ → ℝ → ℕ → ℕ → ℝ) (T : Sys) (X D : ℕ → ℕ → ℝ) : Tan ℝ where
  R0 e l k := (dconfOf f dsph T X).dR0 e l k * ((∑ a ∈ Finset.range 3, X e a * D e a) / len (X e))
  R1 e l k := (dconfOf f dsph T X).dR1 e l k * ((∑ a ∈ Finset.range 3, X e a * D e a) / len (X e))
  Y e lm := ∑ a ∈ Finset.range 3, (dconfOf f dsph T X).dY e a lm * D e a
  s0 i := ∑ e ∈ T.edg i, (dconfOf f dsph T X).ds0 e * ((∑ a ∈ Finset.range 3, X e a * D e a) / len (X e))
  s1 i := ∑ e ∈ T.edg i, (dconfOf f dsph T X).ds1 e * ((∑ a ∈ Finset.range 3, X e a * D e a) / len (X e))

theorem comp_len {φ : ℝ → ℝ} {φ' : ℝ} {x d : ℕ → ℝ} (h : 0 < len x) (hφ : HasDerivAt φ φ' (len x)) :
    HasDerivAt (fun τ : ℝ => φ (len (fun a => x a + τ * d a))) (φ' * ((∑ a ∈ Finset.range 3, x a * d a) / len x)) 0 := by
  have e : len (fun a => x a + 0 * d a) = len x := by simp
  exact HasDerivAt.comp (h₂ := φ) (0 : ℝ) (by rw [e]; exact hφ) (len_hasDerivAt x d h)

theorem curve_ok (hf : FileOk f) (hT : SysIn f T NH) (hX : Inside f T X)
    (hsph : IsSphGrad sph dsph ((f.lmax + 1) * (f.lmax + 1)))
    (hn0 : ∀ i < T.N, (confOf f sph T X).s0 i ≠ 0) (hn1 : ∀ i < T.N, (confOf f sph T X).s1 i ≠ 0) (D : ℕ → ℕ → ℝ) :
    CurveOk (netOf f) (fun τ => confOf f sph T (fun e a => X e a + τ * D e a)) 0 (tanOf f dsph T X D) T.N f.nT
      (nthN T.types) T.edg (nthN T.idx) (nthN T.ntypes) := by
  have h0 : (fun e a => X e a + 0 * D e a) = X := by funext e a; ring
  have hlen : ∀ i < T.N, ∀ e ∈ T.edg i, 0 < len (X e) := fun i hi e he => (hX e (edg_lt hi he)).1
  refine ⟨fun _ => rfl, fun _ => rfl, fun _ => rfl, fun _ => rfl, hT.typ, ?_, ?_, ?_, ?_, ?_, ?_, ?_⟩
  · intro i hi e he l hl k hk
    exact comp_len (hlen i hi e he) (hermite_hasDerivAt hf.h _ _ (hlen i hi e he))
  · intro i hi e he q hq k hk
    exact comp_len (hlen i hi e he) (hermite_hasDerivAt hf.h _ _ (hlen i hi e he))
  · intro i hi e he lm hlm
    have := (hsph (X e 2) (X e 0) (X e 1) (D e 2) (D e 0) (D e 1) lm hlm (len_ne _ (hlen i hi e he))).mul_const
      (2 * Real.sqrt Real.pi)
    refine this.congr_deriv ?_
    simp only [tanOf, dconfOf, shufIx, Finset.sum_range_succ, Finset.sum_range_zero]
    simp
    ring
  · intro i hi
    by_cases hs : f.A0scaled = true
    · simp only [confOf, if_pos hs, tanOf, dconfOf]
      refine HasDerivAt.const_add _ (HasDerivAt.fun_sum (fun e he => ?_))
      exact comp_len (hlen i hi e he) (hermite_hasDerivAt (hf.A0s hs).1 _ _ (hlen i hi e he))
    · simp only [confOf, if_neg hs, tanOf, dconfOf, zero_mul, Finset.sum_const_zero]
      exact hasDerivAt_const _ _
  · intro i hi
    by_cases hs : f.A1scaled = true
    · simp only [confOf, if_pos hs, tanOf, dconfOf]
      refine HasDerivAt.const_add _ (HasDerivAt.fun_sum (fun e he => ?_))
      exact comp_len (hlen i hi e he) (hermite_hasDerivAt (hf.A1s hs).1 _ _ (hlen i hi e he))
    · simp only [confOf, if_neg hs, tanOf, dconfOf, zero_mul, Finset.sum_const_zero]
      exact hasDerivAt_const _ _
  · rw [h0]; exact hn0
  · rw [h0]; exact hn1

theorem read2_ok (f : File) : Read2Ok (netOf f) (roGrad f) := by
  intro y y' x hy
  have := MLP.hasDerivAt_out f.ro2scale (MLP.width [f.numChannels, 16, 1])
    (MLP.entry [f.numChannels, 16, 1] [f.ro2w1, f.ro2w2]) (L := 2) (by norm_num) (fun u _ => y u) (fun _ => y') x 0
    (fun i hi => hy i hi)
  refine (this.congr_deriv ?_).congr_of_eventuallyEq (Filter.Eventually.of_forall (fun u => ?_))
  · rfl
  · dsimp only
    rw [read2_eq]
    rfl

/-- Derivative of the pair repulsion of node `i` in direction `D`. -/
noncomputable def zblTan (f : File) (T : Sys) (X D : ℕ → ℕ → ℝ) (i : ℕ) : ℝ :=
  ∑ e ∈ T.edg i, ∑ a ∈ Finset.range 3, - zblForce f T X e a * D e a

theorem pairE_hasDerivAt (hf : FileOk f) (hX : Inside f T X) (D : ℕ → ℕ → ℝ) {i : ℕ} (hi : i < T.N) :
    HasDerivAt (fun τ : ℝ => (confOf f sph T (fun e a => X e a + τ * D e a)).pairE i) (zblTan f T X D i) 0 := by
  unfold zblTan zblForce
  cases hz : f.zbl with
  | none =>
    simp only [confOf, hz]
    simpa using hasDerivAt_const (0 : ℝ) (0 : ℝ)
  | some z =>
    simp only [confOf, hz]
    refine HasDerivAt.fun_sum (fun e he => ?_)
    have hl := (hX e (edg_lt hi he)).1
    have := comp_len (d := D e) hl (ZBLModel.zblEnergy_hasDerivAt (aExp := z.aExp) (aPre := z.aPre) (fun k => nth z.c k)
      (R := nth z.rad (nthN f.atomicNumbers (nthN T.types (T.owner e))) + nth z.rad (nthN f.atomicNumbers (nthN T.ntypes e)))
      (zbl_wf hf hz).hp1 (nthN f.atomicNumbers (nthN T.types (T.owner e))) (nthN f.atomicNumbers (nthN T.ntypes e)) hl)
    refine this.congr_deriv ?_
    rw [show ZBLModel.zblGrad _ _ _ _ _ _ _ _ = zblEdgeD f T X z e from rfl]
    rw [Finset.sum_div, Finset.mul_sum]
    refine Finset.sum_congr rfl (fun a _ => ?_)
    ring

theorem total_hasDerivAt (hf : FileOk f) (hT : SysOk f T) (hX : Inside f T X)
    (hsph : IsSphGrad sph dsph ((f.lmax + 1) * (f.lmax + 1))) {s : State ℝ} (hs : StOk f s)
    (hn0 : ∀ i < T.N, (confOf f sph T X).s0 i ≠ 0) (hn1 : ∀ i < T.N, (confOf f sph T X).s1 i ≠ 0) (D : ℕ → ℕ → ℝ) :
    HasDerivAt (fun τ : ℝ => ∑ i ∈ Finset.range T.N, energy (netOf f) (confOf f sph T (fun e a => X e a + τ * D e a)) i)
      (- ∑ e ∈ Finset.range T.E, ∑ a ∈ Finset.range 3, forceOf f sph dsph T X e a * D e a) 0 := by
  have h0 : (fun e a => X e a + 0 * D e a) = X := by funext e a; ring
  have hc := curve_ok hf hT hX hsph hn0 hn1 D
  have ht : TanOk (confOf f sph T (fun e a => X e a + 0 * D e a)) (dconfOf f dsph T X) (tanOf f dsph T X D) T.N D :=
    ⟨fun _ _ _ _ _ _ => rfl, fun _ _ _ _ _ _ => rfl, fun _ _ _ _ _ => rfl, fun _ _ => rfl, fun _ _ => rfl⟩
  have := deriv_total (netOk hf) hc hs.P0 hs.P1 (fun i hi e he => hT.nbr e (edg_lt hi he)) (read2_ok f)
    (fun i hi => pairE_hasDerivAt (sph := sph) hf hX D hi) ht
  refine this.congr_deriv ?_
  rw [h0]
  have e1 : ∑ e ∈ Finset.range T.E, ∑ a ∈ Finset.range 3, forceOf f sph dsph T X e a * D e a
      = ∑ i ∈ Finset.range T.N, ∑ e ∈ T.edg i, ∑ a ∈ Finset.range 3, forceOf f sph dsph T X e a * D e a :=
    sum_range_edges T.N T.nn _
  rw [e1, ← Finset.sum_sub_distrib, ← Finset.sum_neg_distrib]
  refine Finset.sum_congr rfl (fun i hi => ?_)
  unfold zblTan
  change ∑ e ∈ T.edg i, _ - ∑ e ∈ T.edg i, _ = - ∑ e ∈ T.edg i, _
  rw [← Finset.sum_sub_distrib, ← Finset.sum_neg_distrib]
  refine Finset.sum_congr rfl (fun e he => ?_)
  rw [← Finset.sum_sub_distrib, ← Finset.sum_neg_distrib]
  refine Finset.sum_congr rfl (fun a _ => ?_)
  unfold forceOf
  rw [owner_eq (Finset.mem_range.mp hi) he]
  ring

end Verif.MACE
