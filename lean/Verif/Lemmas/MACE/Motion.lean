import Verif.Lemmas.MACE.EvalGrad
import Verif.Spec.Motion

/-! # Derivative of the energies along differentiable curves of bond vectors -/

namespace Verif.Spec

theorem IsSphDiff.grad {sph : ℝ → ℝ → ℝ → ℕ → ℝ} {dsph : ℝ → ℝ → ℝ → ℕ → ℕ → ℝ} {M : ℕ} (h : IsSphDiff sph dsph M) : IsSphGrad sph dsph M := by
  intro x y z u v w lm hlm hne
  have hl : ∀ a b : ℝ, HasDerivAt (fun τ : ℝ => a + τ * b) b 0 := fun a b => by
    simpa using ((hasDerivAt_id (0 : ℝ)).mul_const b).const_add a
  have := h (fun τ => x + τ * u) (fun τ => y + τ * v) (fun τ => z + τ * w) u v w 0 (hl x u) (hl y v) (hl z w)
    (by simpa using hne) lm hlm
  simpa using this

end Verif.Spec

namespace Verif.MACE
open Verif.Spec Verif.Spline

variable {f : File} {T : Sys} {sph : ℝ → ℝ → ℝ → ℕ → ℝ} {dsph : ℝ → ℝ → ℝ → ℕ → ℕ → ℝ}

theorem len_curve {V : ℝ → ℕ → ℝ} {d : ℕ → ℝ} {t : ℝ} (hd : ∀ a < 3, HasDerivAt (fun τ => V τ a) (d a) t) (h : 0 < len (V t)) :
    HasDerivAt (fun τ : ℝ => len (V τ)) ((∑ a ∈ Finset.range 3, V t a * d a) / len (V t)) t := by
  unfold len at h ⊢
  have h2 : HasDerivAt (fun τ : ℝ => ∑ a ∈ Finset.range 3, V τ a ^ 2) (∑ a ∈ Finset.range 3, 2 * (V t a * d a)) t := by
    refine HasDerivAt.fun_sum (fun a ha => ?_)
    refine ((hd a (Finset.mem_range.mp ha)).pow 2).congr_deriv ?_
    simp; ring
  refine (h2.sqrt (Real.sqrt_pos.mp h).ne').congr_deriv ?_
  rw [← Finset.mul_sum]
  field_simp

theorem comp_curve {φ : ℝ → ℝ} {φ' : ℝ} {V : ℝ → ℕ → ℝ} {d : ℕ → ℝ} {t : ℝ} (hd : ∀ a < 3, HasDerivAt (fun τ => V τ a) (d a) t)
    (h : 0 < len (V t)) (hφ : HasDerivAt φ φ' (len (V t))) :
    HasDerivAt (fun τ : ℝ => φ (len (V τ))) (φ' * ((∑ a ∈ Finset.range 3, V t a * d a) / len (V t))) t :=
  HasDerivAt.comp (h₂ := φ) t hφ (len_curve hd h)

section
variable {X : ℝ → ℕ → ℕ → ℝ} {D : ℕ → ℕ → ℝ} {t : ℝ}

theorem curve_motion (hf : FileOk f) (hT : SysOk f T) (hX : Inside f T (X t)) (hsph : IsSphDiff sph dsph ((f.lmax + 1) * (f.lmax + 1)))
    (hn0 : ∀ i < T.N, (confOf f sph T (X t)).s0 i ≠ 0) (hn1 : ∀ i < T.N, (confOf f sph T (X t)).s1 i ≠ 0)
    (hd : ∀ e < T.E, ∀ a < 3, HasDerivAt (fun τ => X τ e a) (D e a) t) :
    CurveOk (netOf f) (fun τ => confOf f sph T (X τ)) t (tanOf f dsph T (X t) D) T.N f.nT
      (nthN T.types) T.edg (nthN T.idx) (nthN T.ntypes) := by
  have hlen : ∀ i < T.N, ∀ e ∈ T.edg i, 0 < len (X t e) := fun i hi e he => (hX e (edg_lt hi he)).1
  have hde : ∀ i < T.N, ∀ e ∈ T.edg i, ∀ a < 3, HasDerivAt (fun τ => X τ e a) (D e a) t := fun i hi e he => hd e (edg_lt hi he)
  refine ⟨fun _ => rfl, fun _ => rfl, fun _ => rfl, fun _ => rfl, hT.typ, ?_, ?_, ?_, ?_, ?_, hn0, hn1⟩
  · intro i hi e he l hl k hk
    exact comp_curve (V := fun τ => X τ e) (hde i hi e he) (hlen i hi e he) (hermite_hasDerivAt hf.h _ _ (hlen i hi e he))
  · intro i hi e he q hq k hk
    exact comp_curve (V := fun τ => X τ e) (hde i hi e he) (hlen i hi e he) (hermite_hasDerivAt hf.h _ _ (hlen i hi e he))
  · intro i hi e he lm hlm
    have h3 := hde i hi e he
    have := (hsph (fun τ => X τ e 2) (fun τ => X τ e 0) (fun τ => X τ e 1) (D e 2) (D e 0) (D e 1) t (h3 2 (by omega)) (h3 0 (by omega))
      (h3 1 (by omega)) (len_ne _ (hlen i hi e he)) lm hlm).mul_const (2 * Real.sqrt Real.pi)
    refine this.congr_deriv ?_
    simp only [tanOf, dconfOf, shufIx, Finset.sum_range_succ, Finset.sum_range_zero]
    simp
    ring
  · intro i hi
    by_cases hs : f.A0scaled = true
    · simp only [confOf, if_pos hs, tanOf, dconfOf]
      refine HasDerivAt.const_add _ (HasDerivAt.fun_sum (fun e he => ?_))
      exact comp_curve (V := fun τ => X τ e) (hde i hi e he) (hlen i hi e he) (hermite_hasDerivAt (hf.A0s hs).1 _ _ (hlen i hi e he))
    · simp only [confOf, if_neg hs, tanOf, dconfOf, zero_mul, Finset.sum_const_zero]
      exact hasDerivAt_const _ _
  · intro i hi
    by_cases hs : f.A1scaled = true
    · simp only [confOf, if_pos hs, tanOf, dconfOf]
      refine HasDerivAt.const_add _ (HasDerivAt.fun_sum (fun e he => ?_))
      exact comp_curve (V := fun τ => X τ e) (hde i hi e he) (hlen i hi e he) (hermite_hasDerivAt (hf.A1s hs).1 _ _ (hlen i hi e he))
    · simp only [confOf, if_neg hs, tanOf, dconfOf, zero_mul, Finset.sum_const_zero]
      exact hasDerivAt_const _ _

theorem pairE_motion (hf : FileOk f) (hX : Inside f T (X t)) (hd : ∀ e < T.E, ∀ a < 3, HasDerivAt (fun τ => X τ e a) (D e a) t) {i : ℕ}
    (hi : i < T.N) : HasDerivAt (fun τ : ℝ => (confOf f sph T (X τ)).pairE i) (zblTan f T (X t) D i) t := by
  unfold zblTan zblForce
  cases hz : f.zbl with
  | none =>
    simp only [confOf, hz]
    simpa using hasDerivAt_const t (0 : ℝ)
  | some z =>
    simp only [confOf, hz]
    refine HasDerivAt.fun_sum (fun e he => ?_)
    have hl := (hX e (edg_lt hi he)).1
    have := comp_curve (V := fun τ => X τ e) (hd e (edg_lt hi he)) hl (ZBLModel.zblEnergy_hasDerivAt (aExp := z.aExp) (aPre := z.aPre)
      (fun k => nth z.c k)
      (R := nth z.rad (nthN f.atomicNumbers (nthN T.types (T.owner e))) + nth z.rad (nthN f.atomicNumbers (nthN T.ntypes e)))
      (zbl_wf hf hz).hp1 (nthN f.atomicNumbers (nthN T.types (T.owner e))) (nthN f.atomicNumbers (nthN T.ntypes e)) hl)
    refine this.congr_deriv ?_
    rw [show ZBLModel.zblGrad _ _ _ _ _ _ _ _ = zblEdgeD f T (X t) z e from rfl]
    rw [Finset.sum_div, Finset.mul_sum]
    refine Finset.sum_congr rfl (fun a _ => ?_)
    ring

theorem total_motion (hf : FileOk f) (hT : SysOk f T) (hX : Inside f T (X t))
    (hsph : IsSphDiff sph dsph ((f.lmax + 1) * (f.lmax + 1))) {s : State ℝ} (hs : StOk f s)
    (hn0 : ∀ i < T.N, (confOf f sph T (X t)).s0 i ≠ 0) (hn1 : ∀ i < T.N, (confOf f sph T (X t)).s1 i ≠ 0)
    (hd : ∀ e < T.E, ∀ a < 3, HasDerivAt (fun τ => X τ e a) (D e a) t) :
    HasDerivAt (fun τ : ℝ => ∑ i ∈ Finset.range T.N, energy (netOf f) (confOf f sph T (X τ)) i)
      (- ∑ e ∈ Finset.range T.E, ∑ a ∈ Finset.range 3, forceOf f sph dsph T (X t) e a * D e a) t := by
  have hc := curve_motion hf hT hX hsph hn0 hn1 hd
  have ht : TanOk (confOf f sph T (X t)) (dconfOf f dsph T (X t)) (tanOf f dsph T (X t) D) T.N D :=
    ⟨fun _ _ _ _ _ _ => rfl, fun _ _ _ _ _ _ => rfl, fun _ _ _ _ _ => rfl, fun _ _ => rfl, fun _ _ => rfl⟩
  have := deriv_total (netOk hf) hc hs.P0 hs.P1 (fun i hi e he => hT.nbr e (edg_lt hi he)) (read2_ok f)
    (fun i hi => pairE_motion (sph := sph) hf hX hd hi) ht
  refine this.congr_deriv ?_
  have e1 : ∑ e ∈ Finset.range T.E, ∑ a ∈ Finset.range 3, forceOf f sph dsph T (X t) e a * D e a
      = ∑ i ∈ Finset.range T.N, ∑ e ∈ T.edg i, ∑ a ∈ Finset.range 3, forceOf f sph dsph T (X t) e a * D e a :=
    sum_range_edges T.N T.nn _
  rw [e1, ← Finset.sum_sub_distrib, ← Finset.sum_neg_distrib]
  refine Finset.sum_congr rfl (fun i hi => ?_)
  unfold zblTan
  change ∑ e ∈ T.edg i, _ - ∑ e ∈ T.edg i, _ = - ∑ e ∈ T.edg i, _
  rw [← Finset.sum_sub_distrib, ← Finset.sum_neg_distrib]
  refine Finset.sum_congr rfl (fun e he => ?_)
  rw [← Finset.sum_sub_distrib, ← Finset.sum_neg_distrib]
  refine Finset.sum_congr rfl (fun a _ => ?_)
  unfold forceOf
  rw [owner_eq (Finset.mem_range.mp hi) he]
  ring

end

end Verif.MACE
