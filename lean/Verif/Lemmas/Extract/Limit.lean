import Verif.Spec.Torch
import Mathlib.Topology.Algebra.Monoid
import Mathlib.Topology.Algebra.Field
import Mathlib.Analysis.SpecialFunctions.Exp
import Mathlib.Analysis.SpecialFunctions.Trigonometric.Deriv

/-! # The reference network depends continuously on its radial functions -/

namespace Verif.Extract
open Verif.MACE Verif.Spec Filter Topology

/-- Convergence of radial functions at the distances in `D`, for the `nz` elements and the columns used. -/
structure RadialsTo (M : Torch) (D : Set ℝ) (p : ℕ → Radials) (q : Radials) : Prop where
  R0 : ∀ a < M.zs.length, ∀ b < M.zs.length, ∀ c < (M.lmax + 1) * M.C, ∀ r ∈ D, Tendsto (fun n => (p n).R0 a b c r) atTop (𝓝 (q.R0 a b c r))
  R1 : ∀ a < M.zs.length, ∀ b < M.zs.length, ∀ c < M.phil.length * M.C, ∀ r ∈ D, Tendsto (fun n => (p n).R1 a b c r) atTop (𝓝 (q.R1 a b c r))
  d0 : match q.d0 with
    | none => ∀ n, (p n).d0 = none
    | some d => ∃ d' : ℕ → ℕ → ℕ → ℝ → ℝ, (∀ n, (p n).d0 = some (d' n)) ∧ (∀ a b r, 0 ≤ d a b r) ∧
        ∀ a < M.zs.length, ∀ b < M.zs.length, ∀ r ∈ D, Tendsto (fun n => d' n a b r) atTop (𝓝 (d a b r))
  d1 : match q.d1 with
    | none => ∀ n, (p n).d1 = none
    | some d => ∃ d' : ℕ → ℕ → ℕ → ℝ → ℝ, (∀ n, (p n).d1 = some (d' n)) ∧ (∀ a b r, 0 ≤ d a b r) ∧
        ∀ a < M.zs.length, ∀ b < M.zs.length, ∀ r ∈ D, Tendsto (fun n => d' n a b r) atTop (𝓝 (d a b r))

/-- A structure with `N` nodes, all elements known, distances in `D`. -/
structure SceneIn (M : Torch) (D : Set ℝ) (N : ℕ) (S : Scene) : Prop where
  z : ∀ i < N, S.z i < M.zs.length
  nz : ∀ i < N, ∀ e ∈ S.edg i, S.nz e < M.zs.length
  nbr : ∀ i < N, ∀ e ∈ S.edg i, S.nbr e < N
  len : ∀ i < N, ∀ e ∈ S.edg i, S.len e ∈ D

section
variable {M : Torch} {cg : ℕ → ℕ → ℕ → ℕ → ℝ} {D : Set ℝ} {N : ℕ} {S : Scene} {p : ℕ → Radials} {q : Radials}

theorem contraction_tendsto {n corr : ℕ} {U : List ℕ → ℝ} {x : ℕ → ℕ → ℝ} {y : ℕ → ℝ} (h : ∀ j < n, Tendsto (fun m => x m j) atTop (𝓝 (y j))) :
    Tendsto (fun m => contraction n corr U (x m)) atTop (𝓝 (contraction n corr U y)) := by
  unfold contraction
  refine tendsto_finsetSum _ fun t _ => Tendsto.const_mul _ (tendsto_finsetProd _ fun i _ => h _ (t i).2)

theorem col_lt {a b C k : ℕ} (ha : a < b) (hk : k < C) : a * C + k < b * C := by
  calc a * C + k < a * C + C := by omega
    _ = (a + 1) * C := by ring
    _ ≤ b * C := Nat.mul_le_mul_right _ ha

theorem sqrt_lt_of {l lm : ℕ} (h : lm < (l + 1) * (l + 1)) : Nat.sqrt lm < l + 1 := Nat.sqrt_lt.mpr h

theorem tNorm_tendsto {a : ℝ} (ha : a ≠ 0) (hS : SceneIn M D N S) {o : Option (ℕ → ℕ → ℝ → ℝ)} {o' : ℕ → Option (ℕ → ℕ → ℝ → ℝ)}
    (h : match o with
      | none => ∀ n, o' n = none
      | some d => ∃ d' : ℕ → ℕ → ℕ → ℝ → ℝ, (∀ n, o' n = some (d' n)) ∧ (∀ a b r, 0 ≤ d a b r) ∧
          ∀ a < M.zs.length, ∀ b < M.zs.length, ∀ r ∈ D, Tendsto (fun n => d' n a b r) atTop (𝓝 (d a b r)))
    {i : ℕ} (hi : i < N) {f : Option (ℕ → ℕ → ℝ → ℝ) → ℝ} (hf : ∀ o, f o = match o with
      | some d => (∑ e ∈ S.edg i, d (S.z i) (S.nz e) (S.len e)) + 1
      | none => a) : Tendsto (fun n => f (o' n)) atTop (𝓝 (f o)) ∧ f o ≠ 0 := by
  cases o with
  | none =>
    have e : ∀ n, f (o' n) = f none := fun n => by rw [h n]
    simp only [e]
    refine ⟨tendsto_const_nhds, ?_⟩
    rw [hf]; exact ha
  | some d =>
    obtain ⟨d', h1, h2, h3⟩ := h
    have e : ∀ n, f (o' n) = (∑ e ∈ S.edg i, d' n (S.z i) (S.nz e) (S.len e)) + 1 := fun n => by rw [h1 n, hf]
    have e' : f (some d) = (∑ e ∈ S.edg i, d (S.z i) (S.nz e) (S.len e)) + 1 := hf _
    simp only [e, e']
    refine ⟨(tendsto_finsetSum _ fun e he => h3 _ (hS.z i hi) _ (hS.nz i hi e he) _ (hS.len i hi e he)).add_const 1, ?_⟩
    have : 0 ≤ ∑ e ∈ S.edg i, d (S.z i) (S.nz e) (S.len e) := Finset.sum_nonneg fun e _ => h2 _ _ _
    linarith

theorem tNorm0_tendsto (hq : RadialsTo M D p q) (ha : M.avg0 ≠ 0) (hS : SceneIn M D N S) {i : ℕ} (hi : i < N) :
    Tendsto (fun n => tNorm0 M (p n) S i) atTop (𝓝 (tNorm0 M q S i)) ∧ tNorm0 M q S i ≠ 0 :=
  tNorm_tendsto ha hS hq.d0 hi (f := fun o => match o with
      | some d => (∑ e ∈ S.edg i, d (S.z i) (S.nz e) (S.len e)) + 1
      | none => M.avg0) (fun _ => rfl)

theorem tNorm1_tendsto (hq : RadialsTo M D p q) (ha : M.avg1 ≠ 0) (hS : SceneIn M D N S) {i : ℕ} (hi : i < N) :
    Tendsto (fun n => tNorm1 M (p n) S i) atTop (𝓝 (tNorm1 M q S i)) ∧ tNorm1 M q S i ≠ 0 :=
  tNorm_tendsto ha hS hq.d1 hi (f := fun o => match o with
      | some d => (∑ e ∈ S.edg i, d (S.z i) (S.nz e) (S.len e)) + 1
      | none => M.avg1) (fun _ => rfl)

theorem tFeat0_tendsto (hq : RadialsTo M D p q) (ha : M.avg0 ≠ 0) (hS : SceneIn M D N S) {i : ℕ} (hi : i < N) (LM k : ℕ) :
    Tendsto (fun n => tFeat0 M (p n) S i LM k) atTop (𝓝 (tFeat0 M q S i LM k)) := by
  obtain ⟨n1, n2⟩ := tNorm0_tendsto hq ha hS hi
  have msg : ∀ lm < (M.lmax + 1) * (M.lmax + 1), ∀ k, Tendsto (fun n => tMsg0 M (p n) S i lm k) atTop (𝓝 (tMsg0 M q S i lm k)) := by
    intro lm hlm k
    unfold tMsg0
    refine tendsto_finsetSum _ fun k' hk' => Tendsto.mul_const _ ?_
    unfold tLin0
    refine Tendsto.div ?_ n1 n2
    refine tendsto_finsetSum _ fun k'' hk'' => Tendsto.mul_const _ ?_
    unfold tConv0
    refine tendsto_finsetSum _ fun e he => Tendsto.mul_const _ (Tendsto.mul_const _ ?_)
    exact hq.R0 _ (hS.z i hi) _ (hS.nz i hi e he) _ (col_lt (sqrt_lt_of hlm) (Finset.mem_range.mp hk'')) _ (hS.len i hi e he)
  unfold tFeat0
  refine tendsto_finsetSum _ fun k' hk' => Tendsto.mul_const _ ?_
  unfold tProd0
  refine tendsto_finsetSum _ fun corr _ => tendsto_finsetSum _ fun eta _ => Tendsto.const_mul _ (contraction_tendsto fun lm hlm => msg lm hlm k')

theorem scaledSilu_continuous (c : ℝ) : Continuous (scaledSilu c) := by
  unfold scaledSilu
  refine continuous_const.mul (continuous_id.mul (Continuous.inv₀ (by fun_prop) fun x => ?_))
  positivity

/-- The energies. -/
theorem torchEnergy_tendsto (hq : RadialsTo M D p q) (ha : M.avg0 ≠ 0 ∧ M.avg1 ≠ 0) (hS : SceneIn M D N S) {i : ℕ} (hi : i < N) :
    Tendsto (fun n => torchEnergy M (p n) cg S i) atTop (𝓝 (torchEnergy M q cg S i)) := by
  obtain ⟨n1, n2⟩ := tNorm1_tendsto hq ha.2 hS hi
  have f0 : ∀ j < N, ∀ LM k, Tendsto (fun n => tFeat0 M (p n) S j LM k) atTop (𝓝 (tFeat0 M q S j LM k)) :=
    fun j hj LM k => tFeat0_tendsto hq ha.1 hS hj LM k
  have msg : ∀ lm k, Tendsto (fun n => tMsg1 M (p n) cg S i lm k) atTop (𝓝 (tMsg1 M q cg S i lm k)) := by
    intro lm k
    unfold tMsg1
    refine Tendsto.div ?_ n1 n2
    refine tendsto_finsetSum _ fun le hle => tendsto_finsetSum _ fun k' hk' => Tendsto.mul_const _ ?_
    unfold tConv1
    refine tendsto_finsetSum _ fun e he => Tendsto.mul ?_ ?_
    · exact hq.R1 _ (hS.z i hi) _ (hS.nz i hi e he) _
        (col_lt (Finset.mem_range.mp (Finset.mem_filter.mp hle).1) (Finset.mem_range.mp hk')) _ (hS.len i hi e he)
    · refine tendsto_finsetSum _ fun m1 _ => tendsto_finsetSum _ fun m2 _ => Tendsto.const_mul _ ?_
      unfold tUp1
      exact tendsto_finsetSum _ fun k'' _ => (f0 _ (hS.nbr i hi e he) _ _).mul_const _
  have f1 : ∀ k, Tendsto (fun n => tFeat1 M (p n) cg S i k) atTop (𝓝 (tFeat1 M q cg S i k)) := by
    intro k
    unfold tFeat1
    refine Tendsto.add (tendsto_finsetSum _ fun k' _ => Tendsto.mul_const _ ?_) (tendsto_finsetSum _ fun k' _ => (f0 i hi _ _).mul_const _)
    unfold tProd1
    exact tendsto_finsetSum _ fun corr _ => tendsto_finsetSum _ fun eta _ => Tendsto.const_mul _ (contraction_tendsto fun lm _ => msg lm k')
  unfold torchEnergy
  refine Tendsto.const_add _ (Tendsto.add_const _ (Tendsto.const_mul _ (Tendsto.add (Tendsto.const_add _ ?_) ?_)))
  · unfold tRead0
    exact tendsto_finsetSum _ fun k _ => (f0 i hi _ _).mul_const _
  · unfold tRead1
    refine tendsto_finsetSum _ fun j _ => Tendsto.mul_const _ ?_
    exact (scaledSilu_continuous M.cst).continuousAt.tendsto.comp (tendsto_finsetSum _ fun k _ => (f1 k).mul_const _)

end
end Verif.Extract
