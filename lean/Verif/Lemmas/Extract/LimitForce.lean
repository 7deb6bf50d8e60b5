import Verif.Lemmas.Extract.Limit
import Mathlib.Analysis.Calculus.ContDiff.Operations
import Mathlib.Analysis.SpecialFunctions.ExpDeriv

/-! # Derivatives of the reference network depend continuously on the radial functions and their derivatives -/

namespace Verif.Extract
open Verif.MACE Verif.Spec Filter Topology

/-- Values of the two radial functions, the two densities and the harmonics on the edges. -/
abbrev Inp (E K : ℕ) := Fin 5 × Fin E × Fin K → ℝ

section
variable {E K : ℕ}

noncomputable def get (v : Inp E K) (t : Fin 5) (e c : ℕ) : ℝ := if h : e < E ∧ c < K then v (t, ⟨e, h.1⟩, ⟨c, h.2⟩) else 0

theorem get_contDiff (t : Fin 5) (e c : ℕ) : ContDiff ℝ 1 (fun v : Inp E K => get v t e c) := by
  unfold get
  split_ifs with h
  · exact contDiff_apply ℝ ℝ _
  · exact contDiff_const

/-- Radial functions reading their values at the number of the edge. -/
noncomputable def qV (b0 b1 : Bool) (v : Inp E K) : Radials where
  R0 _ _ c r := get v 0 ⌊r⌋₊ c
  R1 _ _ c r := get v 1 ⌊r⌋₊ c
  d0 := if b0 then some (fun _ _ r => get v 2 ⌊r⌋₊ 0) else none
  d1 := if b1 then some (fun _ _ r => get v 3 ⌊r⌋₊ 0) else none

/-- The structure with the numbers of the edges for lengths. -/
noncomputable def scV (S : Scene) (v : Inp E K) : Scene := { S with len := fun e => (e : ℝ), Y := fun e lm => get v 4 e lm, pair := fun _ => 0 }

variable {M : Torch} {cg : ℕ → ℕ → ℕ → ℕ → ℝ} {N : ℕ} {S : Scene} {b0 b1 : Bool} {v : Inp E K}

theorem scV_z (S : Scene) (v : Inp E K) : (scV S v).z = S.z := rfl
theorem scV_nz (S : Scene) (v : Inp E K) : (scV S v).nz = S.nz := rfl
theorem scV_nbr (S : Scene) (v : Inp E K) : (scV S v).nbr = S.nbr := rfl
theorem scV_edg (S : Scene) (v : Inp E K) : (scV S v).edg = S.edg := rfl
theorem scV_pair (S : Scene) (v : Inp E K) (i : ℕ) : (scV S v).pair i = 0 := rfl
theorem scV_Y (S : Scene) (v : Inp E K) (e lm : ℕ) : (scV S v).Y e lm = get v 4 e lm := rfl
theorem qV_R0 (S : Scene) (v : Inp E K) (a b c e : ℕ) : (qV b0 b1 v).R0 a b c ((scV S v).len e) = get v 0 e c := by simp [qV, scV]
theorem qV_R1 (S : Scene) (v : Inp E K) (a b c e : ℕ) : (qV b0 b1 v).R1 a b c ((scV S v).len e) = get v 1 e c := by simp [qV, scV]

theorem norm0_contDiff (i : ℕ) : ContDiffAt ℝ 1 (fun v : Inp E K => tNorm0 M (qV b0 b1 v) (scV S v) i) v := by
  cases b0 with
  | false => exact contDiffAt_const
  | true =>
    change ContDiffAt ℝ 1 (fun v : Inp E K => (∑ e ∈ S.edg i, get v 2 ⌊(e : ℝ)⌋₊ 0) + 1) v
    exact (ContDiffAt.sum fun e _ => (get_contDiff _ _ _).contDiffAt).add contDiffAt_const

theorem norm1_contDiff (i : ℕ) : ContDiffAt ℝ 1 (fun v : Inp E K => tNorm1 M (qV b0 b1 v) (scV S v) i) v := by
  cases b1 with
  | false => exact contDiffAt_const
  | true =>
    change ContDiffAt ℝ 1 (fun v : Inp E K => (∑ e ∈ S.edg i, get v 3 ⌊(e : ℝ)⌋₊ 0) + 1) v
    exact (ContDiffAt.sum fun e _ => (get_contDiff _ _ _).contDiffAt).add contDiffAt_const

theorem contraction_contDiff {n corr : ℕ} {U : List ℕ → ℝ} {x : Inp E K → ℕ → ℝ} (h : ∀ j < n, ContDiffAt ℝ 1 (fun v => x v j) v) :
    ContDiffAt ℝ 1 (fun v => contraction n corr U (x v)) v := by
  unfold contraction
  refine ContDiffAt.sum fun t _ => contDiffAt_const.mul ?_
  exact contDiffAt_prod fun i _ => h _ (t i).2

theorem feat0_contDiff {i : ℕ} (hn : tNorm0 M (qV b0 b1 v) (scV S v) i ≠ 0) (LM k : ℕ) :
    ContDiffAt ℝ 1 (fun v : Inp E K => tFeat0 M (qV b0 b1 v) (scV S v) i LM k) v := by
  have msg : ∀ lm k, ContDiffAt ℝ 1 (fun v : Inp E K => tMsg0 M (qV b0 b1 v) (scV S v) i lm k) v := by
    intro lm k
    unfold tMsg0
    simp only [scV_z]
    refine ContDiffAt.sum fun k' _ => ContDiffAt.mul ?_ contDiffAt_const
    unfold tLin0
    refine ContDiffAt.div ?_ (norm0_contDiff i) hn
    refine ContDiffAt.sum fun k'' _ => ContDiffAt.mul ?_ contDiffAt_const
    unfold tConv0
    simp only [scV_z, scV_nz, scV_edg, scV_Y, qV_R0]
    refine ContDiffAt.sum fun e _ => ContDiffAt.mul (ContDiffAt.mul ?_ ?_) contDiffAt_const
    · exact (get_contDiff _ _ _).contDiffAt
    · exact (get_contDiff _ _ _).contDiffAt
  unfold tFeat0
  refine ContDiffAt.sum fun k' _ => ContDiffAt.mul ?_ contDiffAt_const
  unfold tProd0
  simp only [scV_z]
  exact ContDiffAt.sum fun corr _ => ContDiffAt.sum fun eta _ => contDiffAt_const.mul (contraction_contDiff fun lm _ => msg lm k')

theorem scaledSilu_contDiff (c : ℝ) : ContDiff ℝ 1 (scaledSilu c) := by
  unfold scaledSilu
  refine contDiff_const.mul (contDiff_id.mul (ContDiff.inv (by fun_prop) fun x => ?_))
  positivity

theorem energy_contDiff (hn0 : ∀ j < N, tNorm0 M (qV b0 b1 v) (scV S v) j ≠ 0) (hn1 : ∀ j < N, tNorm1 M (qV b0 b1 v) (scV S v) j ≠ 0)
    (hnbr : ∀ i < N, ∀ e ∈ S.edg i, S.nbr e < N) {i : ℕ} (hi : i < N) :
    ContDiffAt ℝ 1 (fun v : Inp E K => torchEnergy M (qV b0 b1 v) cg (scV S v) i) v := by
  have f0 : ∀ j < N, ∀ LM k, ContDiffAt ℝ 1 (fun v : Inp E K => tFeat0 M (qV b0 b1 v) (scV S v) j LM k) v := fun j hj LM k =>
    feat0_contDiff (hn0 j hj) LM k
  have msg : ∀ lm k, ContDiffAt ℝ 1 (fun v : Inp E K => tMsg1 M (qV b0 b1 v) cg (scV S v) i lm k) v := by
    intro lm k
    unfold tMsg1
    refine ContDiffAt.div ?_ (norm1_contDiff i) (hn1 i hi)
    refine ContDiffAt.sum fun le _ => ContDiffAt.sum fun k' _ => ContDiffAt.mul ?_ contDiffAt_const
    unfold tConv1
    simp only [scV_z, scV_nz, scV_edg, scV_Y, scV_nbr, qV_R1]
    refine ContDiffAt.sum fun e he => ContDiffAt.mul ?_ ?_
    · exact (get_contDiff _ _ _).contDiffAt
    · refine ContDiffAt.sum fun m1 _ => ContDiffAt.sum fun m2 _ => ContDiffAt.mul (contDiffAt_const.mul ?_) ?_
      · exact (get_contDiff _ _ _).contDiffAt
      · unfold tUp1
        exact ContDiffAt.sum fun k'' _ => (f0 _ (hnbr i hi e he) _ _).mul contDiffAt_const
  have f1 : ∀ k, ContDiffAt ℝ 1 (fun v : Inp E K => tFeat1 M (qV b0 b1 v) cg (scV S v) i k) v := by
    intro k
    unfold tFeat1
    simp only [scV_z]
    refine ContDiffAt.add (ContDiffAt.sum fun k' _ => ContDiffAt.mul ?_ contDiffAt_const)
      (ContDiffAt.sum fun k' _ => (f0 i hi _ _).mul contDiffAt_const)
    unfold tProd1
    simp only [scV_z]
    exact ContDiffAt.sum fun corr _ => ContDiffAt.sum fun eta _ => contDiffAt_const.mul (contraction_contDiff fun lm _ => msg lm k')
  unfold torchEnergy
  simp only [scV_z, scV_pair]
  refine contDiffAt_const.add ((contDiffAt_const.mul ((contDiffAt_const.add ?_).add ?_)).add contDiffAt_const)
  · unfold tRead0
    exact ContDiffAt.sum fun k _ => (f0 i hi _ _).mul contDiffAt_const
  · unfold tRead1
    refine ContDiffAt.sum fun j _ => ContDiffAt.mul ?_ contDiffAt_const
    exact (scaledSilu_contDiff M.cst).contDiffAt.comp v (ContDiffAt.sum fun k _ => (f1 k).mul contDiffAt_const)

/-- `v` holds the values that `q` and `S` give. -/
structure Holds (M : Torch) (N : ℕ) (q : Radials) (S : Scene) (v : Inp E K) : Prop where
  R0 : ∀ i < N, ∀ e ∈ S.edg i, ∀ c < (M.lmax + 1) * M.C, get v 0 e c = q.R0 (S.z i) (S.nz e) c (S.len e)
  R1 : ∀ i < N, ∀ e ∈ S.edg i, ∀ c < M.phil.length * M.C, get v 1 e c = q.R1 (S.z i) (S.nz e) c (S.len e)
  d0 : ∀ d, q.d0 = some d → ∀ i < N, ∀ e ∈ S.edg i, get v 2 e 0 = d (S.z i) (S.nz e) (S.len e)
  d1 : ∀ d, q.d1 = some d → ∀ i < N, ∀ e ∈ S.edg i, get v 3 e 0 = d (S.z i) (S.nz e) (S.len e)
  Y : ∀ i < N, ∀ e ∈ S.edg i, ∀ lm < (M.lmax + 1) * (M.lmax + 1), get v 4 e lm = S.Y e lm

theorem contraction_congr {n corr : ℕ} {U : List ℕ → ℝ} {x y : ℕ → ℝ} (h : ∀ j < n, x j = y j) : contraction n corr U x = contraction n corr U y := by
  unfold contraction
  refine Finset.sum_congr rfl fun t _ => ?_
  congr 1
  exact Finset.prod_congr rfl fun i _ => h _ (t i).2

theorem mul_congr {a b c d : ℝ} (h1 : a = b) (h2 : c = d) : a * c = b * d := by rw [h1, h2]

theorem norm0_holds {q : Radials} (h : Holds M N q S v) {i : ℕ} (hi : i < N) :
    tNorm0 M (qV q.d0.isSome q.d1.isSome v) (scV S v) i = tNorm0 M q S i := by
  cases hq : q.d0 with
  | none => simp [tNorm0, qV, hq]
  | some d =>
    simp only [tNorm0, qV, hq, Option.isSome_some, if_true, scV, Nat.floor_natCast]
    congr 1
    exact Finset.sum_congr rfl fun e he => h.d0 d hq i hi e he

theorem norm1_holds {q : Radials} (h : Holds M N q S v) {i : ℕ} (hi : i < N) :
    tNorm1 M (qV q.d0.isSome q.d1.isSome v) (scV S v) i = tNorm1 M q S i := by
  cases hq : q.d1 with
  | none => simp [tNorm1, qV, hq]
  | some d =>
    simp only [tNorm1, qV, hq, Option.isSome_some, if_true, scV, Nat.floor_natCast]
    congr 1
    exact Finset.sum_congr rfl fun e he => h.d1 d hq i hi e he

theorem msg0_holds {q : Radials} (h : Holds M N q S v) {i : ℕ} (hi : i < N) {lm : ℕ} (hlm : lm < (M.lmax + 1) * (M.lmax + 1)) (k : ℕ) :
    tMsg0 M (qV q.d0.isSome q.d1.isSome v) (scV S v) i lm k = tMsg0 M q S i lm k := by
  unfold tMsg0
  simp only [scV_z]
  refine Finset.sum_congr rfl fun k1 hk1 => ?_
  congr 1
  unfold tLin0
  rw [norm0_holds h hi]
  congr 1
  refine Finset.sum_congr rfl fun k2 hk2 => ?_
  congr 1
  unfold tConv0
  simp only [scV_z, scV_nz, scV_edg, scV_Y, qV_R0]
  refine Finset.sum_congr rfl fun e he => ?_
  rw [h.R0 i hi e he _ (col_lt (sqrt_lt_of hlm) (Finset.mem_range.mp hk2)), h.Y i hi e he lm hlm]

theorem feat0_holds {q : Radials} (h : Holds M N q S v) {i : ℕ} (hi : i < N) (LM k : ℕ) :
    tFeat0 M (qV q.d0.isSome q.d1.isSome v) (scV S v) i LM k = tFeat0 M q S i LM k := by
  unfold tFeat0
  refine Finset.sum_congr rfl fun k' hk' => congrArg (· * _) ?_
  unfold tProd0
  simp only [scV_z]
  refine Finset.sum_congr rfl fun corr _ => Finset.sum_congr rfl fun eta _ => ?_
  exact congrArg (M.W0 LM.sqrt corr (S.z i) eta k' * ·) (contraction_congr fun lm hlm => msg0_holds h hi hlm k')

theorem energy_holds {q : Radials} (h : Holds M N q S v) (hnbr : ∀ i < N, ∀ e ∈ S.edg i, S.nbr e < N)
    (hphil : ∀ le < M.phil.length, nthN M.phil1 le ≤ M.lmax) {i : ℕ} (hi : i < N) :
    torchEnergy M q cg S i = torchEnergy M (qV q.d0.isSome q.d1.isSome v) cg (scV S v) i + M.scale * S.pair i := by
  have f0 : ∀ j < N, ∀ LM k, tFeat0 M (qV q.d0.isSome q.d1.isSome v) (scV S v) j LM k = tFeat0 M q S j LM k := fun j hj LM k => feat0_holds h hj LM k
  have msg : ∀ lm k, tMsg1 M (qV q.d0.isSome q.d1.isSome v) cg (scV S v) i lm k = tMsg1 M q cg S i lm k := by
    intro lm k
    unfold tMsg1
    rw [norm1_holds h hi]
    congr 1
    refine Finset.sum_congr rfl fun le hle => Finset.sum_congr rfl fun k' hk' => ?_
    have hle' := Finset.mem_range.mp (Finset.mem_filter.mp hle).1
    congr 1
    unfold tConv1
    simp only [scV_z, scV_nz, scV_edg, scV_Y, scV_nbr, qV_R1]
    refine Finset.sum_congr rfl fun e he => mul_congr ?_ ?_
    · exact h.R1 i hi e he _ (col_lt hle' (Finset.mem_range.mp hk'))
    · refine Finset.sum_congr rfl fun m1 hm1 => Finset.sum_congr rfl fun m2 _ => ?_
      refine mul_congr (mul_congr rfl ?_) ?_
      · refine h.Y i hi e he _ ?_
        have := hphil le hle'
        have := Finset.mem_range.mp hm1
        nlinarith
      · unfold tUp1
        refine Finset.sum_congr rfl fun k'' _ => ?_
        rw [f0 _ (hnbr i hi e he)]
  have f1 : ∀ k, tFeat1 M (qV q.d0.isSome q.d1.isSome v) cg (scV S v) i k = tFeat1 M q cg S i k := by
    intro k
    unfold tFeat1 tProd1
    simp only [msg, f0 i hi, scV_z]
  unfold torchEnergy tRead0 tRead1
  simp only [f1, f0 i hi, scV_z, scV_pair]
  ring

end

/-- Curves converging at a point with their velocities. -/
theorem curve_limit {V : Type*} [NormedAddCommGroup V] [NormedSpace ℝ V] {Φ : V → ℝ} {g : ℕ → ℝ → V} {g' : ℕ → V} {γ : ℝ → V} {γ' : V}
    (hΦ : ContDiffAt ℝ 1 Φ (γ 0)) (hg : ∀ᶠ n in atTop, HasDerivAt (g n) (g' n) 0) (hγ : HasDerivAt γ γ' 0)
    (h0 : Tendsto (fun n => g n 0) atTop (𝓝 (γ 0))) (h1 : Tendsto g' atTop (𝓝 γ')) :
    ∃ (d : ℕ → ℝ) (δ : ℝ), (∀ᶠ n in atTop, HasDerivAt (fun τ => Φ (g n τ)) (d n) 0) ∧ HasDerivAt (fun τ => Φ (γ τ)) δ 0 ∧ Tendsto d atTop (𝓝 δ) := by
  refine ⟨fun n => fderiv ℝ Φ (g n 0) (g' n), fderiv ℝ Φ (γ 0) γ', ?_, ?_, ?_⟩
  · have := h0.eventually (hΦ.eventually (by simp))
    filter_upwards [this, hg] with n hn hgn
    exact (hn.differentiableAt (by simp)).hasFDerivAt.comp_hasDerivAt 0 hgn
  · exact (hΦ.differentiableAt (by simp)).hasFDerivAt.comp_hasDerivAt 0 hγ
  · have c : ContinuousAt (fderiv ℝ Φ) (γ 0) := (hΦ.fderiv_right (m := 0) (by simp)).continuousAt
    exact (isBoundedBilinearMap_apply.continuous.tendsto (fderiv ℝ Φ (γ 0), γ')).comp ((c.tendsto.comp h0).prodMk_nhds h1)

end Verif.Extract
