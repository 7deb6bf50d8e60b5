import Verif.Lemmas.MACE.Gradient
import Verif.Spec.MACEFile
import Mathlib.Topology.Algebra.GroupWithZero
import Mathlib.Topology.Algebra.Monoid

/-! # Energies of converging configurations -/

namespace Verif.MACE
open Verif.Spec Filter Topology

variable {ι : Type} {F : Filter ι}

/-- Configurations with the same graph whose features converge. -/
structure LimOk (W : Net ℝ) (F : Filter ι) (cv : ι → Conf ℝ) (c : Conf ℝ) (N : ℕ) : Prop where
  typ : ∀ x, (cv x).typ = c.typ
  edg : ∀ x, (cv x).edg = c.edg
  nbr : ∀ x, (cv x).nbr = c.nbr
  nty : ∀ x, (cv x).nty = c.nty
  nb : ∀ i < N, ∀ e ∈ c.edg i, c.nbr e < N
  R0 : ∀ i < N, ∀ e ∈ c.edg i, ∀ l k, Tendsto (fun x => (cv x).R0 e l k) F (𝓝 (c.R0 e l k))
  R1 : ∀ i < N, ∀ e ∈ c.edg i, ∀ l k, Tendsto (fun x => (cv x).R1 e l k) F (𝓝 (c.R1 e l k))
  Y : ∀ i < N, ∀ e ∈ c.edg i, ∀ lm < W.M, Tendsto (fun x => (cv x).Y e lm) F (𝓝 (c.Y e lm))
  s0 : ∀ i < N, Tendsto (fun x => (cv x).s0 i) F (𝓝 (c.s0 i))
  s1 : ∀ i < N, Tendsto (fun x => (cv x).s1 i) F (𝓝 (c.s1 i))
  pairE : ∀ i < N, Tendsto (fun x => (cv x).pairE i) F (𝓝 (c.pairE i))
  n0 : ∀ i < N, c.s0 i ≠ 0
  n1 : ∀ i < N, c.s1 i ≠ 0

theorem tendsto_monomial {y : ι → ℕ → ℝ} {y0 : ℕ → ℝ} (m : List ℕ) (h : ∀ v ∈ m, Tendsto (fun x => y x v) F (𝓝 (y0 v))) :
    Tendsto (fun x => monomial (y x) m) F (𝓝 (monomial y0 m)) := by
  unfold monomial
  induction m with
  | nil => simpa using tendsto_const_nhds
  | cons a m ih =>
    simp only [List.map_cons, List.prod_cons]
    exact (h a (by simp)).mul (ih (fun v hv => h v (by simp [hv])))

theorem tendsto_polynomial {y : ι → ℕ → ℝ} {y0 : ℕ → ℝ} (co : List ℝ) (mo : List (List ℕ))
    (h : ∀ m ∈ mo, ∀ v ∈ m, Tendsto (fun x => y x v) F (𝓝 (y0 v))) :
    Tendsto (fun x => polynomial co mo (y x)) F (𝓝 (polynomial co mo y0)) := by
  unfold polynomial
  have hm : ∀ q ∈ mo.zip co, ∀ v ∈ q.1, Tendsto (fun x => y x v) F (𝓝 (y0 v)) := fun q hq => h q.1 (List.of_mem_zip hq).1
  clear h
  generalize mo.zip co = l at hm ⊢
  induction l with
  | nil => simpa using tendsto_const_nhds
  | cons q l ih =>
    simp only [List.map_cons, List.sum_cons]
    exact ((tendsto_monomial q.1 (hm q (by simp))).const_mul q.2).add (ih (fun q' hq' => hm q' (by simp [hq'])))

theorem tendsto_read2 (f : File) {y : ι → ℕ → ℝ} {y0 : ℕ → ℝ} (h : ∀ k, Tendsto (fun x => y x k) F (𝓝 (y0 k))) :
    Tendsto (fun x => (netOf f).read2 (y x)) F (𝓝 ((netOf f).read2 y0)) := by
  have hs : Continuous (scaledSilu f.ro2scale) := by
    unfold scaledSilu
    refine continuous_const.mul (continuous_id.mul (Continuous.inv₀ (by fun_prop) (fun x => ?_)))
    positivity
  simp only [netOf, mlpOut, mlpHidden]
  refine tendsto_finsetSum _ (fun k _ => Tendsto.const_mul _ ?_)
  refine (hs.tendsto _).comp ?_
  exact tendsto_finsetSum _ (fun k' _ => Tendsto.const_mul _ (h k'))

variable {W : Net ℝ} {cv : ι → Conf ℝ} {c : Conf ℝ} {N : ℕ}

theorem LimOk.h1 (hw : NetOk W) (h : LimOk W F cv c N) {i LM k : ℕ} (hi : i < N) (hLM : LM < W.LM) :
    Tendsto (fun x => Spec.h1 W (cv x) i LM k) F (𝓝 (Spec.h1 W c i LM k)) := by
  unfold Spec.h1 m0
  simp only [h.typ]
  refine tendsto_finsetSum _ (fun k' _ => Tendsto.mul_const _ (tendsto_polynomial _ _ (fun m hm v hv => ?_)))
  have hv := hw.mono0 LM hLM m hm v hv
  unfold a0s a0 phi0
  refine Tendsto.div ?_ (h.s0 i hi) (h.n0 i hi)
  simp only [h.typ, h.edg, h.nty]
  exact tendsto_finsetSum _ (fun k _ => Tendsto.mul_const _ (tendsto_finsetSum _ (fun e he =>
    ((h.R0 i hi e he _ _).mul (h.Y i hi e he v hv)).mul_const _)))

theorem LimOk.energy (hw : NetOk W) (hr : ∀ (y : ι → ℕ → ℝ) (y0 : ℕ → ℝ), (∀ k, Tendsto (fun x => y x k) F (𝓝 (y0 k))) →
      Tendsto (fun x => W.read2 (y x)) F (𝓝 (W.read2 y0))) (h : LimOk W F cv c N) {i : ℕ} (hi : i < N) :
    Tendsto (fun x => Spec.energy W (cv x) i) F (𝓝 (Spec.energy W c i)) := by
  have h0 : ∀ k, Tendsto (fun x => Spec.h1 W (cv x) i 0 k) F (𝓝 (Spec.h1 W c i 0 k)) := fun k => h.h1 hw hi (LM_pos W)
  unfold Spec.energy nodeE
  simp only [h.typ]
  refine Tendsto.add (Tendsto.add ((h.pairE i hi).add_const _) (tendsto_finsetSum _ (fun k _ => (h0 k).const_mul _))) ?_
  refine hr (fun x => h2 W (cv x) (Spec.h1 W (cv x)) i) (h2 W c (Spec.h1 W c) i) (fun k => ?_)
  unfold h2 m1
  simp only [h.typ]
  refine Tendsto.add (tendsto_finsetSum _ (fun k' _ => (h0 k').mul_const _)) (tendsto_finsetSum _ (fun k' _ => Tendsto.mul_const _ ?_))
  refine tendsto_polynomial _ _ (fun m hm v hv => ?_)
  unfold a1s a1 phi1
  refine Tendsto.div ?_ (h.s1 i hi) (h.n1 i hi)
  refine tendsto_finsetSum _ (fun _ _ => tendsto_finsetSum _ (fun k' _ => Tendsto.mul_const _ (tendsto_finsetSum _ (fun p hp => ?_))))
  have hq := hw.cgIn p (Finset.mem_range.mp hp)
  split_ifs
  · refine Tendsto.const_mul _ ?_
    unfold phi1r
    simp only [h.edg, h.nbr]
    exact tendsto_finsetSum _ (fun e he => ((h.R1 i hi e he _ _).mul (h.Y i hi e he _ (hw.q1 _ hq))).mul
      (h.h1 hw (h.nb i hi e he) (hw.q2 _ hq)))
  · exact tendsto_const_nhds

end Verif.MACE
