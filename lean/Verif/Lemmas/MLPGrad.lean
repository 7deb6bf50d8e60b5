import Verif.Lemmas.MLP
import Mathlib.Analysis.SpecialFunctions.ExpDeriv
import Mathlib.Analysis.Calculus.Deriv.Mul
import Mathlib.Analysis.Calculus.Deriv.Inv
import Mathlib.Analysis.Calculus.Deriv.Add

/-! # Helper lemmas: call histories and Jacobian of the multilayer perceptron -/

namespace Verif.MLP
open Verif.Blas Verif.Spec

section
variable {K : Type} [Field K]

/-! ## Call histories -/

theorem modRow_length {α : Type} {b b' : List α} {l : ℕ} {f : α → Option α} (h : modRow b l f = some b') :
    b'.length = b.length := by
  unfold modRow at h
  simp only [Option.bind_eq_bind, Option.bind_eq_some_iff, Option.pure_def, Option.some.injEq] at h
  obtain ⟨_, _, _, _, rfl⟩ := h
  simp

theorem loop_length {α : Type} {n : ℕ} {body : ℕ → List α → Option (List α)}
    (hb : ∀ i b b', body i b = some b' → b'.length = b.length) {b b' : List α} (h : loop n body b = some b') :
    b'.length = b.length :=
  loop_pres h (fun c => c.length = b.length) rfl (fun i _ c c' hc e => (hb i c c' e).trans hc)

theorem resizeAll_length {shape : List ℕ} {f : ℕ} {b b' : List (List K)} (h : resizeAll shape f b = some b') :
    b'.length = b.length := by
  refine loop_length ?_ h
  intro i b b' h
  simp only [Option.bind_eq_bind, Option.bind_eq_some_iff] at h
  obtain ⟨_, _, h⟩ := h
  exact modRow_length h

theorem layerProduct_length {M : MLP K} {l : ℕ} {b b' : List (List K)} (h : layerProduct M l b = some b') :
    b'.length = b.length := by
  unfold layerProduct at h
  simp only [Option.bind_eq_bind, Option.bind_eq_some_iff] at h
  obtain ⟨_, _, _, _, _, _, _, _, h⟩ := h
  exact modRow_length h

theorem bLayerProduct_length {M : MLP K} {B l : ℕ} {b b' : List (List K)} (h : bLayerProduct M B l b = some b') :
    b'.length = b.length := by
  unfold bLayerProduct at h
  simp only [Option.bind_eq_bind, Option.bind_eq_some_iff] at h
  obtain ⟨_, _, _, _, _, _, _, _, h⟩ := h
  exact modRow_length h

theorem layer_length {ex : K → K} {M : MLP K} {l : ℕ} {b b' : List (List K)} (h : layer ex M l b = some b') :
    b'.length = b.length := by
  unfold layer at h
  simp only [Option.bind_eq_bind, Option.bind_eq_some_iff] at h
  obtain ⟨_, h1, _, _, h⟩ := h
  exact (modRow_length h).trans (layerProduct_length h1)

theorem bLayer_length {ex : K → K} {M : MLP K} {B l : ℕ} {b b' : List (List K)} (h : bLayer ex M B l b = some b') :
    b'.length = b.length := by
  unfold bLayer at h
  simp only [Option.bind_eq_bind, Option.bind_eq_some_iff] at h
  obtain ⟨_, h1, h⟩ := h
  exact (modRow_length h).trans (bLayerProduct_length h1)

theorem finalLayer_length {M : MLP K} {b b' : List (List K)} (h : finalLayer M b = some b') : b'.length = b.length := by
  unfold finalLayer at h
  simp only [Option.bind_eq_bind, Option.bind_eq_some_iff] at h
  obtain ⟨_, _, _, _, _, _, _, _, h⟩ := h
  exact modRow_length h

theorem bFinalLayer_length {M : MLP K} {B : ℕ} {b b' : List (List K)} (h : bFinalLayer M B b = some b') :
    b'.length = b.length := by
  unfold bFinalLayer at h
  simp only [Option.bind_eq_bind, Option.bind_eq_some_iff] at h
  obtain ⟨_, _, _, _, _, _, _, _, h⟩ := h
  exact modRow_length h

theorem layerG_length {ex : K → K} {M : MLP K} {l : ℕ} {s s' : List (List K) × List (List K)}
    (h : layerG ex M l s = some s') : s'.1.length = s.1.length ∧ s'.2.length = s.2.length := by
  unfold layerG at h
  simp only [Option.bind_eq_bind, Option.bind_eq_some_iff, Option.pure_def, Option.some.injEq] at h
  obtain ⟨_, h1, _, _, _, _, _, _, _, _, rfl⟩ := h
  simp [layerProduct_length h1]

theorem bLayerG_length {ex : K → K} {M : MLP K} {B l : ℕ} {s s' : List (List K) × List (List K)}
    (h : bLayerG ex M B l s = some s') : s'.1.length = s.1.length ∧ s'.2.length = s.2.length := by
  unfold bLayerG at h
  simp only [Option.bind_eq_bind, Option.bind_eq_some_iff, Option.pure_def, Option.some.injEq] at h
  obtain ⟨_, h1, _, _, _, _, _, _, rfl⟩ := h
  simp [bLayerProduct_length h1]

theorem loopG_length {n : ℕ} {body : ℕ → List (List K) × List (List K) → Option (List (List K) × List (List K))}
    (hb : ∀ i s s', body i s = some s' → s'.1.length = s.1.length ∧ s'.2.length = s.2.length)
    {s s' : List (List K) × List (List K)} (h : loop n body s = some s') :
    s'.1.length = s.1.length ∧ s'.2.length = s.2.length :=
  loop_pres h (fun c => c.1.length = s.1.length ∧ c.2.length = s.2.length) ⟨rfl, rfl⟩
    (fun i _ c c' hc e => ⟨(hb i c c' e).1.trans hc.1, (hb i c c' e).2.trans hc.2⟩)

theorem backLayer_length {M : MLP K} {da : List (List K)} {l : ℕ} {b b' : List (List K)} (h : backLayer M da l b = some b') :
    b'.length = b.length := by
  unfold backLayer at h
  simp only [Option.bind_eq_bind, Option.bind_eq_some_iff] at h
  obtain ⟨_, _, _, _, _, _, _, _, _, _, _, h1, _, _, h⟩ := h
  exact (modRow_length h).trans (modRow_length h1)

theorem bBackLayer_length {M : MLP K} {B : ℕ} {da : List (List K)} {l : ℕ} {b b' : List (List K)}
    (h : bBackLayer M B da l b = some b') : b'.length = b.length := by
  unfold bBackLayer at h
  simp only [Option.bind_eq_bind, Option.bind_eq_some_iff] at h
  obtain ⟨_, _, _, _, _, _, _, _, _, _, _, h1, _, _, h⟩ := h
  exact (modRow_length h).trans (modRow_length h1)

/-- Objects reachable by any sequence of public calls that did not fail, with any inputs and batch sizes. -/
inductive Reach (ex : K → K) (M0 : MLP K) : MLP K → Prop
  | refl : Reach ex M0 M0
  | evaluate {M : MLP K} {x o M'} : Reach ex M0 M → M.evaluate ex x = some (o, M') → Reach ex M0 M'
  | gradient {M : MLP K} {x o j M'} : Reach ex M0 M → M.evaluateGradient ex x = some (o, j, M') → Reach ex M0 M'
  | batch {M : MLP K} {x B o M'} : Reach ex M0 M → M.evaluateBatch ex x B = some (o, M') → Reach ex M0 M'
  | gradientBatch {M : MLP K} {x B o j M'} : Reach ex M0 M → M.evaluateGradientBatch ex x B = some (o, j, M') →
      Reach ex M0 M'

/-- Same network, same outer dimensions of the work arrays. -/
def Like (M M' : MLP K) : Prop :=
  M'.shape = M.shape ∧ M'.weights = M.weights ∧ M'.scale = M.scale ∧ M'.nodeValues.length = M.nodeValues.length ∧
    M'.nodeDerivs.length = M.nodeDerivs.length ∧ M'.nodeActDerivs.length = M.nodeActDerivs.length

theorem copyIn_length {x : List K} {b b' : List (List K)} (h : copyIn x b = some b') : b'.length = b.length :=
  modRow_length h

theorem like_evaluate {ex : K → K} {M M' : MLP K} {x o} (h : M.evaluate ex x = some (o, M')) : Like M M' := by
  unfold MLP.evaluate at h
  simp only [Option.bind_eq_bind, Option.bind_eq_some_iff, Option.pure_def, Option.some.injEq, Prod.mk.injEq] at h
  obtain ⟨_, h1, _, h2, _, h3, _, h4, _, h5, _, rfl⟩ := h
  exact ⟨rfl, rfl, rfl, (finalLayer_length h4).trans ((loop_length (fun _ _ _ => layer_length) h3).trans
    ((copyIn_length h2).trans (resizeAll_length h1))), rfl, rfl⟩

theorem like_batch {ex : K → K} {M M' : MLP K} {x B o} (h : M.evaluateBatch ex x B = some (o, M')) : Like M M' := by
  unfold MLP.evaluateBatch at h
  simp only [Option.bind_eq_bind, Option.bind_eq_some_iff, Option.pure_def, Option.some.injEq, Prod.mk.injEq] at h
  obtain ⟨_, h1, _, h2, _, h3, _, h4, _, h5, _, rfl⟩ := h
  exact ⟨rfl, rfl, rfl, (bFinalLayer_length h4).trans ((loop_length (fun _ _ _ => bLayer_length) h3).trans
    ((copyIn_length h2).trans (resizeAll_length h1))), rfl, rfl⟩

theorem like_gradient {ex : K → K} {M M' : MLP K} {x o j} (h : M.evaluateGradient ex x = some (o, j, M')) : Like M M' := by
  unfold MLP.evaluateGradient at h
  simp only [Option.bind_eq_bind, Option.bind_eq_some_iff, Option.pure_def, Option.some.injEq, Prod.mk.injEq] at h
  obtain ⟨_, _, _, h1, _, h2, _, h3, _, h4, _, h5, _, h6, _, _, _, h7, _, h8, _, _, _, _, _, _, rfl⟩ := h
  have := loopG_length (fun _ _ _ => layerG_length) h5
  exact ⟨rfl, rfl, rfl, (finalLayer_length h6).trans (this.1.trans ((copyIn_length h4).trans (resizeAll_length h1))),
    (loop_length (fun _ _ _ => backLayer_length) h8).trans ((modRow_length h7).trans (resizeAll_length h3)),
    this.2.trans (resizeAll_length h2)⟩

theorem like_gradientBatch {ex : K → K} {M M' : MLP K} {x B o j} (h : M.evaluateGradientBatch ex x B = some (o, j, M')) :
    Like M M' := by
  unfold MLP.evaluateGradientBatch at h
  simp only [Option.bind_eq_bind, Option.bind_eq_some_iff, Option.pure_def, Option.some.injEq, Prod.mk.injEq] at h
  obtain ⟨_, _, _, h1, _, h2, _, h3, _, h4, _, h5, _, h6, _, _, _, h7, _, h8, _, _, _, _, _, _, rfl⟩ := h
  have := loopG_length (fun _ _ _ => bLayerG_length) h5
  exact ⟨rfl, rfl, rfl, (bFinalLayer_length h6).trans (this.1.trans ((copyIn_length h4).trans (resizeAll_length h1))),
    (loop_length (fun _ _ _ => bBackLayer_length) h8).trans ((modRow_length h7).trans (resizeAll_length h3)),
    this.2.trans (resizeAll_length h2)⟩

theorem Like.trans {M M' M'' : MLP K} (h : Like M M') (h' : Like M' M'') : Like M M'' :=
  ⟨h'.1.trans h.1, h'.2.1.trans h.2.1, h'.2.2.1.trans h.2.2.1, h'.2.2.2.1.trans h.2.2.2.1,
    h'.2.2.2.2.1.trans h.2.2.2.2.1, h'.2.2.2.2.2.trans h.2.2.2.2.2⟩

theorem reach_like {ex : K → K} {M0 M : MLP K} (h : Reach ex M0 M) : Like M0 M := by
  induction h with
  | refl => exact ⟨rfl, rfl, rfl, rfl, rfl, rfl⟩
  | evaluate _ e ih => exact ih.trans (like_evaluate e)
  | gradient _ e ih => exact ih.trans (like_gradient e)
  | batch _ e ih => exact ih.trans (like_batch e)
  | gradientBatch _ e ih => exact ih.trans (like_gradientBatch e)

theorem WF.like {M M' : MLP K} {L n W} (h : WF M L n W) (hl : Like M M') : WF M' L n W := by
  obtain ⟨h1, h2, _, h4, h5, h6⟩ := hl
  exact ⟨h.pos, by rw [h1, h.shape], by rw [h2, h.weights], by rw [h4, h.lv], by rw [h5, h.ld], by rw [h6, h.la]⟩

/-- Width of layer `l`. -/
def width (shape : List ℕ) (l : ℕ) : ℕ := shape[l]?.getD 0

/-- Entry `(i,k)` of the row-major weight matrix `l`. -/
def entry (shape : List ℕ) (weights : List (List K)) (l i k : ℕ) : K := (weights[l]?.getD [])[i * width shape l + k]?.getD 0

/-- Matching shapes: one row-major `shape[l+1] × shape[l]` matrix between consecutive layers, at least two layers. -/
def Matching (shape : List ℕ) (weights : List (List K)) : Prop :=
  1 ≤ weights.length ∧ shape.length = weights.length + 1 ∧
    ∀ l w, weights[l]? = some w → w.length = width shape (l + 1) * width shape l

theorem mk?_spec {shape : List ℕ} {weights : List (List K)} (scale : K) (h : Matching shape weights) :
    ∃ M0, MLP.mk? shape weights scale = some M0 ∧ M0.scale = scale ∧
      WF M0 weights.length (width shape) (entry shape weights) := by
  obtain ⟨h1, h2, h3⟩ := h
  unfold MLP.mk?
  rw [List.getLast?_eq_getElem?, List.getElem?_eq_getElem (by omega)]
  refine ⟨_, rfl, rfl, h1, ?_, ?_, by simp [h2], by simp [h2], by simp [h2]⟩
  · rw [eq_tab_iff]
    refine ⟨h2, fun i hi => ?_⟩
    unfold width
    simp only
    rw [List.getElem?_eq_getElem (by omega)]; rfl
  · rw [eq_tab_iff]
    refine ⟨rfl, fun l hl => ?_⟩
    simp only
    rw [List.getElem?_eq_getElem hl]
    congr 1
    have := h3 l _ (List.getElem?_eq_getElem hl)
    rw [eq_tab2_iff]
    refine ⟨this, fun i hi j hj => ?_⟩
    unfold entry
    rw [List.getElem?_eq_getElem hl, Option.getD_some, List.getElem?_eq_getElem]
    · rfl
    · rw [this]; exact flat_lt hi hj

end

/-! ## The Jacobian -/

theorem hasDerivAt_act (s x : ℝ) : HasDerivAt (act Real.exp s) (actD Real.exp s x) x := by
  have hpos : (1 + Real.exp (-x)) ≠ 0 := by positivity
  have h1 : HasDerivAt (fun x => 1 + Real.exp (-x)) (Real.exp (-x) * -1) x := by
    have := ((hasDerivAt_neg x).exp).const_add 1
    exact this
  have h2 : HasDerivAt (fun x : ℝ => s * x) s x := by simpa using (hasDerivAt_id' x).const_mul s
  have h3 := h2.div h1 hpos
  refine h3.congr_deriv ?_
  unfold actD
  field_simp
  ring

/-- Values of the hidden layers for a batch of inputs. -/
noncomputable def hid (s : ℝ) (n : ℕ → ℕ) (W : ℕ → ℕ → ℕ → ℝ) (x : ℕ → ℕ → ℝ) (l b : ℕ) : ℕ → ℝ :=
  mlpHidden (act Real.exp s) n W (x b) l

/-- Activation derivatives. -/
noncomputable def adv (s : ℝ) (n : ℕ → ℕ) (W : ℕ → ℕ → ℕ → ℝ) (x : ℕ → ℕ → ℝ) : ℕ → ℕ → ℕ → ℝ
  | 0 => fun _ _ => 0
  | l + 1 => fun b i => actD Real.exp s (pre n W (hid s n W x) l b i)

/-- Tangents of the hidden layers along a direction `d b` of input `b`. -/
noncomputable def tang (n : ℕ → ℕ) (W AD : ℕ → ℕ → ℕ → ℝ) (d : ℕ → ℕ → ℝ) : ℕ → ℕ → ℕ → ℝ
  | 0 => d
  | l + 1 => fun b i => AD (l + 1) b i * ∑ k ∈ Finset.range (n l), W l i k * tang n W AD d l b k

theorem pairing (n : ℕ → ℕ) (W AD : ℕ → ℕ → ℕ → ℝ) (L : ℕ) (d : ℕ → ℕ → ℝ) (r : ℕ) {k : ℕ} (hk : k + 1 ≤ L) :
    ∑ j ∈ Finset.range (n (L - 1 - k)), Dk n W AD L k r j * tang n W AD d (L - 1 - k) (r / n L) j
      = ∑ p ∈ Finset.range (n (L - 1)), W (L - 1) (r % n L) p * tang n W AD d (L - 1) (r / n L) p := by
  induction k with
  | zero => rfl
  | succ k ih =>
    rw [← ih (by omega)]
    obtain ⟨l, hl⟩ : ∃ l, l = L - 2 - k := ⟨_, rfl⟩
    have hl1 : L - 1 - k = l + 1 := by omega
    have hl2 : L - 1 - (k + 1) = l := by omega
    simp only [Dk, hl1, ← hl, hl2, tang, Finset.sum_mul, Finset.mul_sum]
    rw [Finset.sum_comm]
    refine Finset.sum_congr rfl (fun p _ => Finset.sum_congr rfl (fun j _ => by ring))

theorem pairing_out (n : ℕ → ℕ) (W AD : ℕ → ℕ → ℕ → ℝ) {L : ℕ} (hL : 1 ≤ L) (d : ℕ → ℕ → ℝ) (r : ℕ) :
    ∑ j ∈ Finset.range (n 0), Dk n W AD L (L - 1) r j * d (r / n L) j
      = ∑ p ∈ Finset.range (n (L - 1)), W (L - 1) (r % n L) p * tang n W AD d (L - 1) (r / n L) p := by
  have := pairing n W AD L d r (k := L - 1) (by omega)
  rwa [Nat.sub_self] at this

theorem hasDerivAt_hid (s : ℝ) (n : ℕ → ℕ) (W : ℕ → ℕ → ℕ → ℝ) (c : ℝ → ℕ → ℕ → ℝ) (d : ℕ → ℕ → ℝ) (t : ℝ) (b : ℕ)
    (hc : ∀ i < n 0, HasDerivAt (fun u => c u b i) (d b i) t) (l : ℕ) :
    ∀ i < n l, HasDerivAt (fun u => hid s n W (c u) l b i) (tang n W (adv s n W (c t)) d l b i) t := by
  induction l with
  | zero => exact hc
  | succ l ih =>
    intro i hi
    have h1 : HasDerivAt (fun u => pre n W (hid s n W (c u)) l b i)
        (∑ k ∈ Finset.range (n l), W l i k * tang n W (adv s n W (c t)) d l b k) t := by
      unfold pre
      exact HasDerivAt.fun_sum (fun k hk => (ih k (Finset.mem_range.mp hk)).const_mul _)
    exact (HasDerivAt.comp t (hasDerivAt_act s _) h1)

theorem hasDerivAt_out (s : ℝ) (n : ℕ → ℕ) (W : ℕ → ℕ → ℕ → ℝ) {L : ℕ} (hL : 1 ≤ L) (c : ℝ → ℕ → ℕ → ℝ) (d : ℕ → ℕ → ℝ) (t : ℝ)
    (r : ℕ) (hc : ∀ i < n 0, HasDerivAt (fun u => c u (r / n L) i) (d (r / n L) i) t) :
    HasDerivAt (fun u => outF n W (hid s n W (c u)) L (r / n L) (r % n L))
      (∑ j ∈ Finset.range (n 0), Dk n W (adv s n W (c t)) L (L - 1) r j * d (r / n L) j) t := by
  rw [pairing_out n W _ hL]
  unfold outF pre
  exact HasDerivAt.fun_sum (fun k hk => (hasDerivAt_hid s n W c d t _ hc _ k (Finset.mem_range.mp hk)).const_mul _)

theorem act_silu (s : ℝ) : act Real.exp s = scaledSilu s := by
  funext x
  unfold act scaledSilu
  rw [div_eq_mul_inv, mul_assoc]

theorem outF_eq (s : ℝ) (n : ℕ → ℕ) (W : ℕ → ℕ → ℕ → ℝ) (L : ℕ) (x : ℕ → ℕ → ℝ) (b : ℕ) :
    outF n W (hid s n W x) L b = mlpOut (scaledSilu s) n W L (x b) := by
  funext i
  unfold outF pre hid mlpOut
  rw [act_silu]

end Verif.MLP
