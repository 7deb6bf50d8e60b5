import Verif.Lemmas.MLPGrad
import Verif.Props.Polynomial
import Mathlib.Tactic.NormNum

/-! # Property theorems: multilayer perceptron (C24 - C27) -/

namespace Verif.Props
open Verif.MLP Verif.Spec

/-- Row `b` of a row-major batch of inputs of width `m`. -/
def rowOf {K : Type} [Zero K] (m : ℕ) (x : List K) (b i : ℕ) : K := x[b * m + i]?.getD 0

section lemmas

theorem hid_step (s : ℝ) (n : ℕ → ℕ) (W : ℕ → ℕ → ℕ → ℝ) (x : ℕ → ℕ → ℝ) (l b i : ℕ) :
    hid s n W x (l + 1) b i = act Real.exp s (pre n W (hid s n W x) l b i) := rfl

theorem adv_step (s : ℝ) (n : ℕ → ℕ) (W : ℕ → ℕ → ℕ → ℝ) (x : ℕ → ℕ → ℝ) (l b i : ℕ) :
    adv s n W x (l + 1) b i = actD Real.exp s (pre n W (hid s n W x) l b i) := rfl

/-- Reachable objects are well formed. -/
theorem reach_wf {shape : List ℕ} {weights : List (List ℝ)} (scale : ℝ) (h : Matching shape weights) :
    ∃ M0, MLP.mk? shape weights scale = some M0 ∧ ∀ M, Reach Real.exp M0 M →
      M.scale = scale ∧ WF M weights.length (width shape) (entry shape weights) := by
  obtain ⟨M0, h1, h2, h3⟩ := mk?_spec scale h
  exact ⟨M0, h1, fun M hM => ⟨(reach_like hM).2.2.1.trans h2, h3.like (reach_like hM)⟩⟩

end lemmas

/-- C24: for every call history, `evaluate` returns the network function. -/
theorem C24_value (shape : List ℕ) (weights : List (List ℝ)) (scale : ℝ) (h : Matching shape weights) :
    ∃ M0, MLP.mk? shape weights scale = some M0 ∧ ∀ M, Reach Real.exp M0 M → ∀ x : List ℝ, x.length = width shape 0 →
      ∃ out M', M.evaluate Real.exp x = some (out, M') ∧ out.length = width shape weights.length ∧
        ∀ i < width shape weights.length, out[i]? =
          some (mlpOut (scaledSilu scale) (width shape) (entry shape weights) weights.length (entries x) i) := by
  obtain ⟨M0, h1, h2⟩ := reach_wf scale h
  refine ⟨M0, h1, fun M hM x hx => ?_⟩
  obtain ⟨hs, hw⟩ := h2 M hM
  subst hs
  obtain ⟨nv, h3, _⟩ := evaluate_spec Real.exp hw
    (H := hid M.scale (width shape) (entry shape weights) (fun _ => entries x)) (hid_step _ _ _ _) (x := x)
    (by rw [← hx]; exact eq_tab_getD x)
  refine ⟨_, _, h3, by simp, fun i hi => ?_⟩
  rw [getElem?_tab_lt hi, outF_eq]

/-- C25: `evaluate_gradient` returns the network function and its row-major Jacobian: row `i` pairs with any
direction `d` to the directional derivative of output `i`. -/
theorem C25_jacobian (shape : List ℕ) (weights : List (List ℝ)) (scale : ℝ) (h : Matching shape weights) :
    ∃ M0, MLP.mk? shape weights scale = some M0 ∧ ∀ M, Reach Real.exp M0 M → ∀ x : List ℝ, x.length = width shape 0 →
      ∃ out jac M', M.evaluateGradient Real.exp x = some (out, jac, M') ∧ out.length = width shape weights.length ∧
        jac.length = width shape weights.length * width shape 0 ∧
        ∀ i < width shape weights.length,
          out[i]? = some (mlpOut (scaledSilu scale) (width shape) (entry shape weights) weights.length (entries x) i) ∧
          ∀ d : ℕ → ℝ, HasDerivAt
            (fun t => mlpOut (scaledSilu scale) (width shape) (entry shape weights) weights.length
              (fun j => entries x j + t * d j) i)
            (∑ j ∈ Finset.range (width shape 0), rowOf (width shape 0) jac i j * d j) 0 := by
  obtain ⟨M0, h1, h2⟩ := reach_wf scale h
  refine ⟨M0, h1, fun M hM x hx => ?_⟩
  obtain ⟨hs, hw⟩ := h2 M hM
  subst hs
  obtain ⟨nv, nd, da, h3, _⟩ := evaluateGradient_spec Real.exp hw
    (H := hid M.scale (width shape) (entry shape weights) (fun _ => entries x)) (hid_step _ _ _ _)
    (AD := adv M.scale (width shape) (entry shape weights) (fun _ => entries x)) (adv_step _ _ _ _) (x := x)
    (by rw [← hx]; exact eq_tab_getD x)
  refine ⟨_, _, _, h3, by simp, by simp, fun i hi => ⟨?_, fun d => ?_⟩⟩
  · rw [getElem?_tab_lt hi, outF_eq]
  · have := hasDerivAt_out M.scale (width shape) (entry shape weights) hw.pos
      (fun t _ j => entries x j + t * d j) (fun _ => d) 0 i (fun j _ => by
        simpa using ((hasDerivAt_id' (0 : ℝ)).mul_const (d j)).const_add (entries x j))
    simp only [outF_eq, Nat.mod_eq_of_lt hi, zero_mul, add_zero] at this
    refine this.congr_deriv ?_
    refine Finset.sum_congr rfl (fun j hj => ?_)
    unfold rowOf
    rw [getElem?_tab2 hi (Finset.mem_range.mp hj)]
    rfl

/-- C26: the batched functions return, for each member, what the single functions return for it. -/
theorem C26_batch (shape : List ℕ) (weights : List (List ℝ)) (scale : ℝ) (h : Matching shape weights) :
    ∃ M0, MLP.mk? shape weights scale = some M0 ∧ ∀ M, Reach Real.exp M0 M → ∀ (B : ℕ) (x : List ℝ),
      x.length = B * width shape 0 →
      ∃ out jac M' M'', M.evaluateBatch Real.exp x B = some (out, M') ∧
        M.evaluateGradientBatch Real.exp x B = some (out, jac, M'') ∧
        out.length = B * width shape weights.length ∧ jac.length = B * (width shape weights.length * width shape 0) ∧
        ∀ b < B, ∀ M1, Reach Real.exp M0 M1 → ∃ o j M1' M1'',
          M1.evaluate Real.exp ((x.drop (b * width shape 0)).take (width shape 0)) = some (o, M1') ∧
          M1.evaluateGradient Real.exp ((x.drop (b * width shape 0)).take (width shape 0)) = some (o, j, M1'') ∧
          o = (out.drop (b * width shape weights.length)).take (width shape weights.length) ∧
          j = (jac.drop (b * (width shape weights.length * width shape 0))).take
            (width shape weights.length * width shape 0) := by
  obtain ⟨M0, h1, h2⟩ := reach_wf scale h
  refine ⟨M0, h1, fun M hM B x hx => ?_⟩
  obtain ⟨hs, hw⟩ := h2 M hM
  subst hs
  have hX : x = tab2 B (width shape 0) (rowOf (width shape 0) x) := eq_tab2_getD x hx
  obtain ⟨nv, h3, _⟩ := evaluateBatch_spec Real.exp hw
    (H := hid M.scale (width shape) (entry shape weights) (rowOf (width shape 0) x)) (hid_step _ _ _ _) hX
  obtain ⟨nv', nd', da', h4, _⟩ := evaluateGradientBatch_spec Real.exp hw
    (H := hid M.scale (width shape) (entry shape weights) (rowOf (width shape 0) x)) (hid_step _ _ _ _)
    (AD := adv M.scale (width shape) (entry shape weights) (rowOf (width shape 0) x)) (adv_step _ _ _ _) hX
  refine ⟨_, _, _, _, h3, h4, by simp, by simp [mul_assoc], fun b hb M1 hM1 => ?_⟩
  obtain ⟨hs1, hw1⟩ := h2 M1 hM1
  have hslice : ∀ {m : ℕ} {L : List ℝ} {f : ℕ → ℝ}, L.length = B * m → (∀ i < m, L[b * m + i]? = some (f i)) →
      (L.drop (b * m)).take m = tab m f := by
    intro m L f hL hf
    have hle : b * m + m ≤ B * m := by
      calc b * m + m = (b + 1) * m := by ring
        _ ≤ B * m := Nat.mul_le_mul_right _ hb
    rw [eq_tab_iff]
    refine ⟨by simp; omega, fun i hi => ?_⟩
    rw [List.getElem?_take_of_lt hi, List.getElem?_drop, hf i hi]
  have hxb := hslice hx (f := fun i => rowOf (width shape 0) x b i) (fun i hi => by
    unfold rowOf
    rw [List.getElem?_eq_getElem (by rw [hx]; exact flat_lt hb hi)]; rfl)
  rw [hxb]
  obtain ⟨nv1, h5, _⟩ := evaluate_spec Real.exp hw1
    (H := hid M1.scale (width shape) (entry shape weights) (fun _ => rowOf (width shape 0) x b)) (hid_step _ _ _ _) rfl
  obtain ⟨nv2, nd2, da2, h6, _⟩ := evaluateGradient_spec Real.exp hw1
    (H := hid M1.scale (width shape) (entry shape weights) (fun _ => rowOf (width shape 0) x b)) (hid_step _ _ _ _)
    (AD := adv M1.scale (width shape) (entry shape weights) (fun _ => rowOf (width shape 0) x b)) (adv_step _ _ _ _) rfl
  refine ⟨_, _, _, _, h5, h6, ?_, ?_⟩
  · symm
    rw [hs1]
    apply hslice (by simp)
    intro i hi
    rw [getElem?_tab2 hb hi]
    simp only [outF_eq]
  · symm
    rw [hs1]
    apply hslice (by simp [mul_assoc])
    intro p hp
    obtain ⟨i, j, hi, hj, rfl⟩ := flat_decomp hp
    have : b * (width shape weights.length * width shape 0) + (i * width shape 0 + j)
        = (b * width shape weights.length + i) * width shape 0 + j := by ring
    rw [this, getElem?_tab2 (flat_lt hb hi) hj, flat_div hj, flat_mod hj]
    congr 1
    have h7 := fun d => pairing_out (width shape) (entry shape weights)
      (adv M.scale (width shape) (entry shape weights) (rowOf (width shape 0) x)) hw.pos d (b * width shape weights.length + i)
    have h8 := fun d => pairing_out (width shape) (entry shape weights)
      (adv M.scale (width shape) (entry shape weights) (fun _ => rowOf (width shape 0) x b)) hw.pos d i
    simp only [flat_div hi, flat_mod hi] at h7
    simp only [Nat.div_eq_of_lt hi, Nat.mod_eq_of_lt hi] at h8
    refine Poly.eq_of_pairing (n := width shape 0) (G := Dk _ _ _ _ _ _) (G' := Dk _ _ _ _ _ _) (fun d => ?_) j hj
    rw [h7 (fun _ => d), h8 (fun _ => d)]
    have key : ∀ l k, tang (width shape) (entry shape weights)
        (adv M.scale (width shape) (entry shape weights) (rowOf (width shape 0) x)) (fun _ => d) l b k =
        tang (width shape) (entry shape weights)
        (adv M.scale (width shape) (entry shape weights) (fun _ => rowOf (width shape 0) x b)) (fun _ => d) l 0 k := by
      intro l
      induction l with
      | zero => intro k; rfl
      | succ l ih =>
        intro k
        simp only [tang, ih]
        rfl
    exact Finset.sum_congr rfl (fun k _ => by rw [key])

/-- C27 for inputs of full length: the result does not depend on earlier calls (which may have had inputs of any
length).  For short inputs see `C27_violated`. -/
theorem C27_no_memory_partial (shape : List ℕ) (weights : List (List ℝ)) (scale : ℝ) (h : Matching shape weights) :
    ∃ M0, MLP.mk? shape weights scale = some M0 ∧ ∀ M, Reach Real.exp M0 M → ∀ x : List ℝ, x.length = width shape 0 →
      ((M.evaluate Real.exp x).map Prod.fst = (M0.evaluate Real.exp x).map Prod.fst ∧
        (M.evaluate Real.exp x).isSome) ∧
      ((M.evaluateGradient Real.exp x).map (fun r => (r.1, r.2.1)) =
          (M0.evaluateGradient Real.exp x).map (fun r => (r.1, r.2.1)) ∧ (M.evaluateGradient Real.exp x).isSome) := by
  obtain ⟨M0, h1, h2⟩ := reach_wf scale h
  refine ⟨M0, h1, fun M hM x hx => ?_⟩
  obtain ⟨hs0, hw0⟩ := h2 M0 .refl
  obtain ⟨hs, hw⟩ := h2 M hM
  have hxt : x = tab (width shape 0) (entries x) := by rw [← hx]; exact eq_tab_getD x
  obtain ⟨nv0, a0, _⟩ := evaluate_spec Real.exp hw0 (H := hid M0.scale (width shape) (entry shape weights)
    (fun _ => entries x)) (hid_step _ _ _ _) hxt
  obtain ⟨nv1, a1, _⟩ := evaluate_spec Real.exp hw (H := hid M.scale (width shape) (entry shape weights)
    (fun _ => entries x)) (hid_step _ _ _ _) hxt
  obtain ⟨_, _, _, b0, _⟩ := evaluateGradient_spec Real.exp hw0 (H := hid M0.scale (width shape) (entry shape weights)
    (fun _ => entries x)) (hid_step _ _ _ _)
    (AD := adv M0.scale (width shape) (entry shape weights) (fun _ => entries x)) (adv_step _ _ _ _) hxt
  obtain ⟨_, _, _, b1, _⟩ := evaluateGradient_spec Real.exp hw (H := hid M.scale (width shape) (entry shape weights)
    (fun _ => entries x)) (hid_step _ _ _ _)
    (AD := adv M.scale (width shape) (entry shape weights) (fun _ => entries x)) (adv_step _ _ _ _) hxt
  rw [a0, a1, b0, b1, hs, hs0]
  exact ⟨⟨rfl, rfl⟩, rfl, rfl⟩

/-- C27 fails for an input shorter than `shape[0]`: entries of the previous input are used.  Network `y = x0 + x1`;
`evaluate({5})` gives 5 on a fresh object and 7 after `evaluate({1,2})`. -/
theorem C27_violated : ∃ (shape : List ℕ) (weights : List (List ℝ)) (x y : List ℝ) (M0 M1 : MLP ℝ) (o1 o2 : List ℝ),
    Matching shape weights ∧ MLP.mk? shape weights 1 = some M0 ∧ (∃ o, M0.evaluate Real.exp x = some (o, M1)) ∧
    (M0.evaluate Real.exp y).map Prod.fst = some o1 ∧ (M1.evaluate Real.exp y).map Prod.fst = some o2 ∧ o1 ≠ o2 := by
  refine ⟨[2, 1], [[1, 1]], [1, 2], [5], ⟨[2, 1], [[1, 1]], 1, [[0, 0], [0]], [[0, 0], [0]], [[0, 0], [0]]⟩,
    ⟨[2, 1], [[1, 1]], 1, [[1, 2], [1 * (0 + 1 * 1 + 1 * 2) + 0 * 0]], [[0, 0], [0]], [[0, 0], [0]]⟩,
    [1 * (0 + 1 * 5 + 1 * 0) + 0 * 0], [1 * (0 + 1 * 5 + 1 * 2) + 0 * (1 * (0 + 1 * 1 + 1 * 2) + 0 * 0)], ?_, rfl, ⟨_, rfl⟩,
    rfl, rfl, by norm_num⟩
  refine ⟨by simp, by simp, fun l w h => ?_⟩
  match l with
  | 0 => simp at h; subst h; rfl
  | l + 1 => simp at h

/-! ## Non-vacuity -/

/-- A three-layer network. -/
example : Matching [2, 2, 1] [[(1 : ℝ), -1, 2, 0], [1, 3]] := by
  refine ⟨by simp, by simp, fun l w h => ?_⟩
  match l with
  | 0 => simp at h; subst h; rfl
  | 1 => simp at h; subst h; rfl
  | l + 2 => simp at h

end Verif.Props
