import Verif.Model.MLP
import Verif.Lemmas.Blas
import Verif.Spec.MLP

/-! # Helper lemmas: multilayer perceptron (C24–C27) -/

namespace Verif.MLP
open Verif.Blas

variable {K : Type} [Field K]

/-- Well-formed network: `L ≥ 1` weight matrices of matching shape; node arrays with one row per layer (of any
length and contents). -/
structure WF (M : MLP K) (L : ℕ) (n : ℕ → ℕ) (W : ℕ → ℕ → ℕ → K) : Prop where
  pos : 1 ≤ L
  shape : M.shape = tab (L + 1) n
  weights : M.weights = tab L (fun l => tab2 (n (l + 1)) (n l) (W l))
  lv : M.nodeValues.length = L + 1
  ld : M.nodeDerivs.length = L + 1
  la : M.nodeActDerivs.length = L + 1

section
variable {M : MLP K} {L : ℕ} {n : ℕ → ℕ} {W : ℕ → ℕ → ℕ → K}

theorem WF.shape_get (h : WF M L n W) {l : ℕ} (hl : l ≤ L) : M.shape[l]? = some (n l) := by
  rw [h.shape, getElem?_tab_lt (by omega)]

theorem WF.shape_len (h : WF M L n W) : M.shape.length = L + 1 := by rw [h.shape, length_tab]

theorem WF.shape_last (h : WF M L n W) : M.shape.getLast? = some (n L) := by
  rw [List.getLast?_eq_getElem?, h.shape_len, Nat.add_sub_cancel, h.shape_get le_rfl]

theorem WF.weights_get (h : WF M L n W) {l : ℕ} (hl : l < L) :
    M.weights[l]? = some (tab2 (n (l + 1)) (n l) (W l)) := by
  rw [h.weights, getElem?_tab_lt hl]

theorem WF.weights_last (h : WF M L n W) :
    M.weights.getLast? = some (tab2 (n L) (n (L - 1)) (W (L - 1))) := by
  have := h.pos
  rw [List.getLast?_eq_getElem?, h.weights, length_tab, getElem?_tab_lt (by omega)]
  congr 2
  rw [Nat.sub_add_cancel this]

/-! ## Rows -/

theorem modRow_eq {α : Type} {b : List α} {l : ℕ} {r r' : α} {f : α → Option α} (h : b[l]? = some r) (hf : f r = some r') :
    modRow b l f = some (b.set l r') := by
  unfold modRow
  simp [h, hf]

/-- Row `q` has length `s q`, for all rows up to `L`. -/
def Rows (L : ℕ) (s : ℕ → ℕ) (b : List (List K)) : Prop :=
  b.length = L + 1 ∧ ∀ q ≤ L, ∃ r, b[q]? = some r ∧ r.length = s q

theorem Rows.set {s : ℕ → ℕ} {b : List (List K)} (h : Rows L s b) {l : ℕ} (hl : l ≤ L) {r : List K} (hr : r.length = s l) :
    Rows L s (b.set l r) := by
  refine ⟨by simp [h.1], fun q hq => ?_⟩
  rw [List.getElem?_set]
  by_cases hlq : l = q
  · subst hlq
    refine ⟨r, ?_, hr⟩
    rw [if_pos rfl, if_pos (by rw [h.1]; omega)]
  · rw [if_neg hlq]; exact h.2 q hq

theorem resizeAll_spec (h : WF M L n W) (f : ℕ) {b : List (List K)} (hb : b.length = L + 1) :
    ∃ b', resizeAll M.shape f b = some b' ∧ Rows L (fun q => f * n q) b' := by
  unfold resizeAll
  have hr := loop_inv (n := M.shape.length) (body := fun i b => do
      let n ← M.shape[i]?
      modRow b i (fun r => some (resize r (f * n))))
    (fun i b' => b'.length = L + 1 ∧ ∀ q < i, ∃ r, b'[q]? = some r ∧ r.length = f * n q) (s := b)
    ⟨hb, by simp⟩ (by
      rintro i hi b' ⟨h1, h2⟩
      rw [h.shape_len] at hi
      have hib : i < b'.length := by omega
      refine ⟨b'.set i (resize b'[i] (f * n i)), ?_, by simp [h1], ?_⟩
      · rw [h.shape_get (by omega)]
        exact modRow_eq (List.getElem?_eq_getElem hib) rfl
      · intro q hq
        rw [List.getElem?_set]
        by_cases hiq : i = q
        · subst hiq
          exact ⟨_, by rw [if_pos rfl, if_pos hib], by simp⟩
        · rw [if_neg hiq]
          exact h2 q (by omega))
  obtain ⟨b', h1, h2, h3⟩ := hr
  rw [h.shape_len] at h3
  exact ⟨b', h1, h2, fun q hq => h3 q (by omega)⟩

/-! ## Forward pass -/

/-- Rows up to `l` hold the layer values of a batch of `B` inputs. -/
def Fwd (L : ℕ) (n : ℕ → ℕ) (B : ℕ) (H : ℕ → ℕ → ℕ → K) (l : ℕ) (nv : List (List K)) : Prop :=
  Rows L (fun q => B * n q) nv ∧ ∀ q ≤ l, nv[q]? = some (tab2 B (n q) (H q))

variable {B : ℕ} {H : ℕ → ℕ → ℕ → K}

theorem tab2_one {α : Type*} (m : ℕ) (f : ℕ → ℕ → α) : tab2 1 m f = tab m (f 0) := by
  unfold tab2
  rw [one_mul]
  apply tab_congr
  intro i hi
  rw [Nat.div_eq_of_lt hi, Nat.mod_eq_of_lt hi]

theorem copyIn_spec {input : List K} {b : List (List K)} (hb : Rows L (fun q => B * n q) b) (hi : input = tab2 B (n 0) (H 0)) :
    ∃ b', copyIn input b = some b' ∧ Fwd L n B H 0 b' := by
  obtain ⟨r, h1, h2⟩ := hb.2 0 (Nat.zero_le _)
  beta_reduce at h2
  have hl : input.length = B * n 0 := by rw [hi, length_tab2]
  have hd : input ++ r.drop input.length = tab2 B (n 0) (H 0) := by
    rw [List.drop_of_length_le (by omega), List.append_nil, hi]
  refine ⟨b.set 0 (tab2 B (n 0) (H 0)), modRow_eq h1 ?_, hb.set (Nat.zero_le _) (by simp), ?_⟩
  · rw [if_pos (by omega), hd]
  · intro q hq
    obtain rfl : q = 0 := by omega
    rw [List.getElem?_set, if_pos rfl, if_pos (by rw [hb.1]; omega)]

theorem Fwd.set {l : ℕ} {nv : List (List K)} (h : Fwd L n B H l nv) (hl : l + 1 ≤ L) :
    Fwd L n B H (l + 1) (nv.set (l + 1) (tab2 B (n (l + 1)) (H (l + 1)))) := by
  refine ⟨h.1.set hl (by simp), fun q hq => ?_⟩
  rw [List.getElem?_set]
  by_cases hlq : l + 1 = q
  · subst hlq
    rw [if_pos rfl, if_pos (by rw [h.1.1]; omega)]
  · rw [if_neg hlq]; exact h.2 q (by omega)

/-- Pre-activations of layer `l+1`. -/
def pre (n : ℕ → ℕ) (W H : ℕ → ℕ → ℕ → K) (l : ℕ) (b i : ℕ) : K :=
  ∑ k ∈ Finset.range (n l), W l i k * H l b k

theorem layerProduct_spec (h : WF M L n W) {l : ℕ} (hl : l + 1 ≤ L) {nv : List (List K)} (hf : Fwd L n 1 H l nv) :
    layerProduct M l nv = some (nv.set (l + 1) (tab2 1 (n (l + 1)) (pre n W H l))) := by
  unfold layerProduct
  obtain ⟨r, h1, h2⟩ := hf.1.2 (l + 1) hl
  beta_reduce at h2
  rw [h.shape_get hl, h.shape_get (by omega), h.weights_get (by omega), hf.2 l le_rfl]
  simp only [Option.bind_eq_bind, Option.bind_some]
  refine modRow_eq h1 ?_
  rw [gemv_full (A := W l) (X := H l 0) (fun i hi p hp => getElem?_tab2 hi hp) (fun p hp => by
    rw [tab2_one, getElem?_tab_lt hp]) (by rw [h2, one_mul]), tab2_one]
  rfl

theorem bLayerProduct_spec (h : WF M L n W) {l : ℕ} (hl : l + 1 ≤ L) {nv : List (List K)} (hf : Fwd L n B H l nv) :
    bLayerProduct M B l nv = some (nv.set (l + 1) (tab2 B (n (l + 1)) (pre n W H l))) := by
  unfold bLayerProduct
  obtain ⟨r, h1, h2⟩ := hf.1.2 (l + 1) hl
  beta_reduce at h2
  rw [h.shape_get hl, h.shape_get (by omega), h.weights_get (by omega), hf.2 l le_rfl]
  simp only [Option.bind_eq_bind, Option.bind_some]
  refine modRow_eq h1 ?_
  rw [gemm_full (A := H l) (B := fun p j => W l j p)
    (fun i hi p hp => by simp only [mIdx, Bool.false_eq_true, if_false, zero_add]; exact getElem?_tab2 hi hp)
    (fun p hp j hj => by simp only [mIdx, if_true, zero_add]; exact getElem?_tab2 hj hp) h2]
  congr 1
  apply tab2_congr
  intro i hi j hj
  exact Finset.sum_congr rfl (fun p _ => mul_comm _ _)

theorem md_loop {L : ℕ} (f : K → K) {b : List K} (hb : b.length = L) {g : ℕ → K} (hg : b = tab L g) :
    loop L (fun i y => md y i f) b = some (tab L (fun i => f (g i))) := by
  rw [(Acts1.loop (L := L) (n := L) (fun i hi => Acts1.md hi f)) b hb, hg, tab_mapIdx]
  congr 1
  apply tab_congr
  intro p hp
  exact iter_eq hp (fun _ x => f x) _

theorem layer_spec (ex : K → K) (h : WF M L n W) (hH : ∀ l b i, H (l + 1) b i = act ex M.scale (pre n W H l b i))
    {l : ℕ} (hl : l + 1 ≤ L) {nv : List (List K)} (hf : Fwd L n 1 H l nv) :
    ∃ nv', layer ex M l nv = some nv' ∧ Fwd L n 1 H (l + 1) nv' := by
  refine ⟨_, ?_, hf.set hl⟩
  unfold layer
  rw [layerProduct_spec h hl hf, h.shape_get hl]
  simp only [Option.bind_eq_bind, Option.bind_some]
  have hlt : l + 1 < nv.length := by rw [hf.1.1]; omega
  rw [modRow_eq (r := tab2 1 (n (l + 1)) (pre n W H l)) (r' := tab2 1 (n (l + 1)) (H (l + 1)))]
  · rw [List.set_set]
  · rw [List.getElem?_set_self hlt]
  · rw [tab2_one, tab2_one, md_loop _ (by simp) rfl]
    congr 1
    exact tab_congr (fun i _ => (hH l 0 i).symm)

theorem bLayer_spec (ex : K → K) (h : WF M L n W) (hH : ∀ l b i, H (l + 1) b i = act ex M.scale (pre n W H l b i))
    {l : ℕ} (hl : l + 1 ≤ L) {nv : List (List K)} (hf : Fwd L n B H l nv) :
    ∃ nv', bLayer ex M B l nv = some nv' ∧ Fwd L n B H (l + 1) nv' := by
  refine ⟨_, ?_, hf.set hl⟩
  unfold bLayer
  rw [bLayerProduct_spec h hl hf]
  simp only [Option.bind_eq_bind, Option.bind_some]
  have hlt : l + 1 < nv.length := by rw [hf.1.1]; omega
  rw [modRow_eq (r := tab2 B (n (l + 1)) (pre n W H l)) (r' := tab2 B (n (l + 1)) (H (l + 1)))]
  · rw [List.set_set]
  · rw [List.getElem?_set_self hlt]
  · rw [length_tab2]
    unfold tab2
    rw [md_loop _ (by simp) rfl]
    congr 1
    exact tab2_congr (f := fun b i => act ex M.scale (pre n W H l b i)) (fun b _ i _ => (hH l b i).symm)

/-- Output of the final layer. -/
def outF (n : ℕ → ℕ) (W H : ℕ → ℕ → ℕ → K) (L : ℕ) : ℕ → ℕ → K := pre n W H (L - 1)

theorem finalLayer_spec (h : WF M L n W) {nv : List (List K)} (hf : Fwd L n 1 H (L - 1) nv) :
    finalLayer M nv = some (nv.set L (tab2 1 (n L) (outF n W H L))) := by
  have hp := h.pos
  unfold finalLayer
  obtain ⟨r, h1, h2⟩ := hf.1.2 L le_rfl
  beta_reduce at h2
  rw [h.shape_len, hf.1.1, Nat.add_sub_cancel, show L + 1 - 2 = L - 1 by omega, h.shape_get le_rfl, h.shape_get (by omega),
    h.weights_last, hf.2 (L - 1) le_rfl]
  simp only [Option.bind_eq_bind, Option.bind_some]
  refine modRow_eq h1 ?_
  rw [gemv_full (A := W (L - 1)) (X := H (L - 1) 0) (fun i hi p hp => getElem?_tab2 hi hp) (fun p hp => by
    rw [tab2_one, getElem?_tab_lt hp]) (by rw [h2, one_mul]), tab2_one]
  rfl

theorem bFinalLayer_spec (h : WF M L n W) {nv : List (List K)} (hf : Fwd L n B H (L - 1) nv) :
    bFinalLayer M B nv = some (nv.set L (tab2 B (n L) (outF n W H L))) := by
  have hp := h.pos
  unfold bFinalLayer
  obtain ⟨r, h1, h2⟩ := hf.1.2 L le_rfl
  beta_reduce at h2
  rw [h.shape_len, hf.1.1, Nat.add_sub_cancel, show L + 1 - 2 = L - 1 by omega, h.shape_get le_rfl, h.shape_get (by omega),
    h.weights_last, hf.2 (L - 1) le_rfl]
  simp only [Option.bind_eq_bind, Option.bind_some]
  refine modRow_eq h1 ?_
  rw [gemm_full (A := H (L - 1)) (B := fun p j => W (L - 1) j p)
    (fun i hi p hp => by simp only [mIdx, Bool.false_eq_true, if_false, zero_add]; exact getElem?_tab2 hi hp)
    (fun p hp j hj => by simp only [mIdx, if_true, zero_add]; exact getElem?_tab2 hj hp) h2]
  congr 1
  apply tab2_congr
  intro i hi j hj
  exact Finset.sum_congr rfl (fun p _ => mul_comm _ _)

theorem getLast?_set {nv : List (List K)} (hl : nv.length = L + 1) (r : List K) : (nv.set L r).getLast? = some r := by
  rw [List.getLast?_eq_getElem?, List.length_set, hl, Nat.add_sub_cancel, List.getElem?_set_self]
  omega

theorem evaluate_spec (ex : K → K) (h : WF M L n W) (hH : ∀ l b i, H (l + 1) b i = act ex M.scale (pre n W H l b i))
    {x : List K} (hx : x = tab (n 0) (H 0 0)) :
    ∃ nv, M.evaluate ex x = some (tab (n L) (outF n W H L 0), { M with nodeValues := nv }) ∧ nv.length = L + 1 := by
  have hp := h.pos
  obtain ⟨b1, e1, r1⟩ := resizeAll_spec h 1 h.lv
  obtain ⟨b2, e2, f2⟩ := copyIn_spec (H := H) (input := x) r1 (by rw [tab2_one]; exact hx)
  obtain ⟨b3, e3, f3⟩ := loop_inv (n := M.shape.length - 2) (body := layer ex M) (fun l nv => Fwd L n 1 H l nv) f2 (by
    intro l hl nv hf
    rw [h.shape_len] at hl
    exact layer_spec ex h hH (by omega) hf)
  rw [show M.shape.length - 2 = L - 1 by rw [h.shape_len]; omega] at e3 f3
  refine ⟨b3.set L (tab2 1 (n L) (outF n W H L)), ?_, by simp [f3.1.1]⟩
  unfold MLP.evaluate
  rw [show M.shape.length - 2 = L - 1 by rw [h.shape_len]; omega, e1]
  simp only [Option.bind_eq_bind, Option.bind_some]
  rw [e2, Option.bind_some, e3, Option.bind_some, finalLayer_spec h f3, Option.bind_some, getLast?_set f3.1.1]
  rw [tab2_one]
  rfl

theorem evaluateBatch_spec (ex : K → K) (h : WF M L n W) (hH : ∀ l b i, H (l + 1) b i = act ex M.scale (pre n W H l b i))
    {x : List K} (hx : x = tab2 B (n 0) (H 0)) :
    ∃ nv, M.evaluateBatch ex x B = some (tab2 B (n L) (outF n W H L), { M with nodeValues := nv }) ∧ nv.length = L + 1 := by
  have hp := h.pos
  obtain ⟨b1, e1, r1⟩ := resizeAll_spec h B h.lv
  obtain ⟨b2, e2, f2⟩ := copyIn_spec (H := H) r1 hx
  obtain ⟨b3, e3, f3⟩ := loop_inv (n := M.shape.length - 2) (body := bLayer ex M B) (fun l nv => Fwd L n B H l nv) f2 (by
    intro l hl nv hf
    rw [h.shape_len] at hl
    exact bLayer_spec ex h hH (by omega) hf)
  rw [show M.shape.length - 2 = L - 1 by rw [h.shape_len]; omega] at e3 f3
  refine ⟨b3.set L (tab2 B (n L) (outF n W H L)), ?_, by simp [f3.1.1]⟩
  unfold MLP.evaluateBatch
  rw [show M.shape.length - 2 = L - 1 by rw [h.shape_len]; omega, e1]
  simp only [Option.bind_eq_bind, Option.bind_some]
  rw [e2, Option.bind_some, e3, Option.bind_some, bFinalLayer_spec h f3, Option.bind_some, getLast?_set f3.1.1]
  rfl

/-! ## Gradient: forward part -/

/-- Rows `1..l` hold the activation derivatives. -/
def FwdA (L : ℕ) (n : ℕ → ℕ) (B : ℕ) (AD : ℕ → ℕ → ℕ → K) (l : ℕ) (da : List (List K)) : Prop :=
  Rows L (fun q => B * n q) da ∧ ∀ q ≤ l, 1 ≤ q → da[q]? = some (tab2 B (n q) (AD q))

theorem FwdA.set {AD : ℕ → ℕ → ℕ → K} {l : ℕ} {da : List (List K)} (h : FwdA L n B AD l da) (hl : l + 1 ≤ L) :
    FwdA L n B AD (l + 1) (da.set (l + 1) (tab2 B (n (l + 1)) (AD (l + 1)))) := by
  refine ⟨h.1.set hl (by simp), fun q hq hq1 => ?_⟩
  rw [List.getElem?_set]
  by_cases hlq : l + 1 = q
  · subst hlq
    rw [if_pos rfl, if_pos (by rw [h.1.1]; omega)]
  · rw [if_neg hlq]; exact h.2 q (by omega) hq1

/-- The activation loop over a pair of buffers. -/
theorem act_loop {m : ℕ} (f g : K → K) (z : ℕ → K) {d : List K} (hd : d.length = m) :
    loop m (fun i (yd : List K × List K) => do
      let x ← yd.1[i]?
      let y ← wr yd.1 i (f x)
      let d ← wr yd.2 i (g x)
      pure (y, d)) (tab m z, d) = some (tab m (fun i => f (z i)), tab m (fun i => g (z i))) := by
  obtain ⟨D, hD⟩ : ∃ D : ℕ → K, d = tab m D := ⟨_, by rw [← hd]; exact eq_tab_getD d⟩
  subst hD
  have h := loop_eq (n := m) (body := fun i (yd : List K × List K) => do
      let x ← yd.1[i]?
      let y ← wr yd.1 i (f x)
      let d ← wr yd.2 i (g x)
      pure (y, d))
    (fun k => (tab m (fun i => if i < k then f (z i) else z i), tab m (fun i => if i < k then g (z i) else D i))) (by
      intro i hi
      simp only [getElem?_tab_lt hi, lt_irrefl, if_false, Option.bind_eq_bind, Option.bind_some, wr_tab _ hi, Option.pure_def]
      congr 1
      refine Prod.ext ?_ ?_
      · apply tab_congr
        intro j hj
        by_cases h : j = i
        · subst h; simp
        · rw [Function.update_of_ne h]
          have : j < i + 1 ↔ j < i := by omega
          simp [this]
      · apply tab_congr
        intro j hj
        by_cases h : j = i
        · subst h; simp
        · rw [Function.update_of_ne h]
          have : j < i + 1 ↔ j < i := by omega
          simp [this])
  simp only [Nat.not_lt_zero, if_false] at h
  rw [h]
  congr 1
  refine Prod.ext ?_ ?_ <;> exact tab_congr (fun i hi => if_pos hi)

theorem act'_eq (ex : K → K) (s x : K) : act' ex s x = act ex s x := by
  unfold act act'; rw [mul_one_div]

theorem layerG_spec (ex : K → K) (h : WF M L n W) (hH : ∀ l b i, H (l + 1) b i = act ex M.scale (pre n W H l b i))
    {AD : ℕ → ℕ → ℕ → K} (hAD : ∀ l b i, AD (l + 1) b i = actD ex M.scale (pre n W H l b i))
    {l : ℕ} (hl : l + 1 ≤ L) {s : List (List K) × List (List K)} (hf : Fwd L n 1 H l s.1) (ha : FwdA L n 1 AD l s.2) :
    ∃ s', layerG ex M l s = some s' ∧ Fwd L n 1 H (l + 1) s'.1 ∧ FwdA L n 1 AD (l + 1) s'.2 := by
  obtain ⟨nv, da⟩ := s
  refine ⟨(_, _), ?_, hf.set hl, ha.set hl⟩
  have hlt : l + 1 < nv.length := by have := hf.1.1; simp only at this; omega
  obtain ⟨r, h1, h2⟩ := ha.1.2 (l + 1) hl
  simp only at h1 h2
  unfold layerG
  rw [layerProduct_spec h hl hf, h.shape_get hl]
  simp only [Option.bind_eq_bind, Option.bind_some]
  rw [List.getElem?_set_self hlt, h1]
  simp only [Option.bind_some]
  have := act_loop (m := n (l + 1)) (act' ex M.scale) (actD ex M.scale) (pre n W H l 0) (d := r) (by rw [h2, one_mul])
  simp only [Option.bind_eq_bind] at this
  rw [tab2_one, this]
  simp only [Option.bind_some, Option.pure_def, List.set_set]
  rw [tab2_one, tab2_one]
  have e1 : tab (n (l + 1)) (fun i => act' ex M.scale (pre n W H l 0 i)) = tab (n (l + 1)) (H (l + 1) 0) :=
    tab_congr (fun i _ => by rw [hH, act'_eq])
  have e2 : tab (n (l + 1)) (fun i => actD ex M.scale (pre n W H l 0 i)) = tab (n (l + 1)) (AD (l + 1) 0) :=
    tab_congr (fun i _ => by rw [hAD])
  rw [e1, e2]

theorem bLayerG_spec (ex : K → K) (h : WF M L n W) (hH : ∀ l b i, H (l + 1) b i = act ex M.scale (pre n W H l b i))
    {AD : ℕ → ℕ → ℕ → K} (hAD : ∀ l b i, AD (l + 1) b i = actD ex M.scale (pre n W H l b i))
    {l : ℕ} (hl : l + 1 ≤ L) {s : List (List K) × List (List K)} (hf : Fwd L n B H l s.1) (ha : FwdA L n B AD l s.2) :
    ∃ s', bLayerG ex M B l s = some s' ∧ Fwd L n B H (l + 1) s'.1 ∧ FwdA L n B AD (l + 1) s'.2 := by
  obtain ⟨nv, da⟩ := s
  refine ⟨(_, _), ?_, hf.set hl, ha.set hl⟩
  have hlt : l + 1 < nv.length := by have := hf.1.1; simp only at this; omega
  obtain ⟨r, h1, h2⟩ := ha.1.2 (l + 1) hl
  simp only at h1 h2
  unfold bLayerG
  rw [bLayerProduct_spec h hl hf]
  simp only [Option.bind_eq_bind, Option.bind_some]
  rw [List.getElem?_set_self hlt, h1]
  simp only [Option.bind_some, length_tab2]
  have := act_loop (m := B * n (l + 1)) (act' ex M.scale) (actD ex M.scale)
    (fun p => pre n W H l (p / n (l + 1)) (p % n (l + 1))) (d := r) h2
  simp only [Option.bind_eq_bind] at this
  rw [show tab2 B (n (l + 1)) (pre n W H l) = tab (B * n (l + 1))
    (fun p => pre n W H l (p / n (l + 1)) (p % n (l + 1))) from rfl, this]
  simp only [Option.bind_some, Option.pure_def, List.set_set]
  have e1 : tab (B * n (l + 1)) (fun p => act' ex M.scale (pre n W H l (p / n (l + 1)) (p % n (l + 1))))
      = tab2 B (n (l + 1)) (H (l + 1)) :=
    tab_congr (fun i _ => by rw [hH, act'_eq])
  have e2 : tab (B * n (l + 1)) (fun p => actD ex M.scale (pre n W H l (p / n (l + 1)) (p % n (l + 1))))
      = tab2 B (n (l + 1)) (AD (l + 1)) :=
    tab_congr (fun i _ => by rw [hAD])
  rw [e1, e2]

/-! ## Gradient: backward part -/

/-- The backward recursion; row `r` stands for output `r % n L` of batch member `r / n L`; `Dk k` is the matrix at
layer `L-1-k`. -/
def Dk (n : ℕ → ℕ) (W AD : ℕ → ℕ → ℕ → K) (L : ℕ) : ℕ → ℕ → ℕ → K
  | 0 => fun r p => W (L - 1) (r % n L) p
  | k + 1 => fun r j => ∑ p ∈ Finset.range (n (L - 1 - k)), Dk n W AD L k r p * AD (L - 1 - k) (r / n L) p * W (L - 2 - k) p j

theorem backLayer_spec (h : WF M L n W) {AD : ℕ → ℕ → ℕ → K} {da : List (List K)} (ha : FwdA L n 1 AD (L - 1) da)
    {k : ℕ} (hk : k + 2 ≤ L) {nd : List (List K)} (hr : Rows L (fun q => 1 * n L * n q) nd)
    (hD : nd[L - 1 - k]? = some (tab2 (n L) (n (L - 1 - k)) (Dk n W AD L k))) :
    ∃ nd', backLayer M da (L - 2 - k) nd = some nd' ∧ Rows L (fun q => 1 * n L * n q) nd' ∧
      nd'[L - 1 - (k + 1)]? = some (tab2 (n L) (n (L - 1 - (k + 1))) (Dk n W AD L (k + 1))) := by
  obtain ⟨l, hl⟩ : ∃ l, l = L - 2 - k := ⟨_, rfl⟩
  have hl1 : L - 1 - k = l + 1 := by omega
  have hl2 : L - 1 - (k + 1) = l := by omega
  rw [hl1] at hD
  rw [← hl, hl2]
  obtain ⟨r, h1, h2⟩ := hr.2 l (by omega)
  have hnd : nd.length = L + 1 := hr.1
  have hscale : loop (n L) (fun i => loop (n (l + 1)) (fun j r => do
      let x ← (tab2 1 (n (l + 1)) (AD (l + 1)))[j]?
      md r (i * n (l + 1) + j) (fun z => z * x))) (tab2 (n L) (n (l + 1)) (Dk n W AD L k))
      = some (tab2 (n L) (n (l + 1)) (fun i j => Dk n W AD L k i j * AD (l + 1) 0 j)) := by
    have := (Acts1.loop (L := n L * n (l + 1)) (n := n L) (fun i hi => Acts1.loop (L := n L * n (l + 1)) (n := n (l + 1))
      (fun j hj => (Acts1.md (L := n L * n (l + 1)) (flat_lt hi hj) (fun z => z * AD (l + 1) 0 j))))) (tab2 (n L) (n (l + 1)) (Dk n W AD L k)) (by simp)
    rw [loop_congr (body' := fun i => loop (n (l + 1)) (fun j r => md r (i * n (l + 1) + j) (fun z => z * AD (l + 1) 0 j)))]
    · rw [this]
      congr 1
      rw [eq_tab2_iff]
      refine ⟨by simp, fun i hi j hj => ?_⟩
      rw [List.getElem?_mapIdx, getElem?_tab2 hi hj]
      simp only [Option.map_some]
      congr 1
      rw [iter_congr (H := fun i' x => if i = i' then x * AD (l + 1) 0 j else x)]
      · rw [iter_eq hi]
      · intro i' _ x
        exact iter_flat hj (fun j' x => x * AD (l + 1) 0 j') x
    · intro i hi s
      apply loop_congr
      intro j hj s
      rw [tab2_one, getElem?_tab_lt hj]; rfl
  refine ⟨(nd.set (l + 1) (tab2 (n L) (n (l + 1)) (fun i j => Dk n W AD L k i j * AD (l + 1) 0 j))).set l
    (tab2 (n L) (n l) (Dk n W AD L (k + 1))), ?_, ?_, ?_⟩
  · unfold backLayer
    rw [h.shape_last, h.shape_get (show l + 1 ≤ L by omega), h.shape_get (show l ≤ L by omega), h.weights_get (show l < L by omega),
      ha.2 (l + 1) (by omega) (by omega)]
    simp only [Option.bind_eq_bind, Option.bind_some] at hscale ⊢
    rw [modRow_eq hD hscale, Option.bind_some, List.getElem?_set_self (by omega), Option.bind_some]
    refine modRow_eq (r := r) ?_ ?_
    · rw [List.getElem?_set_ne (by omega), h1]
    · rw [gemm_full (A := fun i j => Dk n W AD L k i j * AD (l + 1) 0 j) (B := W l)
        (fun i hi p hp => by simp only [mIdx, Bool.false_eq_true, if_false, zero_add]; exact getElem?_tab2 hi hp)
        (fun p hp j hj => by simp only [mIdx, Bool.false_eq_true, if_false, zero_add]; exact getElem?_tab2 hp hj)
        (by rw [h2, one_mul])]
      congr 1
      apply tab2_congr
      intro i hi j hj
      simp only [Dk, hl1, ← hl, Nat.div_eq_of_lt hi]
  · apply Rows.set _ (by omega) (by simp)
    exact hr.set (by omega) (by simp)
  · rw [List.getElem?_set_self (by simp; omega)]

theorem evaluateGradient_spec (ex : K → K) (h : WF M L n W)
    (hH : ∀ l b i, H (l + 1) b i = act ex M.scale (pre n W H l b i))
    {AD : ℕ → ℕ → ℕ → K} (hAD : ∀ l b i, AD (l + 1) b i = actD ex M.scale (pre n W H l b i))
    {x : List K} (hx : x = tab (n 0) (H 0 0)) :
    ∃ nv nd da, M.evaluateGradient ex x = some (tab (n L) (outF n W H L 0), tab2 (n L) (n 0) (Dk n W AD L (L - 1)),
      { M with nodeValues := nv, nodeDerivs := nd, nodeActDerivs := da }) ∧
      nv.length = L + 1 ∧ nd.length = L + 1 ∧ da.length = L + 1 := by
  have hp := h.pos
  have e0 : M.shape.length - 2 = L - 1 := by rw [h.shape_len]; omega
  obtain ⟨b1, e1, r1⟩ := resizeAll_spec h 1 h.lv
  obtain ⟨a1, ea1, ra1⟩ := resizeAll_spec h 1 h.la
  obtain ⟨d1, ed1, rd1⟩ := resizeAll_spec h (n L) h.ld
  obtain ⟨b2, e2, f2⟩ := copyIn_spec (H := H) (input := x) r1 (by rw [tab2_one]; exact hx)
  have fa : FwdA L n 1 AD 0 a1 := ⟨ra1, fun q hq hq1 => by omega⟩
  obtain ⟨s, e3, f3, fa3⟩ := loop_inv (n := L - 1) (body := layerG ex M)
    (fun l s => Fwd L n 1 H l s.1 ∧ FwdA L n 1 AD l s.2) (s := (b2, a1)) ⟨f2, fa⟩ (by
      rintro l hl s ⟨h1, h2⟩
      exact layerG_spec ex h hH hAD (by omega) h1 h2)
  have hd1 : d1.length = L + 1 := rd1.1
  have hrow : Rows L (fun q => 1 * n L * n q) (d1.set (L - 1) (tab2 (n L) (n (L - 1)) (W (L - 1)))) := by
    apply Rows.set _ (by omega) (by simp)
    simpa using rd1
  have hW : tab2 (n L) (n (L - 1)) (W (L - 1)) = tab2 (n L) (n (L - 1)) (Dk n W AD L 0) :=
    tab2_congr (fun i hi j _ => by simp only [Dk, Nat.mod_eq_of_lt hi])
  obtain ⟨nd, e4, r4, f4⟩ := loop_inv (n := L - 1) (body := fun k => backLayer M s.2 (L - 2 - k))
    (fun k nd => Rows L (fun q => 1 * n L * n q) nd ∧
      nd[L - 1 - k]? = some (tab2 (n L) (n (L - 1 - k)) (Dk n W AD L k)))
    (s := d1.set (L - 1) (tab2 (n L) (n (L - 1)) (W (L - 1)))) ⟨hrow, by
      rw [Nat.sub_zero, List.getElem?_set_self (by omega), hW]⟩ (by
      rintro k hk nd ⟨h1, h2⟩
      exact backLayer_spec h fa3 (by omega) h1 h2)
  rw [Nat.sub_self] at f4
  refine ⟨s.1.set L (tab2 1 (n L) (outF n W H L)), nd, s.2, ?_, by simp [f3.1.1], r4.1, fa3.1.1⟩
  unfold MLP.evaluateGradient
  rw [e0, h.shape_last, show M.shape.length - 3 = L - 2 by rw [h.shape_len]; omega]
  simp only [Option.bind_eq_bind, Option.bind_some]
  rw [e1, Option.bind_some, ea1, Option.bind_some, ed1, Option.bind_some, e2, Option.bind_some, e3, Option.bind_some,
    finalLayer_spec h f3, Option.bind_some, h.weights_last, Option.bind_some, hd1, show L + 1 - 2 = L - 1 by omega]
  rw [modRow_eq (r := d1[L - 1]'(by omega)) (r' := tab2 (n L) (n (L - 1)) (W (L - 1))) (List.getElem?_eq_getElem _) rfl, Option.bind_some, e4, Option.bind_some,
    getLast?_set f3.1.1, Option.bind_some, f4, tab2_one]
  rfl

/-! ### Batched gradient -/

theorem bCopyWeights_spec {o m : ℕ} (Wf : ℕ → ℕ → K) {r : List K} (hr : r.length = B * o * m) :
    bCopyWeights (tab2 o m Wf) B r = some (tab2 (B * o) m (fun r p => Wf (r % o) p)) := by
  unfold bCopyWeights
  rw [length_tab2]
  have hlt : ∀ {i : ℕ}, i < B → ∀ {j : ℕ}, j < o * m → i * (o * m) + j < B * o * m := by
    intro i hi j hj
    have := flat_lt hi hj
    rwa [mul_assoc]
  have h := (Acts1.loop (L := B * o * m) (n := B) (fun i hi => Acts1.loop (L := B * o * m) (n := o * m)
    (fun j hj => (Acts1.wr (L := B * o * m) (hlt hi hj) (Wf (j / m) (j % m)))))) r hr
  rw [loop_congr (body' := fun i => loop (o * m) (fun j r => wr r (i * (o * m) + j) (Wf (j / m) (j % m))))]
  · rw [h]
    congr 1
    apply mapIdx_eq_tab hr
    intro p hp x
    obtain ⟨i, j, hi, hj, rfl⟩ := flat_decomp (A := B) (C := o * m) (p := p) (by rw [← mul_assoc]; exact hp)
    rw [iter_congr (H := fun i' x => if i = i' then Wf (j / m) (j % m) else x)]
    · rw [iter_eq hi]
      obtain ⟨a, c, ha, hc, rfl⟩ := flat_decomp hj
      have : i * (o * m) + (a * m + c) = (i * o + a) * m + c := by ring
      rw [this, flat_div hc, flat_mod hc, flat_div hc, flat_mod hc]
      beta_reduce
      rw [flat_mod ha]
    · intro i' _ x
      exact iter_flat hj (fun j' _ => Wf (j' / m) (j' % m)) x
  · intro i hi s
    apply loop_congr
    intro j hj s
    unfold tab2
    rw [getElem?_tab_lt hj]; rfl

theorem bBackLayer_spec (h : WF M L n W) {AD : ℕ → ℕ → ℕ → K} {da : List (List K)} (ha : FwdA L n B AD (L - 1) da)
    {k : ℕ} (hk : k + 2 ≤ L) {nd : List (List K)} (hr : Rows L (fun q => B * n L * n q) nd)
    (hD : nd[L - 1 - k]? = some (tab2 (B * n L) (n (L - 1 - k)) (Dk n W AD L k))) :
    ∃ nd', bBackLayer M B da (L - 2 - k) nd = some nd' ∧ Rows L (fun q => B * n L * n q) nd' ∧
      nd'[L - 1 - (k + 1)]? = some (tab2 (B * n L) (n (L - 1 - (k + 1))) (Dk n W AD L (k + 1))) := by
  obtain ⟨l, hl⟩ : ∃ l, l = L - 2 - k := ⟨_, rfl⟩
  have hl1 : L - 1 - k = l + 1 := by omega
  have hl2 : L - 1 - (k + 1) = l := by omega
  rw [hl1] at hD
  rw [← hl, hl2]
  obtain ⟨r, h1, h2⟩ := hr.2 l (by omega)
  have hnd : nd.length = L + 1 := hr.1
  have hscale : loop B (fun i => loop (n L) (fun j => loop (n (l + 1)) (fun p r => do
      let x ← (tab2 B (n (l + 1)) (AD (l + 1)))[i * n (l + 1) + p]?
      md r (i * n L * n (l + 1) + j * n (l + 1) + p) (fun z => z * x)))) (tab2 (B * n L) (n (l + 1)) (Dk n W AD L k))
      = some (tab2 (B * n L) (n (l + 1)) (fun r j => Dk n W AD L k r j * AD (l + 1) (r / n L) j)) := by
    have hlt : ∀ {i j p : ℕ}, i < B → j < n L → p < n (l + 1) →
        i * n L * n (l + 1) + j * n (l + 1) + p < B * n L * n (l + 1) := by
      intro i j p hi hj hp
      have := flat_lt (flat_lt hi hj) hp
      rwa [add_mul] at this
    have := (Acts1.loop (L := B * n L * n (l + 1)) (n := B) (fun i hi => Acts1.loop (L := B * n L * n (l + 1)) (n := n L)
      (fun j hj => Acts1.loop (L := B * n L * n (l + 1)) (n := n (l + 1))
      (fun p hp => (Acts1.md (L := B * n L * n (l + 1)) (hlt hi hj hp) (fun z => z * AD (l + 1) i p))))))
      (tab2 (B * n L) (n (l + 1)) (Dk n W AD L k)) (by simp)
    rw [loop_congr (body' := fun i => loop (n L) (fun j => loop (n (l + 1)) (fun p r =>
      md r (i * n L * n (l + 1) + j * n (l + 1) + p) (fun z => z * AD (l + 1) i p))))]
    · rw [this]
      congr 1
      rw [eq_tab2_iff]
      refine ⟨by simp, fun q hq j hj => ?_⟩
      rw [List.getElem?_mapIdx, getElem?_tab2 hq hj]
      simp only [Option.map_some]
      congr 1
      obtain ⟨b, i, hb, hi, rfl⟩ := flat_decomp hq
      rw [flat_div hi]
      rw [iter_congr (H := fun b' x => if b = b' then x * AD (l + 1) b j else x)]
      · rw [iter_eq hb]
      · intro b' _ x
        rw [iter_congr (H := fun i' x => if b * n L + i = b' * n L + i' then x * AD (l + 1) b' j else x)]
        · rw [iter_flat hi (fun _ x => x * AD (l + 1) b' j)]
          by_cases hbb : b = b'
          · subst hbb; rfl
          · rw [if_neg hbb, if_neg hbb]
        · intro i' _ x
          rw [← iter_flat hj (fun p x => x * AD (l + 1) b' p) x]
          apply iter_congr
          intro p _ x
          rw [add_mul (b' * n L)]
    · intro i hi s
      apply loop_congr
      intro j hj s
      apply loop_congr
      intro p hp s
      rw [getElem?_tab2 hi hp]; rfl
  refine ⟨(nd.set (l + 1) (tab2 (B * n L) (n (l + 1)) (fun r j => Dk n W AD L k r j * AD (l + 1) (r / n L) j))).set l
    (tab2 (B * n L) (n l) (Dk n W AD L (k + 1))), ?_, ?_, ?_⟩
  · unfold bBackLayer
    rw [h.shape_last, h.shape_get (show l + 1 ≤ L by omega), h.shape_get (show l ≤ L by omega), h.weights_get (show l < L by omega),
      ha.2 (l + 1) (by omega) (by omega)]
    simp only [Option.bind_eq_bind, Option.bind_some] at hscale ⊢
    rw [modRow_eq hD hscale, Option.bind_some, List.getElem?_set_self (by omega), Option.bind_some]
    refine modRow_eq (r := r) ?_ ?_
    · rw [List.getElem?_set_ne (by omega), h1]
    · rw [gemm_full (A := fun r j => Dk n W AD L k r j * AD (l + 1) (r / n L) j) (B := W l)
        (fun i hi p hp => by simp only [mIdx, Bool.false_eq_true, if_false, zero_add]; exact getElem?_tab2 hi hp)
        (fun p hp j hj => by simp only [mIdx, Bool.false_eq_true, if_false, zero_add]; exact getElem?_tab2 hp hj)
        h2]
      congr 1
      apply tab2_congr
      intro i hi j hj
      simp only [Dk, hl1, ← hl]
  · apply Rows.set _ (by omega) (by simp)
    exact hr.set (by omega) (by simp)
  · rw [List.getElem?_set_self (by simp; omega)]

theorem evaluateGradientBatch_spec (ex : K → K) (h : WF M L n W)
    (hH : ∀ l b i, H (l + 1) b i = act ex M.scale (pre n W H l b i))
    {AD : ℕ → ℕ → ℕ → K} (hAD : ∀ l b i, AD (l + 1) b i = actD ex M.scale (pre n W H l b i))
    {x : List K} (hx : x = tab2 B (n 0) (H 0)) :
    ∃ nv nd da, M.evaluateGradientBatch ex x B = some (tab2 B (n L) (outF n W H L),
      tab2 (B * n L) (n 0) (Dk n W AD L (L - 1)),
      { M with nodeValues := nv, nodeDerivs := nd, nodeActDerivs := da }) ∧
      nv.length = L + 1 ∧ nd.length = L + 1 ∧ da.length = L + 1 := by
  have hp := h.pos
  have e0 : M.shape.length - 2 = L - 1 := by rw [h.shape_len]; omega
  obtain ⟨b1, e1, r1⟩ := resizeAll_spec h B h.lv
  obtain ⟨a1, ea1, ra1⟩ := resizeAll_spec h B h.la
  obtain ⟨d1, ed1, rd1⟩ := resizeAll_spec h (B * n L) h.ld
  obtain ⟨b2, e2, f2⟩ := copyIn_spec (H := H) r1 hx
  have fa : FwdA L n B AD 0 a1 := ⟨ra1, fun q hq hq1 => by omega⟩
  obtain ⟨s, e3, f3, fa3⟩ := loop_inv (n := L - 1) (body := bLayerG ex M B)
    (fun l s => Fwd L n B H l s.1 ∧ FwdA L n B AD l s.2) (s := (b2, a1)) ⟨f2, fa⟩ (by
      rintro l hl s ⟨h1, h2⟩
      exact bLayerG_spec ex h hH hAD (by omega) h1 h2)
  have hd1 : d1.length = L + 1 := rd1.1
  obtain ⟨rw1, hrw1, hrw2⟩ := rd1.2 (L - 1) (by omega)
  have hW : tab2 (B * n L) (n (L - 1)) (fun r p => W (L - 1) (r % n L) p) = tab2 (B * n L) (n (L - 1)) (Dk n W AD L 0) := rfl
  obtain ⟨nd, e4, r4, f4⟩ := loop_inv (n := L - 1) (body := fun k => bBackLayer M B s.2 (L - 2 - k))
    (fun k nd => Rows L (fun q => B * n L * n q) nd ∧
      nd[L - 1 - k]? = some (tab2 (B * n L) (n (L - 1 - k)) (Dk n W AD L k)))
    (s := d1.set (L - 1) (tab2 (B * n L) (n (L - 1)) (fun r p => W (L - 1) (r % n L) p)))
    ⟨rd1.set (by omega) (by simp), by
      rw [Nat.sub_zero, List.getElem?_set_self (by omega), hW]⟩ (by
      rintro k hk nd ⟨h1, h2⟩
      exact bBackLayer_spec h fa3 (by omega) h1 h2)
  rw [Nat.sub_self] at f4
  refine ⟨s.1.set L (tab2 B (n L) (outF n W H L)), nd, s.2, ?_, by simp [f3.1.1], r4.1, fa3.1.1⟩
  unfold MLP.evaluateGradientBatch
  rw [e0, h.shape_last, show M.shape.length - 3 = L - 2 by rw [h.shape_len]; omega]
  simp only [Option.bind_eq_bind, Option.bind_some]
  rw [e1, Option.bind_some, ea1, Option.bind_some, ed1, Option.bind_some, e2, Option.bind_some, e3, Option.bind_some,
    bFinalLayer_spec h f3, Option.bind_some, h.weights_last, Option.bind_some, hd1, show L + 1 - 2 = L - 1 by omega]
  rw [modRow_eq hrw1 (bCopyWeights_spec (W (L - 1)) hrw2), Option.bind_some, e4, Option.bind_some,
    getLast?_set f3.1.1, Option.bind_some, f4]
  rfl

end

end Verif.MLP
