import Verif.Lemmas.Kokkos.MLPClass
import Verif.Lemmas.Kokkos.LoadTab
import Verif.Props.MLP

/-! # Property C85: the class `MultilayerPerceptronKokkos` -/

namespace Verif.Props
open Verif.Par Verif.Kokkos Verif.MLP Verif.Spec

section lemmas
variable {n n' : ℕ → ℕ} {W : ℕ → ℕ → ℕ → ℝ} {L : ℕ}

theorem hidden_widths (σ : ℝ → ℝ) (x : ℕ → ℝ) (h : ∀ l < L, n' l = n l) : ∀ l ≤ L, mlpHidden σ n' W x l = mlpHidden σ n W x l := by
  intro l
  induction l with
  | zero => intro _; rfl
  | succ l ih =>
    intro hl
    funext i
    simp only [mlpHidden, ih (by omega), h l (by omega)]

theorem out_widths (σ : ℝ → ℝ) (x : ℕ → ℝ) (hL : 1 ≤ L) (h : ∀ l < L, n' l = n l) (i : ℕ) : mlpOut σ n' W L x i = mlpOut σ n W L x i := by
  unfold mlpOut
  rw [h (L - 1) (by omega), hidden_widths σ x h (L - 1) (by omega)]

theorem Dk_congr {AD AD' : ℕ → ℕ → ℕ → ℝ} (h : ∀ l < L, AD' l = AD l) : ∀ k < L, Dk n W AD' L k = Dk n W AD L k := by
  intro k
  induction k with
  | zero => intro _; rfl
  | succ k ih =>
    intro hk
    funext r j
    simp only [Dk, ih (by omega), h (L - 1 - k) (by omega)]

theorem adv_widths (s : ℝ) (x : ℕ → ℕ → ℝ) (h : ∀ l < L, n' l = n l) : ∀ l < L, adv s n' W x l = adv s n W x l := by
  intro l hl
  cases l with
  | zero => rfl
  | succ l =>
    funext b i
    simp only [adv, pre, hid, hidden_widths (act Real.exp s) (x b) h l (by omega), h l (by omega)]

/-- The constructor. -/
theorem mlpk_mk (shape : List ℕ) (weights : List (List ℝ)) (scale : ℝ) (h : Matching shape weights) :
    ∃ o, MLPK.mk? shape weights scale = some o ∧ PerOk o.net weights.length (width shape) (entry shape weights) ∧ o.net.scale = scale ∧
      (∀ l, M2 (o.nv l)) ∧ ∀ l, M2 (o.nd l) := by
  obtain ⟨h1, h2, h3⟩ := h
  obtain ⟨s, e1, e2, e3⟩ := percep_mk (n := width shape) (W := entry shape weights) scale h2 (fun l hl => by
    unfold width
    rw [List.getElem?_eq_getElem (by omega)]
    rfl) (fun l hl => by
    refine ⟨_, List.getElem?_eq_getElem hl, fun i hi j hj => ?_⟩
    have hlen := h3 l _ (List.getElem?_eq_getElem hl)
    unfold entry
    rw [List.getElem?_eq_getElem hl, Option.getD_some, List.getElem?_eq_getElem (by rw [hlen]; exact flat_lt hi hj)]
    rfl)
  refine ⟨_, by unfold MLPK.mk?; rw [e1]; rfl, e2, e3, fun l => ?_, fun l => ?_⟩ <;> exact ⟨by simp [View.Ok], 0, 0, rfl⟩

/-- Objects reached by calls keep the network and two-dimensional work arrays. -/
theorem mlpk_reach {shape : List ℕ} {weights : List (List ℝ)} (h : Matching shape weights) (hpos : 0 < width shape weights.length) {o0 : MLPK ℝ}
    (h0 : PerOk o0.net weights.length (width shape) (entry shape weights)) (hv : ∀ l, M2 (o0.nv l)) (hd : ∀ l, M2 (o0.nd l)) {o : MLPK ℝ}
    (hr : MLPK.Reach Real.exp (width shape 0) o0 o) :
    o.net = o0.net ∧ (∀ l ≤ weights.length, M2 (o.nv l)) ∧ ∀ l ≤ weights.length, M2 (o.nd l) := by
  have hx2 : ∀ {x : View ℝ} {B m : ℕ}, x.Ok → x.ext = [B, m] → G2 x B m (fun b j => (x.get [b, j]).getD 0) := by
    intro x B m hx he b hb j hj
    obtain ⟨y, hy⟩ := View.exists_get hx (is := [b, j]) (p := b * m + j) (by rw [he]; exact flat_two hb hj)
    show _ = some ((x.get [b, j]).getD 0)
    rw [hy]
    rfl
  induction hr with
  | start => exact ⟨rfl, fun l _ => hv l, fun l _ => hd l⟩
  | @value o o' V B x f f' _ hx hx' hf hf' e ih =>
    obtain ⟨a1, a2, a3⟩ := ih
    rw [← a1] at h0
    obtain ⟨_, nv', nd', k1, -, -, -, k5, k6⟩ := mlpk_evaluate (V := V) (ex := Real.exp) h0 hpos (hid_step o.net.scale _ _ _) hx hx' (hx2 hx hx') hf hf' a2 a3 h.1
    rw [e, Option.some.injEq, Prod.mk.injEq] at k1
    obtain ⟨-, rfl⟩ := k1
    exact ⟨a1, k5, k6⟩
  | @grad o o' V B x f g f' g' _ hx hx' hf hf' hg hg' e ih =>
    obtain ⟨a1, a2, a3⟩ := ih
    rw [← a1] at h0
    obtain ⟨_, _, nv', nd', k1, -, -, -, -, -, -, k5, k6⟩ := Kokkos.evaluateGradient_spec V (ex := Real.exp) (n' := fun l => if l = weights.length then 1 else width shape l)
      h0 h.1 (if_pos rfl) (fun l hl => if_neg (by omega)) hpos (hid_step o.net.scale _ _ _) (adv_step o.net.scale _ _ _) ⟨hx, B, hx', le_rfl⟩ (hx2 hx hx')
      (f := f) (g := g) ⟨hf, B, [], hf', le_rfl, Or.inr rfl⟩ ⟨hg, B, hg', le_rfl⟩ a2 a3
    unfold MLPK.evaluateGradient at e
    have hB : x.extent 0 = B := by unfold View.extent; rw [hx']; rfl
    simp only [hB] at e
    rw [k1, Option.bind_eq_bind, Option.bind_some, if_pos (by unfold View.extent; rw [hf', hg']; exact ⟨rfl, rfl⟩)] at e
    simp only [Option.pure_def, Option.some.injEq, Prod.mk.injEq] at e
    obtain ⟨-, -, rfl⟩ := e
    exact ⟨a1, k5, k6⟩

end lemmas

/-- C85, what holds: in shared memory, for every execution order, every history of calls and every batch, `evaluate` writes for each
input row output `0` of the network; `evaluate_gradient` writes the same and a row whose pairing with any direction `d` is the derivative
of that output along `d`.  Missing: separate memories, see `C85_violated`. -/
theorem C85_mlp_class_partial (shape : List ℕ) (weights : List (List ℝ)) (scale : ℝ) (h : Matching shape weights)
    (hpos : 0 < width shape weights.length) : ∃ o0, MLPK.mk? shape weights scale = some o0 ∧
      ∀ o, MLPK.Reach Real.exp (width shape 0) o0 o → ∀ (V : Env ℝ) (B : ℕ) (x f g : View ℝ) (X : ℕ → ℕ → ℝ), x.Ok → x.ext = [B, width shape 0] →
        (∀ b < B, ∀ j < width shape 0, x.get [b, j] = some (X b j)) → f.Ok → f.ext = [B] → g.Ok → g.ext = [B, width shape 0] →
        (∃ f' o', o.evaluate V true Real.exp x f = some (f', o') ∧ f'.ext = [B] ∧ ∀ b < B,
          f'.get [b] = some (mlpOut (scaledSilu scale) (width shape) (entry shape weights) weights.length (X b) 0)) ∧
        ∃ f' g' o', o.evaluateGradient V Real.exp x f g = some (f', g', o') ∧ f'.ext = [B] ∧ g'.ext = [B, width shape 0] ∧ ∀ b < B,
          f'.get [b] = some (mlpOut (scaledSilu scale) (width shape) (entry shape weights) weights.length (X b) 0) ∧
          ∃ G : ℕ → ℝ, (∀ j < width shape 0, g'.get [b, j] = some (G j)) ∧ ∀ d : ℕ → ℝ, HasDerivAt
            (fun t => mlpOut (scaledSilu scale) (width shape) (entry shape weights) weights.length (fun j => X b j + t * d j) 0)
            (∑ j ∈ Finset.range (width shape 0), G j * d j) 0 := by
  obtain ⟨o0, e1, e2, e3, e4, e5⟩ := mlpk_mk shape weights scale h
  refine ⟨o0, e1, fun o hr V B x f g X hx hx' hX hf hf' hg hg' => ?_⟩
  obtain ⟨a1, a2, a3⟩ := mlpk_reach h hpos e2 e4 e5 hr
  rw [← a1] at e2 e3
  subst e3
  have hL := h.1
  refine ⟨?_, ?_⟩
  · obtain ⟨f', nv', nd', k1, k2, k3, k4, -, -⟩ := mlpk_evaluate (V := V) (ex := Real.exp) e2 hpos (hid_step o.net.scale _ _ X) hx hx' hX hf hf' a2 a3 hL
    refine ⟨f', _, k1, k3, fun b hb => ?_⟩
    rw [k4 b hb, ← outF_eq]
  · obtain ⟨n', hn'⟩ : ∃ n' : ℕ → ℕ, n' = fun l => if l = weights.length then 1 else width shape l := ⟨_, rfl⟩
    have w1 : n' weights.length = 1 := by rw [hn']; exact if_pos rfl
    have w2 : ∀ l < weights.length, n' l = width shape l := fun l hl => by rw [hn']; exact if_neg (by omega)
    obtain ⟨f', g', nv', nd', k1, k2, k3, k4, k5, k6, k7, -, -⟩ := Kokkos.evaluateGradient_spec V (ex := Real.exp) (n' := n')
      e2 hL w1 w2 hpos (hid_step o.net.scale _ _ X) (adv_step o.net.scale _ _ X) ⟨hx, B, hx', le_rfl⟩ hX
      (f := f) (g := g) ⟨hf, B, [], hf', le_rfl, Or.inr rfl⟩ ⟨hg, B, hg', le_rfl⟩ a2 a3
    refine ⟨f', g', ⟨o.net, nv', nd'⟩, ?_, k2.trans hf', k5.trans hg', fun b hb => ⟨?_, _, fun j hj => k7 b hb j hj, fun d => ?_⟩⟩
    · unfold MLPK.evaluateGradient
      have hB : x.extent 0 = B := by unfold View.extent; rw [hx']; rfl
      simp only [hB]
      rw [k1, Option.bind_eq_bind, Option.bind_some, if_pos (by unfold View.extent; rw [hf', hg']; exact ⟨rfl, rfl⟩)]
      rfl
    · rw [k4 b hb, ← outF_eq]
    · have := hasDerivAt_out o.net.scale n' (entry shape weights) hL (fun t b' j => X b' j + t * d j) (fun _ => d) 0 b (fun j _ => by
        simpa using ((hasDerivAt_id' (0 : ℝ)).mul_const (d j)).const_add (X (b / n' weights.length) j))
      simp only [outF_eq, w1, Nat.div_one, Nat.mod_one, zero_mul, add_zero, out_widths (n := width shape) _ _ hL w2, w2 0 (by omega)] at this
      rw [Dk_congr (adv_widths o.net.scale X w2) _ (by omega)] at this
      exact this

/-- A network with two outputs, and views of a batch of two. -/
example : Matching [2, 2, 2] [[(1 : ℝ), -1, 2, 0], [1, 3, 1, 1]] ∧ 0 < width [2, 2, 2] 2 ∧ (View.new [2, 2] (1 : ℝ)).Ok ∧
    (View.new [2, 2] (1 : ℝ)).ext = [2, 2] := by
  refine ⟨⟨by simp, by simp, fun l w h => ?_⟩, by simp [width], View.new_ok _ _, rfl⟩
  match l with
  | 0 => simp at h; subst h; rfl
  | 1 => simp at h; subst h; rfl
  | l + 2 => simp at h

/-- C85 fails when the device has its own memory: `evaluate` calls `SerialGemv` on the host with device views. -/
theorem C85_violated : ∃ (shape : List ℕ) (weights : List (List ℝ)) (o : MLPK ℝ) (x f : View ℝ), Matching shape weights ∧
    0 < width shape weights.length ∧ MLPK.mk? shape weights 1 = some o ∧ x.ext = [1, width shape 0] ∧ f.ext = [1] ∧
    ∀ V, o.evaluate V false Real.exp x f = none := by
  have hm : Matching [1, 1] [[(2 : ℝ)]] := by
    refine ⟨by simp, by simp, fun l w h => ?_⟩
    match l with
    | 0 => simp at h; subst h; rfl
    | l + 1 => simp at h
  obtain ⟨o, e1, e2, e3, e4, e5⟩ := mlpk_mk [1, 1] [[2]] 1 hm
  refine ⟨[1, 1], [[2]], o, View.new [1, 1] 0, View.new [1] 0, hm, by simp [width], e1, rfl, rfl, fun V => ?_⟩
  unfold MLPK.evaluate
  have hB : (View.new [1, 1] (0 : ℝ)).extent 0 = 1 := rfl
  simp only [hB]
  rw [e2.len]
  cases o.net.shape[0]? with
  | none => rfl
  | some n0 =>
    rw [Option.bind_eq_bind, Option.bind_some]
    cases copyRows 1 (o.net.fit 1 o.nv 0) (View.new [1, 1] 0) n0 with
    | none => rfl
    | some v0 => rfl

end Verif.Props
