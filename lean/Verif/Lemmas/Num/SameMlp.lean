import Verif.Lemmas.Num.Same

/-! # The readout network with different old contents of its buffers -/

namespace Verif.Num
open Verif.MACE

variable {K : Type} [A : Arith K]

/-- The two-layer network as straight-line code. -/
theorem mlpGradient_eq {C : ℕ} {w1 w2 input a0 a1 a2 d0 d1 d2 e0 e1 e2 : List K} {sc : K} (hC : input.length = C) :
    mlpGradient ⟨[C, 16, 1], [w1, w2], sc, [a0, a1, a2], [d0, d1, d2], [e0, e1, e2]⟩ input = (do
      let r1 ← gemv false 16 C w1 C input 0 false 0 (resize a1 16)
      let yd ← loop 16 (fun i (yd : List K × List K) => do
        let x ← yd.1[i]?
        let y ← wr yd.1 i (act' sc x)
        let d ← wr yd.2 i (actD sc x)
        pure (y, d)) (r1, resize e1 16)
      let r2 ← gemv false 1 16 w2 16 yd.1 0 false 0 (resize a2 1)
      let n1 ← loop 1 (fun i => loop 16 (fun j r => do
        let x ← yd.2[j]?
        md r (i * 16 + j) (fun z => z * x))) w2
      let n0 ← gemm false false 1 C 16 n1 0 16 w1 0 C 0 C (resize d0 C)
      pure (r2, n0, ⟨[C, 16, 1], [w1, w2], sc, [input, yd.1, r2], [n0, n1, resize d2 1], [resize e0 C, yd.2, resize e2 1]⟩)) := by
  have hr : ∀ n (x : List K), (resize x n).length = n := fun n x => (agr_resize x x n).l
  have h1 : ∀ {α : Type} (f : ℕ → α → Option α) (x : α), loop 1 f x = f 0 x := fun f x => rfl
  have h3 : ∀ (f : ℕ) (x y z : List K), resizeAll [C, 16, 1] f [x, y, z] = some [resize x (f * C), resize y (f * 16), resize z (f * 1)] :=
    fun f x y z => rfl
  have hc : ∀ x y z : List K, x.length = C → copyIn input [x, y, z] = some [input, y, z] := fun x y z h => by
    unfold copyIn MLP.modRow
    simp [h, hC, List.drop_of_length_le]
  have m0 : ∀ (x y z : List K) f, MLP.modRow [x, y, z] 0 f = (f x).bind fun r => some [r, y, z] := fun x y z f => rfl
  have m1 : ∀ (x y z : List K) f, MLP.modRow [x, y, z] 1 f = (f y).bind fun r => some [x, r, z] := fun x y z f => rfl
  have m2 : ∀ (x y z : List K) f, MLP.modRow [x, y, z] 2 f = (f z).bind fun r => some [x, y, r] := fun x y z f => rfl
  unfold mlpGradient
  simp only [h3, List.getLast?_cons_cons, List.getLast?_singleton, Option.bind_eq_bind, Option.bind_some, List.length_cons, List.length_nil]
  simp only [one_mul, mul_one, hc _ _ _ (hr _ _), Option.bind_some, Nat.reduceAdd, Nat.reduceSub]
  simp only [h1]
  simp only [layerG, layerProduct, finalLayer, backLayer, Nat.reduceAdd, Nat.reduceSub, List.length_cons, List.length_nil, Option.bind_eq_bind]
  have g0 : ∀ {α : Type} (x y z : α), [x, y, z][0]? = some x := fun x y z => rfl
  have g1 : ∀ {α : Type} (x y z : α), [x, y, z][1]? = some y := fun x y z => rfl
  have g2 : ∀ {α : Type} (x y z : α), [x, y, z][2]? = some z := fun x y z => rfl
  have w0 : [w1, w2][0]? = some w1 := rfl
  have wl : [w1, w2].getLast? = some w2 := rfl
  have s1 : ∀ {α : Type} (x y z v : α), [x, y, z].set 1 v = [x, v, z] := fun x y z v => rfl
  have sl : [C, 16, 1].getLast? = some 1 := rfl
  have l3 : ∀ (x y z : List K), [x, y, z].getLast? = some z := fun x y z => rfl
  simp only [g0, g1, g2, w0, wl, sl, m0, m1, m2, Option.bind_some, Option.bind_assoc, s1, List.length_cons, List.length_nil, Nat.reduceAdd, Nat.reduceSub, h1,
    l3, Option.pure_def]

/-- Same network, with the same number of buffers. -/
structure MlpLk (C : ℕ) (w1 w2 : List K) (sc : K) (M : MLP.MLP K) : Prop where
  shape : M.shape = [C, 16, 1]
  weights : M.weights = [w1, w2]
  scale : M.scale = sc
  lv : M.nodeValues.length = 3
  ld : M.nodeDerivs.length = 3
  la : M.nodeActDerivs.length = 3

theorem len3 {α : Type} {l : List α} (h : l.length = 3) : ∃ a b c, l = [a, b, c] := by
  match l, h with
  | [a, b, c], _ => exact ⟨a, b, c, rfl⟩

theorem MlpLk.form {C : ℕ} {w1 w2 : List K} {sc : K} {M : MLP.MLP K} (h : MlpLk C w1 w2 sc M) :
    ∃ a0 a1 a2 d0 d1 d2 e0 e1 e2, M = ⟨[C, 16, 1], [w1, w2], sc, [a0, a1, a2], [d0, d1, d2], [e0, e1, e2]⟩ := by
  obtain ⟨s, w, c, v, d, e⟩ := M
  obtain ⟨h1, h2, h3, h4, h5, h6⟩ := h
  obtain ⟨a0, a1, a2, rfl⟩ := len3 h4
  obtain ⟨d0, d1, d2, rfl⟩ := len3 h5
  obtain ⟨e0, e1, e2, rfl⟩ := len3 h6
  dsimp only at h1 h2 h3
  subst h1; subst h2; subst h3
  exact ⟨a0, a1, a2, d0, d1, d2, e0, e1, e2, rfl⟩

theorem mlpGradient_two {C : ℕ} {w1 w2 input : List K} {sc : K} {M M' : MLP.MLP K} (h : MlpLk C w1 w2 sc M) (h' : MlpLk C w1 w2 sc M')
    (hC : input.length = C) :
    Two (fun a b => a.1 = b.1 ∧ a.2.1 = b.2.1 ∧ MlpLk C w1 w2 sc a.2.2 ∧ MlpLk C w1 w2 sc b.2.2) (mlpGradient M input) (mlpGradient M' input) := by
  obtain ⟨a0, a1, a2, d0, d1, d2, e0, e1, e2, rfl⟩ := h.form
  obtain ⟨a0', a1', a2', d0', d1', d2', e0', e1', e2', rfl⟩ := h'.form
  rw [mlpGradient_eq hC, mlpGradient_eq hC]
  refine Two.bind (gemv_two (agr_resize a1 a1' 16)) fun r1 r1' hr1 => ?_
  have hr1 : r1 = r1' := hr1.full fun i hi => by simpa using hi
  subst hr1
  refine Two.bind (R := Eq) (Two.mono (Two.loop (fun i (q q' : List K × List K) => q.1 = q'.1 ∧ Agr 16 (· < i) q.2 q'.2) ⟨rfl, agr_resize e1 e1' 16⟩ ?_)
    fun q q' hq => Prod.ext hq.1 hq.2.pre) ?_
  · rintro i hi ⟨y, d⟩ ⟨y', d'⟩ ⟨rfl, hd⟩
    exact Two.same fun x _ => Two.same fun y _ => Two.bind (hd.wrNext rfl) fun d d' hd => Two.pure ⟨rfl, hd⟩
  · rintro yd _ rfl
    refine Two.bind (gemv_two (agr_resize a2 a2' 1)) fun r2 r2' hr2 => ?_
    have hr2 : r2 = r2' := hr2.full fun i hi => by simpa using hi
    subst hr2
    refine Two.same fun n1 _ => Two.bind (gemm_two rfl (agr_resize d0 d0' C)) fun n0 n0' hn0 => ?_
    have hn0 : n0 = n0' := hn0.full fun i hi => by simpa using hi
    subst hn0
    exact Two.pure ⟨rfl, rfl, ⟨rfl, rfl, rfl, rfl, rfl, rfl⟩, ⟨rfl, rfl, rfl, rfl, rfl, rfl⟩⟩

end Verif.Num
