import Verif.Model.Kokkos.Classes
import Verif.Lemmas.Kokkos.Percep

/-! # `MultilayerPerceptronKokkos::evaluate` -/

namespace Verif.Kokkos
open Par Prog

variable {K : Type} [Field K] {V : Env K} {ex : K → K} {s : Percep K} {L B : ℕ} {n : ℕ → ℕ} {W H : ℕ → ℕ → ℕ → K}

theorem fitted_spec {v : View K} (h : M2 v) (B n : ℕ) : (fitted v B n).Ok ∧ (fitted v B n).ext = [B, n] := by
  obtain ⟨h1, a, b, h2⟩ := h
  unfold fitted
  split
  · exact ⟨View.new_ok _ _, rfl⟩
  · rename_i hn
    unfold View.extent at hn
    rw [h2] at hn
    simp only [List.getD_cons_zero, List.getD_cons_succ, not_or, not_not] at hn
    exact ⟨h1, by rw [h2, hn.1, hn.2]⟩

theorem gemvRow_spec {w inp out : View K} {m k i : ℕ} {A : ℕ → ℕ → K} {x : ℕ → K} (h0 : w.extent 0 = m) (h1 : w.extent 1 = k)
    (hw : ∀ p < m, ∀ q < k, w.get [p, q] = some (A p q)) (hx : ∀ q < k, inp.get [i, q] = some (x q)) (ho : out.Ok) (he : out.ext = [B, m])
    (hi : i < B) :
    ∃ out', gemvRow true w i inp out = some out' ∧ out'.Ok ∧ out'.ext = [B, m] ∧
      (∀ p < m, out'.get [i, p] = some (∑ q ∈ Finset.range k, A p q * x q)) ∧ ∀ b ≠ i, ∀ p, out'.get [b, p] = out.get [b, p] := by
  unfold gemvRow
  rw [if_pos rfl, h0, h1]
  refine (loop_inv (fun J (o : View K) => o.Ok ∧ o.ext = [B, m] ∧ (∀ p < J, o.get [i, p] = some (∑ q ∈ Finset.range k, A p q * x q)) ∧
    ∀ b ≠ i, ∀ p, o.get [b, p] = out.get [b, p]) ⟨ho, he, fun p hp => by omega, fun _ _ _ => rfl⟩ ?_)
  rintro J hJ o ⟨o1, o2, o3, o4⟩
  obtain ⟨t, t1, t2⟩ := loop_inv (n := k) (body := fun q t => do
        let a ← w.get [J, q]
        let y ← inp.get [i, q]
        pure (t + a * y)) (fun q (t : K) => t = ∑ q ∈ Finset.range q, A J q * x q) (s := 0) (by simp) (by
      rintro q hq t rfl
      refine ⟨_, ?_, rfl⟩
      rw [hw J hJ q hq, hx q hq, Finset.sum_range_succ]
      rfl)
  obtain ⟨o', s1, s2, s3, s4, s5⟩ := View.set_spec o1 (is := [i, J]) (p := i * m + J) (by rw [o2]; exact flat_two hi hJ) t
  refine ⟨o', ?_, s3, s2.trans o2, fun p hp => ?_, fun b hb p => ?_⟩
  · rw [t1]
    exact s1
  · by_cases e : p = J
    · subst e
      rw [s4, t2]
    · rw [s5 _ (by simpa using e)]
      exact o3 p (by omega)
  · rw [s5 _ (by simp [hb])]
    exact o4 b hb p

theorem activ_spec (V : Env K) (ex : K → K) (sc : K) {v : View K} {m i : ℕ} {y : ℕ → K} (hv : v.Ok) (he : v.ext = [B, m])
    (hy : ∀ p < m, v.get [i, p] = some (y p)) :
    ∃ v', V.L.launch1 (activK ex sc m i (fun _ => v.ext)) v = some v' ∧ v'.Ok ∧ v'.ext = [B, m] ∧
      (∀ p < m, v'.get [i, p] = some (MLP.act ex sc (y p))) ∧ ∀ b ≠ i, ∀ p, v'.get [b, p] = v.get [b, p] := by
  have hp : Lc (fun _ => v.ext) (activK ex sc m i (fun _ => v.ext)) (Par.ex m fun j => {((), [i, j])}) (fun _ x => MLP.act ex sc x) := by
    unfold activK
    refine Lc.parFor (fun j hj => Lc.upd (fun x => rfl)) (fun a _ b _ c h1 h2 => ?_)
    rw [Set.mem_singleton_iff] at h1 h2
    rw [h1] at h2
    simpa using h2
  obtain ⟨v', k1, k2, k3, k4, k5⟩ := launch1_any V.L hp (by
    rintro c ⟨j, hj, hc⟩
    cases hc
    exact ⟨_, hy j hj⟩)
  refine ⟨v', k1, k3 hv, k2.trans he, fun p hp => k4 [i, p] _ ⟨p, hp, rfl⟩ (hy p hp), fun b hb p => k5 _ ?_⟩
  rintro ⟨j, hj, e⟩
  simp only [Set.mem_singleton_iff, Prod.mk.injEq, List.cons.injEq, true_and] at e
  exact hb e.1

/-- State of `node_values` while row `i` is computed up to layer `l`. -/
structure Row (n : ℕ → ℕ) (W H : ℕ → ℕ → ℕ → K) (L B i l : ℕ) (nv : ℕ → View K) : Prop where
  ok : ∀ k ≤ L, (nv k).Ok ∧ (nv k).ext = [B, n k]
  inp : G2 (nv 0) B (n 0) (H 0)
  out : ∀ b < i, ∀ p < n L, (nv L).get [b, p] = some (MLP.outF n W H L b p)
  cur : ∀ k ≤ l, ∀ p < n k, (nv k).get [i, p] = some (Hf n W L H k i p)

theorem evalLayer_spec (h : PerOk s L n W) (hH : ∀ l b i, H (l + 1) b i = MLP.act ex s.scale (MLP.pre n W H l b i)) {i l : ℕ} (hi : i < B)
    (hl : l < L) {nv : ℕ → View K} (hr : Row n W H L B i l nv) :
    ∃ nv', evalLayer V true ex s i l nv = some nv' ∧ Row n W H L B i (l + 1) nv' := by
  obtain ⟨o, g1, g2, g3, g4, g5⟩ := gemvRow_spec (w := s.w l) (inp := nv l) (out := nv (l + 1)) (B := B) (i := i) (x := H l i) (h.e0 l hl) (h.e1 l hl)
    (h.get l hl) (fun q hq => (hr.cur l le_rfl q hq).trans (by unfold Hf; rw [if_neg (by omega)])) (hr.ok (l + 1) (by omega)).1
    (hr.ok (l + 1) (by omega)).2 hi
  have fin : ∀ o' : View K, o'.Ok → o'.ext = [B, n (l + 1)] → (∀ p < n (l + 1), o'.get [i, p] = some (Hf n W L H (l + 1) i p)) →
      (∀ b ≠ i, ∀ p, o'.get [b, p] = (nv (l + 1)).get [b, p]) → Row n W H L B i (l + 1) (fun l' => if l' = l + 1 then o' else nv l') := by
    intro o' o1 o2 o3 o4
    refine ⟨fun k hk => ?_, ?_, fun b hb p hp => ?_, fun k hk p hp => ?_⟩
    · by_cases e : k = l + 1
      · subst e
        simp only [if_pos]
        exact ⟨o1, o2⟩
      · simp only [if_neg e]
        exact hr.ok k hk
    · exact hr.inp
    · by_cases e : L = l + 1
      · simp only [if_pos e]
        rw [o4 b (by omega), ← e]
        exact hr.out b hb p hp
      · simp only [if_neg e]
        exact hr.out b hb p hp
    · by_cases e : k = l + 1
      · subst e
        simp only [if_pos]
        exact o3 p hp
      · simp only [if_neg e]
        exact hr.cur k (by omega) p hp
  unfold evalLayer
  rw [g1, Option.bind_eq_bind, Option.bind_some, h.len]
  by_cases e : l + 1 = L
  · rw [if_pos (by omega), Option.bind_some]
    refine ⟨_, rfl, fin o g2 g3 (fun p hp => (g4 p hp).trans ?_) g5⟩
    unfold Hf MLP.outF
    rw [if_pos e, show L - 1 = l by omega]
    rfl
  · rw [if_neg (by omega), h.shape (l + 1) (by omega), Option.bind_eq_bind, Option.bind_some]
    obtain ⟨o', a1, a2, a3, a4, a5⟩ := activ_spec V ex s.scale g2 g3 g4
    rw [a1, Option.bind_some]
    refine ⟨_, rfl, fin o' a2 a3 (fun p hp => (a4 p hp).trans ?_) (fun b hb p => (a5 b hb p).trans (g5 b hb p))⟩
    unfold Hf
    rw [if_neg e, hH]
    rfl

theorem copyCol_spec {v f : View K} {y : ℕ → K} (hv : ∀ b < B, v.get [b, 0] = some (y b)) (hf : f.Ok) (he : f.ext = [B]) :
    ∃ f', copyCol B v f = some f' ∧ f'.Ok ∧ f'.ext = [B] ∧ G1 f' B y := by
  unfold copyCol
  rw [if_pos (by unfold View.extent; rw [he]; rfl)]
  refine loop_inv (fun J (u : View K) => u.Ok ∧ u.ext = [B] ∧ G1 u J y) ⟨hf, he, fun i hi => by omega⟩ ?_
  rintro i hi u ⟨u1, u2, u3⟩
  obtain ⟨u', s1, s2, s3, s4, s5⟩ := View.set_spec u1 (is := [i]) (p := i) (by rw [u2]; exact flat_one hi) (y i)
  refine ⟨u', by rw [hv i hi]; exact s1, s3, s2.trans u2, fun i' hi' => ?_⟩
  by_cases e : i' = i
  · subst e; exact s4
  · rw [s5 _ (by simpa using e)]; exact u3 i' (by omega)

theorem mlpk_evaluate {o : MLPK K} (h : PerOk o.net L n W) (hpos : 0 < n L)
    (hH : ∀ l b i, H (l + 1) b i = MLP.act ex o.net.scale (MLP.pre n W H l b i)) {x f : View K} (hx : x.Ok) (hxe : x.ext = [B, n 0])
    (hx' : G2 x B (n 0) (H 0)) (hf : f.Ok) (hfe : f.ext = [B]) (hnv : ∀ l ≤ L, M2 (o.nv l)) (hnd : ∀ l ≤ L, M2 (o.nd l)) (hL : 1 ≤ L) :
    ∃ f' nv' nd', o.evaluate V true ex x f = some (f', ⟨o.net, nv', nd'⟩) ∧ f'.Ok ∧ f'.ext = [B] ∧ G1 f' B (fun b => MLP.outF n W H L b 0) ∧
      (∀ l ≤ L, M2 (nv' l)) ∧ ∀ l ≤ L, M2 (nd' l) := by
  unfold MLPK.evaluate
  have hB : x.extent 0 = B := by unfold View.extent; rw [hxe]; rfl
  simp only [hB]
  have z1 : ∀ l ≤ L, (o.net.fit B o.nv l).Ok ∧ (o.net.fit B o.nv l).ext = [B, n l] := by
    intro l hl
    unfold Percep.fit
    rw [h.shape l hl]
    exact fitted_spec (hnv l hl) B (n l)
  have z2 : ∀ l ≤ L, (o.net.fit B o.nd l).Ok ∧ (o.net.fit B o.nd l).ext = [B, n l] := by
    intro l hl
    unfold Percep.fit
    rw [h.shape l hl]
    exact fitted_spec (hnd l hl) B (n l)
  generalize o.net.fit B o.nv = A at *
  generalize o.net.fit B o.nd = D at *
  obtain ⟨v0, e1, e2, e3, e4⟩ := copyRows_spec (v := A 0) (B := B) (n := n 0) ⟨(z1 0 (by omega)).1, B, (z1 0 (by omega)).2, le_rfl⟩
    ⟨hx, B, hxe, le_rfl⟩ hx'
  rw [h.shape 0 (by omega), Option.bind_eq_bind, Option.bind_some, e1, Option.bind_eq_bind, Option.bind_some, h.len,
    show L + 1 - 1 = L by omega]
  obtain ⟨nv', r1, r2⟩ := loop_inv (n := B) (body := fun i => Verif.loop L (fun l => evalLayer V true ex o.net i l))
    (fun i nv => (∀ k ≤ L, (nv k).Ok ∧ (nv k).ext = [B, n k]) ∧ G2 (nv 0) B (n 0) (H 0) ∧
      ∀ b < i, ∀ p < n L, (nv L).get [b, p] = some (MLP.outF n W H L b p)) (s := fun l => if l = 0 then v0 else A l)
    ⟨fun k hk => by
      by_cases e : k = 0
      · subst e
        simp only [if_pos]
        exact ⟨e3, e2.trans (z1 0 hk).2⟩
      · simp only [if_neg e]
        exact z1 k hk, e4, fun b hb => by omega⟩ (by
    rintro i hi nv ⟨q1, q2, q3⟩
    obtain ⟨nv', l1, l2⟩ := loop_inv (n := L) (body := fun l => evalLayer V true ex o.net i l) (fun l nv => Row n W H L B i l nv) (s := nv)
      ⟨q1, q2, q3, fun k hk p hp => by
        obtain rfl : k = 0 := by omega
        rw [q2 i hi p hp]
        unfold Hf
        rw [if_neg (by omega)]⟩ (fun l hl nv hr => evalLayer_spec h hH hi hl hr)
    refine ⟨nv', l1, l2.ok, l2.inp, fun b hb p hp => ?_⟩
    by_cases e : b = i
    · subst e
      rw [l2.cur L le_rfl p hp]
      unfold Hf
      rw [if_pos rfl]
    · exact l2.out b (by omega) p hp)
  obtain ⟨f', c1, c2, c3, c4⟩ := copyCol_spec (v := nv' L) (f := f) (fun b hb => r2.2.2 b hb 0 hpos) hf hfe
  refine ⟨f', nv', D, ?_, c2, c3, c4, fun l hl => ⟨(r2.1 l hl).1, _, _, (r2.1 l hl).2⟩, fun l hl => ⟨(z2 l hl).1, _, _, (z2 l hl).2⟩⟩
  rw [r1, Option.bind_eq_bind, Option.bind_some, c1]
  rfl

end Verif.Kokkos
