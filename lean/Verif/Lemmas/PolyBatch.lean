import Verif.Lemmas.PolyEval

/-! # Helper lemmas: batched and direct evaluation of polynomials (C21, C22) -/

namespace Verif.Poly
open Verif.Spec

variable {K : Type} [CommRing K]

theorem bInitForward_spec {nv n B : ℕ} (hn : nv ≤ n) {x : List K} {X : ℕ → ℕ → K}
    (hx : ∀ j < B, ∀ v < nv, x[j * nv + v]? = some (X j v)) (vals : List K) :
    ∃ V, bInitForward nv n B x vals = some (tab2 n B V) ∧ ∀ q < nv, ∀ j < B, V q j = X j q := by
  unfold bInitForward
  have hl : (resize vals (B * n)).length = n * B := by rw [length_resize, mul_comm]
  have h := loop_inv (n := nv) (body := fun i => loop B (fun j v => do
      let a ← x[j * nv + i]?
      wr v (i * B + j) a))
    (fun i v => ∃ V, v = tab2 n B V ∧ ∀ q < i, ∀ j < B, V q j = X j q) (s := resize vals (B * n))
    ⟨_, eq_tab2_getD _ hl, by simp⟩ (by
      rintro i hi v ⟨V, rfl, hV⟩
      have h := loop_inv (n := B) (body := fun j v => do
          let a ← x[j * nv + i]?
          wr v (i * B + j) a)
        (fun j v => ∃ V', v = tab2 n B V' ∧ (∀ q < i, ∀ j < B, V' q j = X j q) ∧ ∀ j' < j, V' i j' = X j' i)
        (s := tab2 n B V) ⟨V, rfl, hV, by simp⟩ (by
          rintro j hj v ⟨V', rfl, h1, h2⟩
          refine ⟨tab2 n B (upd2 V' i j (X j i)), ?_, _, rfl, ?_, ?_⟩
          · simp only [hx j hj i hi, Option.bind_eq_bind, Option.bind_some]
            exact wr_tab2 _ (by omega) hj
          · intro q hq j' hj'
            unfold upd2
            rw [if_neg (by omega), h1 q hq j' hj']
          · intro j' hj'
            unfold upd2
            by_cases h : j' = j
            · subst h; rw [if_pos ⟨rfl, rfl⟩]
            · rw [if_neg (by tauto), h2 j' (by omega)])
      obtain ⟨v, h1, V', rfl, h2, h3⟩ := h
      refine ⟨_, h1, V', rfl, ?_⟩
      intro q hq j hj
      by_cases h : q = i
      · subst h; exact h3 j hj
      · exact h2 q (by omega) j hj)
  obtain ⟨v, h1, V, rfl, h2⟩ := h
  exact ⟨V, h1, h2⟩

theorem bForward_spec {P : Poly K} (hP : Valid P) {B : ℕ} {X : ℕ → ℕ → K} {V : ℕ → ℕ → K}
    (hV : ∀ q < P.numVariables, ∀ j < B, V q j = X j q) :
    ∃ V', bForwardPass P.numVariables P.edges B (tab2 P.nodes.length B V) = some (tab2 P.nodes.length B V') ∧
      ∀ q < P.nodes.length, ∀ j < B, V' q j = monomial (X j) (nodeAt P q) := by
  have hlen := hP.len
  have h := loop_inv (n := P.edges.length) (body := fun i v => do
      let e ← P.edges[i]?
      loop B (fun j v => do
        let a ← v[e.1 * B + j]?
        let b ← v[e.2 * B + j]?
        wr v ((P.numVariables + i) * B + j) (a * b)) v)
    (fun i v => ∃ V', v = tab2 P.nodes.length B V' ∧
      ∀ q < P.numVariables + i, ∀ j < B, V' q j = monomial (X j) (nodeAt P q))
    (s := tab2 P.nodes.length B V) ⟨V, rfl, by
      intro q hq j hj
      rw [hV q (by omega) j hj, nodeAt_eq (hP.var q (by omega))]
      simp [monomial]⟩ (by
      rintro i hi v ⟨V0, rfl, h0⟩
      obtain ⟨e, he, e1, e2, hm, _⟩ := edge_facts hP hi
      have h := loop_inv (n := B) (body := fun j v => do
          let a ← v[e.1 * B + j]?
          let b ← v[e.2 * B + j]?
          wr v ((P.numVariables + i) * B + j) (a * b))
        (fun j v => ∃ V', v = tab2 P.nodes.length B V' ∧
          (∀ q < P.numVariables + i, ∀ j < B, V' q j = monomial (X j) (nodeAt P q)) ∧
          ∀ j' < j, V' (P.numVariables + i) j' = monomial (X j') (nodeAt P (P.numVariables + i)))
        (s := tab2 P.nodes.length B V0) ⟨V0, rfl, h0, by simp⟩ (by
          rintro j hj v ⟨V', rfl, h1, h2⟩
          refine ⟨tab2 P.nodes.length B (upd2 V' (P.numVariables + i) j (V' e.1 j * V' e.2 j)), ?_, _, rfl, ?_, ?_⟩
          · rw [getElem?_tab2 (by omega) hj, getElem?_tab2 (by omega) hj]
            exact wr_tab2 _ (by omega) hj
          · intro q hq j' hj'
            unfold upd2
            rw [if_neg (by omega), h1 q hq j' hj']
          · intro j' hj'
            unfold upd2
            by_cases h : j' = j
            · subst h; rw [if_pos ⟨rfl, rfl⟩, h1 _ e1 _ hj, h1 _ e2 _ hj, hm]
            · rw [if_neg (by tauto), h2 j' (by omega)])
      obtain ⟨v, h1, V', rfl, h2, h3⟩ := h
      refine ⟨_, by simp only [he, Option.bind_eq_bind, Option.bind_some]; exact h1, V', rfl, ?_⟩
      intro q hq j hj
      by_cases h : q = P.numVariables + i
      · subst h; exact h3 j hj
      · exact h2 q (by omega) j hj)
  obtain ⟨v, h1, V', rfl, h2⟩ := h
  exact ⟨V', h1, fun q hq => h2 q (by omega)⟩

theorem bValues_spec {n B : ℕ} {nc : List K} (hnc : nc.length = n) (V : ℕ → ℕ → K) :
    bValues n B nc (tab2 n B V) = some (tab B (fun j => ∑ q ∈ Finset.range n, (nc[q]?.getD 0) * V q j)) := by
  unfold bValues
  have h := (Acts1.loop (L := B) (n := n) (body := fun i f => do
      let c ← nc[i]?
      loop B (fun j f => do
        let v ← (tab2 n B V)[i * B + j]?
        ad f j (c * v)) f)
      (F := fun i p x => iter B (fun j x => if p = j then x + (nc[i]?.getD 0) * V i j else x) x) (fun i hi => by
        have hlt : i < nc.length := by omega
        have := Acts1.loop (L := B) (n := B) (body := fun j f => do
            let v ← (tab2 n B V)[i * B + j]?
            ad f j ((nc[i]?.getD 0) * v))
          (F := fun j p x => if p = j then x + (nc[i]?.getD 0) * V i j else x) (fun j hj => by
            refine (Acts1.ad (L := B) hj ((nc[i]?.getD 0) * V i j)).of_eq (fun b _ => ?_)
            rw [getElem?_tab2 hi hj]; rfl)
        refine this.of_eq (fun b _ => ?_)
        simp [hlt])) (List.replicate B 0) (by simp)
  rw [h]
  congr 1
  apply replicate_mapIdx_eq_tab
  intro p hp
  rw [iter_add (v := fun i => (nc[i]?.getD 0) * V i p), zero_add]
  intro i hi x
  exact iter_eq hp (fun j x => x + (nc[i]?.getD 0) * V i j) x

theorem bInitBackward_spec {n B : ℕ} {nc : List K} (hnc : nc.length = n) (adjs : List K) :
    bInitBackward n B nc adjs = some (tab2 n B (fun q _ => nc[q]?.getD 0)) := by
  unfold bInitBackward
  have hl : (resize adjs (B * n)).length = n * B := by rw [length_resize, mul_comm]
  rw [hnc]
  have h := (Acts1.loop (L := n * B) (n := n) (body := fun i => loop B (fun j w => do
      let c ← nc[i]?
      wr w (i * B + j) c))
      (F := fun i p x => iter B (fun j x => if p = i * B + j then (nc[i]?.getD 0) else x) x) (fun i hi => by
        have hlt : i < nc.length := by omega
        exact Acts1.loop (L := n * B) (n := B) (fun j hj => by
          refine (Acts1.wr (L := n * B) (flat_lt hi hj) (nc[i]?.getD 0)).of_eq (fun b _ => ?_)
          simp [hlt]))) _ hl
  rw [h]
  congr 1
  rw [eq_tab2_iff]
  refine ⟨by simp; rw [mul_comm], fun q hq j hj => ?_⟩
  rw [List.getElem?_mapIdx, List.getElem?_eq_getElem (by rw [hl]; exact flat_lt hq hj)]
  simp only [Option.map_some]
  congr 1
  have : ∀ x : K, iter n (fun i x => iter B (fun j_1 x => if q * B + j = i * B + j_1 then (nc[i]?.getD 0) else x) x) x
      = iter n (fun i x => if q = i then nc[i]?.getD 0 else x) x := by
    intro x
    exact iter_congr (fun i hi y => iter_flat hj (fun _ _ => nc[i]?.getD 0) y) x
  rw [this]
  exact iter_eq hq (fun i _ => nc[i]?.getD 0) _

/-- One inner loop of the batched backward pass. -/
theorem bBack_inner {N B M e1 e2 : ℕ} (hM : M < N) (he1 : e1 < M) (he2 : e2 < N) (V W : ℕ → ℕ → K) :
    loop B (fun j w => do
      let a ← w[M * B + j]?
      let v1 ← (tab2 N B V)[e2 * B + j]?
      ad w (e1 * B + j) (a * v1)) (tab2 N B W)
    = some (tab2 N B (fun q j => Function.update (fun q => W q j) e1 (W e1 j + W M j * V e2 j) q)) := by
  have h := loop_eq (n := B) (body := fun j w => do
      let a ← w[M * B + j]?
      let v1 ← (tab2 N B V)[e2 * B + j]?
      ad w (e1 * B + j) (a * v1))
    (fun j0 => tab2 N B (fun q j => if j < j0 then Function.update (fun q => W q j) e1 (W e1 j + W M j * V e2 j) q
      else W q j)) (by
      intro j0 hj0
      rw [getElem?_tab2 hM hj0, getElem?_tab2 he2 hj0]
      simp only [Option.bind_eq_bind, Option.bind_some, lt_irrefl, if_false]
      rw [ad_tab2 _ (by omega) hj0]
      congr 1
      apply tab2_congr
      intro q hq j hj
      unfold upd2
      simp only [lt_irrefl, if_false]
      by_cases h : j = j0
      · subst h
        by_cases hq' : q = e1
        · subst hq'; simp
        · simp [hq']
      · have : j < j0 + 1 ↔ j < j0 := by omega
        simp [h, this])
  simp only [Nat.not_lt_zero, if_false] at h
  rw [h]
  congr 1
  apply tab2_congr
  intro q hq j hj
  rw [if_pos hj]

theorem bBackward_spec {P : Poly K} (hP : Valid P) {B : ℕ} {X V : ℕ → ℕ → K}
    (hV : ∀ q < P.nodes.length, ∀ j < B, V q j = monomial (X j) (nodeAt P q)) (W : ℕ → ℕ → K) :
    ∃ W', bBackwardPass P.numVariables P.edges B (tab2 P.nodes.length B V) (tab2 P.nodes.length B W)
        = some (tab2 P.nodes.length B W') ∧
      ∀ j < B, ∀ d : ℕ → K, ∑ v ∈ Finset.range P.numVariables, W' v j * d v
        = ∑ q ∈ Finset.range P.nodes.length, W q j * lbz (X j) d (nodeAt P q) := by
  have hlen := hP.len
  have h := loop_inv (n := P.edges.length) (body := fun k w => do
      let i := P.edges.length - 1 - k
      let e ← P.edges[i]?
      let w ← loop B (fun j w => do
        let a ← w[(P.numVariables + i) * B + j]?
        let v1 ← (tab2 P.nodes.length B V)[e.2 * B + j]?
        ad w (e.1 * B + j) (a * v1)) w
      loop B (fun j w => do
        let a ← w[(P.numVariables + i) * B + j]?
        let v0 ← (tab2 P.nodes.length B V)[e.1 * B + j]?
        ad w (e.2 * B + j) (a * v0)) w)
    (fun k w => ∃ W', w = tab2 P.nodes.length B W' ∧ ∀ j < B, ∀ d : ℕ → K,
      ∑ q ∈ Finset.range (P.numVariables + (P.edges.length - k)), W' q j * lbz (X j) d (nodeAt P q)
        = ∑ q ∈ Finset.range P.nodes.length, W q j * lbz (X j) d (nodeAt P q))
    (s := tab2 P.nodes.length B W) ⟨W, rfl, fun j _ d => by rw [Nat.sub_zero, hlen]⟩ (by
      rintro k hk w ⟨W', rfl, hsum⟩
      obtain ⟨i, hi⟩ : ∃ i, i = P.edges.length - 1 - k := ⟨_, rfl⟩
      obtain ⟨e, he, e1, e2, _, hd⟩ := edge_facts hP (i := i) (by omega)
      let W1 : ℕ → ℕ → K := fun q j => Function.update (fun q => W' q j) e.1
        (W' e.1 j + W' (P.numVariables + i) j * V e.2 j) q
      refine ⟨tab2 P.nodes.length B (fun q j => Function.update (fun q => W1 q j) e.2
        (W1 e.2 j + W1 (P.numVariables + i) j * V e.1 j) q), ?_, _, rfl, ?_⟩
      · beta_reduce
        rw [← hi]
        simp only [he, Option.bind_eq_bind, Option.bind_some]
        have := bBack_inner (K := K) (N := P.nodes.length) (B := B) (M := P.numVariables + i) (by omega) e1
          (show e.2 < P.nodes.length by omega) V W'
        simp only [Option.bind_eq_bind] at this
        rw [this, Option.bind_some]
        have := bBack_inner (K := K) (N := P.nodes.length) (B := B) (M := P.numVariables + i) (by omega) e2
          (show e.1 < P.nodes.length by omega) V W1
        simp only [Option.bind_eq_bind] at this
        exact this
      · intro j hj d
        have e3 : P.edges.length - (k + 1) = i := by omega
        have e4 : P.edges.length - k = i + 1 := by omega
        rw [← hsum j hj d, e3, e4, ← add_assoc, Finset.sum_range_succ, hd, sum_update e2]
        simp only [W1]
        rw [sum_update e1, Function.update_of_ne (by omega), hV e.1 (by omega) j hj, hV e.2 (by omega) j hj]
        ring)
  obtain ⟨w, h1, W', rfl, h2⟩ := h
  refine ⟨W', h1, fun j hj d => ?_⟩
  rw [← h2 j hj d, Nat.sub_self, add_zero]
  apply Finset.sum_congr rfl
  intro v hv
  rw [nodeAt_eq (hP.var v (Finset.mem_range.mp hv))]
  simp [lbz]

theorem bExtract_spec {nv n B : ℕ} (hn : nv ≤ n) (W : ℕ → ℕ → K) :
    bExtractGradient nv B (tab2 n B W) = some (tab2 B nv (fun j v => W v j)) := by
  unfold bExtractGradient
  have hl : (List.replicate (nv * B) (0 : K)).length = B * nv := by rw [List.length_replicate, mul_comm]
  have h := (Acts1.loop (L := B * nv) (n := nv) (body := fun i => loop B (fun j g => do
      let a ← (tab2 n B W)[i * B + j]?
      wr g (j * nv + i) a))
      (F := fun i p x => iter B (fun j x => if p = j * nv + i then W i j else x) x) (fun i hi => by
        exact Acts1.loop (L := B * nv) (n := B) (fun j hj => by
          refine (Acts1.wr (L := B * nv) (flat_lt hj hi) (W i j)).of_eq (fun b _ => ?_)
          rw [getElem?_tab2 (by omega) hj]; rfl))) _ hl
  rw [h]
  congr 1
  rw [eq_tab2_iff]
  refine ⟨by simp; rw [mul_comm], fun j hj v hv => ?_⟩
  rw [List.getElem?_mapIdx, List.getElem?_eq_getElem (by rw [hl]; exact flat_lt hj hv)]
  simp only [Option.map_some]
  congr 1
  have : ∀ x : K, iter nv (fun i x => iter B (fun j_1 x => if j * nv + v = j_1 * nv + i then W i j_1 else x) x) x
      = iter nv (fun i x => if v = i then W i j else x) x := by
    intro x
    refine iter_congr (fun i hi y => ?_) x
    rw [iter_single j hj]
    · by_cases h : v = i
      · subst h; simp
      · rw [if_neg h, if_neg (fun h' => h ((flat_inj hv hi).mp h').2)]
    · intro j' hj' hne z
      rw [if_neg (fun h' => hne ((flat_inj hv hi).mp h').1.symm)]
  rw [this]
  exact iter_eq hv (fun i _ => W i j) _

theorem evaluateBatch_spec {P : Poly K} (hP : Valid P) {x : List K} {B : ℕ} {X : ℕ → ℕ → K}
    (hx : ∀ j < B, ∀ v < P.numVariables, x[j * P.numVariables + v]? = some (X j v)) :
    ∃ V W, ∃ G : ℕ → ℕ → K, P.evaluateBatch x B = some (tab B (fun j => nodeSum P (monomial (X j))),
        tab2 B P.numVariables (fun j v => G j v),
        { P with nodeValues := tab2 P.nodes.length B V, nodeAdjoints := tab2 P.nodes.length B W }) ∧
      ∀ j < B, ∀ d : ℕ → K, ∑ v ∈ Finset.range P.numVariables, G j v * d v = nodeSum P (lbz (X j) d) := by
  have hlen := hP.len
  have hnn : P.numVariables ≤ P.nodes.length := by omega
  obtain ⟨V0, h1, h2⟩ := bInitForward_spec hnn hx P.nodeValues
  obtain ⟨V, h3, h4⟩ := bForward_spec hP h2
  obtain ⟨W, h5, h6⟩ := bBackward_spec hP h4 (fun q _ => P.nodeCoefficients[q]?.getD 0)
  refine ⟨V, W, fun j v => W v j, ?_, fun j hj d => ?_⟩
  · unfold Poly.evaluateBatch
    rw [h1]
    simp only [Option.bind_eq_bind, Option.bind_some]
    rw [h3, Option.bind_some, bValues_spec hP.clen, Option.bind_some, bInitBackward_spec hP.clen, Option.bind_some, h5,
      Option.bind_some, bExtract_spec hnn, Option.bind_some]
    have : tab B (fun j => ∑ q ∈ Finset.range P.nodes.length, (P.nodeCoefficients[q]?.getD 0) * V q j)
        = tab B (fun j => nodeSum P (monomial (X j))) := by
      apply tab_congr
      intro j hj
      unfold nodeSum
      apply Finset.sum_congr rfl
      intro q hq
      rw [h4 q (Finset.mem_range.mp hq) j hj]
    rw [this]; rfl
  · rw [h6 j hj d]
    rfl

/-! ## Direct evaluation -/

theorem monoValue_eq {x : List K} {X : ℕ → K} {m : List ℕ} (hm : m ≠ []) (hx : ∀ v ∈ m, x[v]? = some (X v)) :
    monoValue x m = some (monomial X m) := by
  cases m with
  | nil => exact absurd rfl hm
  | cons v m =>
    unfold monoValue
    rw [List.getElem?_cons_zero]
    simp only [Option.bind_eq_bind, Option.bind_some, hx v (by simp), List.length_cons, Nat.add_sub_cancel]
    have h := loop_eq (n := m.length) (body := fun j y => do
        let v ← (v :: m)[j + 1]?
        let a ← x[v]?
        pure (y * a)) (fun j => X v * monomial X (m.take j)) (by
        intro j hj
        have hg : m[j]? = some m[j] := List.getElem?_eq_getElem hj
        rw [List.getElem?_cons_succ, hg]
        simp only [Option.bind_eq_bind, Option.bind_some, hx m[j] (List.mem_cons_of_mem _ (List.getElem_mem hj)), Option.pure_def]
        congr 1
        rw [List.take_add_one, hg, Option.toList_some, monomial_append]
        simp [monomial]
        ring)
    simp only [List.take_zero, monomial_nil, mul_one, List.take_length, Option.bind_eq_bind] at h
    rw [monomial_cons]
    exact h

theorem zip_map_sum {α : Type} (l : List α) (c : List K) (hlen : c.length = l.length) (F : α → K) :
    ((l.zip c).map (fun q => q.2 * F q.1)).sum
      = ∑ i ∈ Finset.range l.length, (c[i]?.getD 0) * ((l[i]?.map F).getD 0) := by
  induction l generalizing c with
  | nil => simp
  | cons a l ih =>
    cases c with
    | nil => simp at hlen
    | cons b c =>
      rw [List.zip_cons_cons, List.map_cons, List.sum_cons, ih c (by simpa using hlen), List.length_cons,
        Finset.sum_range_succ']
      simp [add_comm]

theorem evaluateSimple_spec {P : Poly K} {x : List K} {X : ℕ → K} (hlen : P.coefficients.length = P.monomials.length)
    (hne : ∀ m ∈ P.monomials, m ≠ []) (hx : ∀ m ∈ P.monomials, ∀ v ∈ m, x[v]? = some (X v)) :
    P.evaluateSimple x = some (polynomial P.coefficients P.monomials X) := by
  unfold Poly.evaluateSimple polynomial
  rw [zip_map_sum _ _ hlen, hlen]
  apply sumO_eq
  intro i hi
  have hmem := List.getElem_mem hi
  have e1 : P.monomials[i]? = some P.monomials[i] := List.getElem?_eq_getElem hi
  have hi' : i < P.coefficients.length := by omega
  rw [e1, List.getElem?_eq_getElem hi']
  simp only [Option.bind_eq_bind, Option.bind_some, monoValue_eq (hne _ hmem) (hx _ hmem)]
  rfl

theorem monoDeriv_eq {x : List K} {X : ℕ → K} {m : List ℕ} (hx : ∀ v ∈ m, x[v]? = some (X v)) (j : ℕ) :
    monoDeriv x m j = some (monomial X (m.eraseIdx j)) := by
  unfold monoDeriv
  have h := loop_eq (n := m.length) (body := fun k y => if k = j then some y else do
      let v ← m[k]?
      let a ← x[v]?
      pure (y * a)) (fun k => monomial X ((m.take k).eraseIdx j)) (by
      intro k hk
      have hg : m[k]? = some m[k] := List.getElem?_eq_getElem hk
      have hl : (m.take k).length = k := by rw [List.length_take]; omega
      rw [List.take_add_one, hg, Option.toList_some]
      by_cases h : k = j
      · subst h
        rw [if_pos rfl, List.eraseIdx_append_of_length_le (by omega), hl, Nat.sub_self]
        rw [List.eraseIdx_of_length_le (by omega)]
        simp
      · rw [if_neg h]
        simp only [Option.bind_eq_bind, Option.bind_some, hx m[k] (List.getElem_mem hk), Option.pure_def]
        congr 1
        rcases Nat.lt_or_ge j k with hjk | hjk
        · rw [List.eraseIdx_append_of_lt_length (by omega), monomial_append]
          simp [monomial]
        · rw [List.eraseIdx_of_length_le (by omega), List.eraseIdx_of_length_le (by simp; omega), monomial_append]
          simp [monomial])
  simp only [List.take_zero, List.take_length] at h
  rw [show monomial X ([].eraseIdx j) = (1 : K) from rfl] at h
  exact h

theorem lbz_eq_sum (X d : ℕ → K) (m : List ℕ) :
    lbz X d m = ∑ j ∈ Finset.range m.length, d (m[j]?.getD 0) * monomial X (m.eraseIdx j) := by
  induction m with
  | nil => simp [lbz]
  | cons v m ih =>
    rw [lbz, ih, List.length_cons, Finset.sum_range_succ', Finset.mul_sum, add_comm]
    congr 1
    · apply Finset.sum_congr rfl
      intro j _
      simp
      ring

/-- Repeated `g[idx k] += val k`. -/
theorem ad_loop_spec {n L : ℕ} {idx : ℕ → ℕ} (hidx : ∀ k < n, idx k < L) (val G : ℕ → K) :
    ∃ G', loop n (fun k g => ad g (idx k) (val k)) (tab L G) = some (tab L G') ∧
      ∀ d : ℕ → K, ∑ v ∈ Finset.range L, G' v * d v
        = ∑ v ∈ Finset.range L, G v * d v + ∑ k ∈ Finset.range n, val k * d (idx k) := by
  induction n with
  | zero => exact ⟨G, rfl, by simp⟩
  | succ n ih =>
    obtain ⟨G', h1, h2⟩ := ih (fun k hk => hidx k (by omega))
    have hn := hidx n (by omega)
    refine ⟨Function.update G' (idx n) (G' (idx n) + val n), ?_, ?_⟩
    · rw [loop_succ, h1, Option.bind_some, ad_tab _ hn]
    · intro d
      rw [sum_update hn, h2, Finset.sum_range_succ, add_assoc]

theorem evaluateGradientSimple_spec {P : Poly K} {x : List K} {X : ℕ → K}
    (hlen : P.coefficients.length = P.monomials.length)
    (hne : ∀ m ∈ P.monomials, m ≠ []) (hr : ∀ m ∈ P.monomials, ∀ v ∈ m, v < P.numVariables)
    (hx : ∀ v < P.numVariables, x[v]? = some (X v)) :
    ∃ G, P.evaluateGradientSimple x = some (polynomial P.coefficients P.monomials X, tab P.numVariables G) ∧
      ∀ d : ℕ → K, ∑ v ∈ Finset.range P.numVariables, G v * d v
        = ((P.monomials.zip P.coefficients).map (fun q => q.2 * lbz X d q.1)).sum := by
  have hx' : ∀ m ∈ P.monomials, ∀ v ∈ m, x[v]? = some (X v) := fun m hm v hv => hx v (hr m hm v hv)
  have h := loop_inv (n := P.coefficients.length) (body := fun i g => do
      let c ← P.coefficients[i]?
      let m ← P.monomials[i]?
      loop m.length (fun j g => do
        let v ← m[j]?
        let d ← monoDeriv x m j
        ad g v (c * d)) g)
    (fun i g => ∃ G, g = tab P.numVariables G ∧ ∀ d : ℕ → K, ∑ v ∈ Finset.range P.numVariables, G v * d v
        = ∑ k ∈ Finset.range i, (P.coefficients[k]?.getD 0) * ((P.monomials[k]?.map (lbz X d)).getD 0))
    (s := List.replicate P.numVariables 0) ⟨fun _ => 0, replicate_eq_tab _ _, by simp⟩ (by
      rintro i hi g ⟨G, rfl, hG⟩
      have e1 : P.coefficients[i]? = some P.coefficients[i] := List.getElem?_eq_getElem hi
      have hi' : i < P.monomials.length := by omega
      have e2 : P.monomials[i]? = some P.monomials[i] := List.getElem?_eq_getElem hi'
      have hmem := List.getElem_mem hi'
      generalize P.coefficients[i] = c at e1
      generalize P.monomials[i] = m at e2 hmem
      obtain ⟨G', h1, h2⟩ := ad_loop_spec (n := m.length) (L := P.numVariables) (idx := fun j => m[j]?.getD 0)
        (fun k hk => by
          simp only [List.getElem?_eq_getElem hk, Option.getD_some]
          exact hr m hmem _ (List.getElem_mem hk))
        (fun j => c * monomial X (m.eraseIdx j)) G
      refine ⟨tab P.numVariables G', ?_, G', rfl, ?_⟩
      · simp only [e1, e2, Option.bind_eq_bind, Option.bind_some]
        rw [← h1]
        apply loop_congr
        intro j hj s
        rw [List.getElem?_eq_getElem hj, monoDeriv_eq (hx' m hmem)]
        rfl
      · intro d
        rw [h2, hG, Finset.sum_range_succ, e1, e2]
        congr 1
        simp only [Option.map_some, Option.getD_some]
        rw [lbz_eq_sum, Finset.mul_sum]
        apply Finset.sum_congr rfl
        intro j _
        ring)
  obtain ⟨g, h1, G, rfl, h2⟩ := h
  refine ⟨G, ?_, fun d => ?_⟩
  · unfold Poly.evaluateGradientSimple
    rw [evaluateSimple_spec hlen hne hx']
    simp only [Option.bind_eq_bind, Option.bind_some] at h1 ⊢
    rw [h1]
    rfl
  · rw [h2, zip_map_sum _ _ hlen, hlen]

end Verif.Poly
