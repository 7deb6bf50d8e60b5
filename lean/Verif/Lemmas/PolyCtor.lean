import Verif.Lemmas.PolyBuild

/-! # Helper lemmas: result of the polynomial constructor (C19, C23) -/

namespace Verif.Poly
open Verif.Tools

/-! ## The map -/

section map
variable {K : Type}

theorem mem_keys_mapInsert {x y : List ℕ} {c : K} {l : List (List ℕ × K)} :
    y ∈ (mapInsert x c l).map Prod.fst ↔ y = x ∨ y ∈ l.map Prod.fst := by
  induction l with
  | nil => simp [mapInsert]
  | cons z l ih =>
    unfold mapInsert
    split
    · simp
    · split
      · rw [List.map_cons, List.mem_cons, ih, List.map_cons, List.mem_cons]; tauto
      · rename_i h1 h2
        have : x = z.1 := by
          rcases lexLess_tri x z.1 with h | h | h
          · exact absurd h h1
          · exact h
          · exact absurd h h2
        subst this
        simp

theorem sorted_mapInsert {x : List ℕ} {c : K} {l : List (List ℕ × K)} (h : Sorted (l.map Prod.fst)) :
    Sorted ((mapInsert x c l).map Prod.fst) := by
  induction l with
  | nil => simp [mapInsert, Sorted]
  | cons z l ih =>
    unfold Sorted at h
    rw [List.map_cons, List.pairwise_cons] at h
    unfold mapInsert
    split
    · rename_i h1
      unfold Sorted
      rw [List.map_cons, List.pairwise_cons]
      refine ⟨?_, by rw [List.map_cons]; exact List.pairwise_cons.mpr h⟩
      intro y hy
      rw [List.map_cons] at hy
      rcases List.mem_cons.mp hy with rfl | hy
      · exact h1
      · exact lexLess_trans h1 (h.1 y hy)
    · split
      · rename_i h1 h2
        unfold Sorted
        rw [List.map_cons, List.pairwise_cons]
        refine ⟨?_, ih h.2⟩
        intro y hy
        rcases mem_keys_mapInsert.mp hy with rfl | hy
        · exact h2
        · exact h.1 y hy
      · rw [List.map_cons]; exact List.pairwise_cons.mpr h

theorem perm_mapInsert {x : List ℕ} {c : K} {l : List (List ℕ × K)} (hx : x ∉ l.map Prod.fst) :
    (mapInsert x c l).Perm ((x, c) :: l) := by
  induction l with
  | nil => simp [mapInsert]
  | cons z l ih =>
    rw [List.map_cons, List.mem_cons, not_or] at hx
    unfold mapInsert
    split
    · exact List.Perm.refl _
    · split
      · exact ((ih hx.2).cons z).trans (List.Perm.swap _ _ _)
      · rename_i h1 h2
        rcases lexLess_tri x z.1 with h | h | h
        · exact absurd h h1
        · exact absurd h hx.1
        · exact absurd h h2

theorem zip_take_succ {α β : Type} {l : List α} {l' : List β} {i : ℕ} {a : α} {b : β} (h : l[i]? = some a)
    (h' : l'[i]? = some b) : (l.zip l').take (i + 1) = (l.zip l').take i ++ [(a, b)] := by
  rw [List.take_add_one]
  congr 1
  have : (l.zip l')[i]? = some (a, b) := by
    rw [List.getElem?_zip_eq_some]; exact ⟨h, h'⟩
  rw [this]; rfl

/-- For distinct monomials the map is the sorted list of the input pairs. -/
theorem buildMap_spec (coeffs : List K) (monos : List (List ℕ)) (hlen : coeffs.length = monos.length)
    (hnd : monos.Nodup) :
    ∃ m, buildMap coeffs monos = some m ∧ Sorted (m.map Prod.fst) ∧ m.Perm (monos.zip coeffs) := by
  have hrun := loop_inv (n := monos.length) (body := fun i m => do
      let k ← monos[i]?
      let c ← coeffs[i]?
      pure (mapInsert k c m))
    (fun i (m : List (List ℕ × K)) => Sorted (m.map Prod.fst) ∧ m.Perm ((monos.zip coeffs).take i))
    (s := []) ⟨by simp [Sorted], by simp⟩ (by
      rintro i hi m ⟨h1, h2⟩
      have e1 : monos[i]? = some monos[i] := List.getElem?_eq_getElem hi
      have e2 : coeffs[i]? = some coeffs[i] := List.getElem?_eq_getElem (by omega)
      refine ⟨mapInsert monos[i] coeffs[i] m, by simp [e1, e2], sorted_mapInsert h1, ?_⟩
      have hx : monos[i] ∉ m.map Prod.fst := by
        rw [(h2.map Prod.fst).mem_iff, List.map_take, List.map_fst_zip (by omega)]
        intro hmem
        obtain ⟨j, hj, he⟩ := List.mem_take_iff_getElem.mp hmem
        have := (List.Nodup.getElem_inj_iff hnd).mp he
        omega
      rw [zip_take_succ e1 e2]
      exact (perm_mapInsert hx).trans ((h2.cons _).trans (List.perm_append_singleton _ _).symm))
  obtain ⟨m, h1, h2, h3⟩ := hrun
  refine ⟨m, h1, h2, ?_⟩
  rwa [List.take_of_length_le (by simp)] at h3

end map

/-! ## The initial node set -/

theorem foldl_setInsert_spec {α : Type*} (f : α → List ℕ) (l : List α) (S : List (List ℕ)) (hS : Sorted S) :
    Sorted (l.foldl (fun S a => setInsert (f a) S) S) ∧
    ∀ y, y ∈ l.foldl (fun S a => setInsert (f a) S) S ↔ y ∈ S ∨ ∃ a ∈ l, y = f a := by
  induction l generalizing S with
  | nil => simp [hS]
  | cons a l ih =>
    obtain ⟨h1, h2⟩ := ih (setInsert (f a) S) (sorted_setInsert hS)
    refine ⟨h1, fun y => ?_⟩
    rw [List.foldl_cons, h2, mem_setInsert]
    simp only [List.mem_cons, exists_eq_or_imp]
    tauto

theorem nodeSet0_spec (nv : ℕ) (keys : List (List ℕ)) :
    Sorted (nodeSet0 nv keys) ∧ ∀ y, y ∈ nodeSet0 nv keys ↔ (∃ v < nv, y = [v]) ∨ y ∈ keys := by
  obtain ⟨h1, h2⟩ := foldl_setInsert_spec (fun i : ℕ => [i]) (List.range nv) [] (by simp [Sorted])
  obtain ⟨h3, h4⟩ := foldl_setInsert_spec (fun m : List ℕ => m) keys _ h1
  refine ⟨h3, fun y => ?_⟩
  unfold nodeSet0
  rw [h4, h2]
  simp

theorem nodeSet0_inv {nv : ℕ} {keys : List (List ℕ)} (hne : ∀ m ∈ keys, m ≠ []) (hr : ∀ m ∈ keys, ∀ v ∈ m, v < nv) :
    Inv nv (nodeSet0 nv keys) := by
  obtain ⟨h1, h2⟩ := nodeSet0_spec nv keys
  refine ⟨h1, ?_, ?_, ?_⟩
  · intro y hy
    rcases (h2 y).mp hy with ⟨v, _, rfl⟩ | h
    · simp
    · exact hne y h
  · intro y hy
    rcases (h2 y).mp hy with ⟨v, hv, rfl⟩ | h
    · simp [hv]
    · exact hr y h
  · intro v hv
    exact (h2 _).mpr (Or.inl ⟨v, hv, rfl⟩)

/-! ## Shape of the node list -/

theorem sorted_index_lt {S : List (List ℕ)} (hS : Sorted S) {i j : ℕ} (hi : i < S.length) (hj : j < S.length)
    (h : lexLess S[i] S[j]) : i < j := by
  by_contra hij
  rcases Nat.lt_or_ge j i with h1 | h1
  · exact lexLess_asymm h (List.pairwise_iff_getElem.mp hS j i hj hi h1)
  · have : i = j := by omega
    subst this
    exact lexLess_irrefl _ h

/-- The nodes are the variables, in order, followed by nodes with at least two factors. -/
theorem nodes_split {nv : ℕ} {S : List (List ℕ)} (hI : Inv nv S) :
    ∃ R, S = (List.range nv).map (fun v => [v]) ++ R ∧ ∀ y ∈ R, 2 ≤ y.length := by
  have hsplit : ∀ S : List (List ℕ), Sorted S → (∀ y ∈ S, y ≠ []) →
      S = S.filter (fun y => y.length = 1) ++ S.filter (fun y => ¬ y.length = 1) := by
    intro S
    induction S with
    | nil => simp
    | cons z l ih =>
      intro hS hne
      unfold Sorted at hS
      rw [List.pairwise_cons] at hS
      by_cases hz : z.length = 1
      · have h := ih hS.2 (fun y hy => hne y (List.mem_cons_of_mem _ hy))
        simp only [List.filter_cons, hz, decide_true, if_true, not_true_eq_false, decide_false,
          Bool.false_eq_true, if_false, List.cons_append]
        rw [← h]
      · have h1 : l.filter (fun y => y.length = 1) = [] := by
          rw [List.filter_eq_nil_iff]
          intro y hy
          have := hS.1 y hy
          have hzp := List.length_pos_iff.mpr (hne z (by simp))
          have : z.length ≤ y.length := by rcases this with h | h <;> omega
          simp; omega
        have h2 : l.filter (fun y => ¬ y.length = 1) = l := by
          rw [List.filter_eq_self]
          intro y hy
          have := List.filter_eq_nil_iff.mp h1 y hy
          simpa using this
        rw [List.filter_cons, List.filter_cons, h1, h2]
        simp [hz]
  refine ⟨S.filter (fun y => ¬ y.length = 1), ?_, ?_⟩
  · have h := hsplit S hI.sorted hI.ne
    have hvars : S.filter (fun y => y.length = 1) = (List.range nv).map (fun v => [v]) := by
      apply List.Perm.eq_of_pairwise (le := lexLess)
      · intro a b _ _ hab hba
        exact absurd hba (lexLess_asymm hab)
      · exact List.Pairwise.filter _ hI.sorted
      · rw [List.pairwise_map]
        refine List.Pairwise.imp ?_ (List.pairwise_lt_range (n := nv))
        intro a b hab
        right
        refine ⟨rfl, ?_⟩
        exact List.cons_lt_cons_iff.mpr (Or.inl hab)
      · rw [List.perm_ext_iff_of_nodup (hI.sorted.nodup.filter _)
          (List.Nodup.map (fun a b h => by simpa using h) List.nodup_range)]
        intro y
        rw [List.mem_filter, List.mem_map]
        constructor
        · rintro ⟨h1, h2⟩
          have h2 : y.length = 1 := by simpa using h2
          obtain ⟨v, rfl⟩ := List.length_eq_one_iff.mp h2
          exact ⟨v, List.mem_range.mpr (hI.range _ h1 v (by simp)), rfl⟩
        · rintro ⟨v, hv, rfl⟩
          exact ⟨hI.vars v (List.mem_range.mp hv), by simp⟩
    rw [← hvars]; exact h
  · intro y hy
    rw [List.mem_filter] at hy
    have h1 := List.length_pos_iff.mpr (hI.ne y hy.1)
    have h2 : ¬ y.length = 1 := by simpa using hy.2
    omega

/-! ## Edges -/

theorem buildEdges_vars (srt : List (List (List ℕ)) → List (List (List ℕ))) (nodes l R : List (List ℕ))
    (hl : ∀ y ∈ l, y.length = 1) : buildEdges srt nodes (l ++ R) = buildEdges srt nodes R := by
  induction l with
  | nil => rfl
  | cons z l ih =>
    rw [List.cons_append, buildEdges, if_pos (hl z (by simp)), ih (fun y hy => hl y (by simp [hy]))]

theorem buildEdges_spec {srt : List (List (List ℕ)) → List (List (List ℕ))} (hs : SortFn srt) (nodes R : List (List ℕ))
    (hR : ∀ y ∈ R, 2 ≤ y.length) (hg : ∀ y ∈ R, Good nodes y) :
    ∃ es, buildEdges srt nodes R = some es ∧ es.length = R.length ∧
      ∀ (i : ℕ) (y : List ℕ), R[i]? = some y → ∃ a b, es[i]? = some (nodes.idxOf a, nodes.idxOf b) ∧ a ∈ nodes ∧ b ∈ nodes ∧
        (a ++ b).Perm y ∧ a ≠ [] ∧ b ≠ [] := by
  induction R with
  | nil => exact ⟨[], rfl, rfl, by simp⟩
  | cons z R ih =>
    obtain ⟨es, h1, h2, h3⟩ := ih (fun y hy => hR y (by simp [hy])) (fun y hy => hg y (by simp [hy]))
    have hz := hR z (by simp)
    have hfp : ∃ f, findParents srt z nodes = some f := by
      rcases hg z (by simp) with h | ⟨a, b, h4, h5, h6⟩
      · omega
      · exact findParents_isSome hs h4 h5 h6
    obtain ⟨f, hf⟩ := hfp
    obtain ⟨g1, g2, g3⟩ := findParents_some hs hf
    refine ⟨(nodes.idxOf f.1, nodes.idxOf f.2) :: es, ?_, by simp [h2], ?_⟩
    · rw [buildEdges, if_neg (by omega), hf, h1]; rfl
    · intro i y hy
      cases i with
      | zero =>
        rw [List.getElem?_cons_zero] at hy
        obtain rfl := Option.some.inj hy
        obtain ⟨a, b, hab, h4, h5, h6⟩ := twoPart_blocks g1
        obtain ⟨rfl, rfl⟩ : f.1 = a ∧ f.2 = b := by simpa using hab
        exact ⟨_, _, rfl, g2, g3, h4, h5, h6⟩
      | succ i =>
        rw [List.getElem?_cons_succ] at hy
        obtain ⟨a, b, h4, h5⟩ := h3 i y hy
        exact ⟨a, b, by rw [List.getElem?_cons_succ]; exact h4, h5⟩

/-! ## Coefficients -/

theorem advance_eq {nodes : List (List ℕ)} {m : List ℕ} {j : ℕ} (hm : m ∈ nodes) (hj : j ≤ nodes.idxOf m) :
    advance nodes m j = some (nodes.idxOf m) := by
  induction nodes generalizing j with
  | nil => simp at hm
  | cons z l ih =>
    cases j with
    | zero =>
      unfold advance
      rw [List.drop_zero]
      have : (z :: l).findIdx? (fun y => decide (y = m)) = some ((z :: l).idxOf m) := by
        rw [List.findIdx?_eq_some_iff_findIdx_eq]
        refine ⟨List.idxOf_lt_length_iff.mpr hm, ?_⟩
        unfold List.idxOf
        congr 1
        funext y
        by_cases h : y = m <;> simp [h]
      rw [this]; simp
    | succ j =>
      have hzm : z ≠ m := by
        rintro rfl
        simp at hj
      rw [List.idxOf_cons_ne _ hzm] at hj ⊢
      have hm' : m ∈ l := by
        rcases List.mem_cons.mp hm with h | h
        · exact absurd h.symm hzm
        · exact h
      have := ih hm' (j := j) (by omega)
      unfold advance at this ⊢
      rw [List.drop_succ_cons]
      cases h : (l.drop j).findIdx? (fun y => decide (y = m)) with
      | none => rw [h] at this; simp at this
      | some k =>
        rw [h] at this
        simp only [Option.map_some, Option.some.injEq] at this ⊢
        omega

theorem fillCoeffs_eq {K : Type} {nodes : List (List ℕ)} (hS : Sorted nodes) (map : List (List ℕ × K))
    (hmap : Sorted (map.map Prod.fst)) (hmem : ∀ q ∈ map, q.1 ∈ nodes) (j : ℕ)
    (hj : ∀ q ∈ map, j ≤ nodes.idxOf q.1) (nc : List K) (hnc : nc.length = nodes.length) :
    fillCoeffs nodes map j nc = some (map.foldl (fun nc q => nc.set (nodes.idxOf q.1) q.2) nc) := by
  induction map generalizing j nc with
  | nil => rfl
  | cons q map ih =>
    obtain ⟨m, c⟩ := q
    have hmN : m ∈ nodes := hmem (m, c) (by simp)
    have hlt := List.idxOf_lt_length_iff.mpr hmN
    unfold fillCoeffs
    rw [advance_eq hmN (hj (m, c) (by simp))]
    simp only [Option.bind_eq_bind, Option.bind_some]
    rw [wr_eq _ (by omega), Option.bind_some]
    unfold Sorted at hmap
    rw [List.map_cons, List.pairwise_cons] at hmap
    rw [ih hmap.2 (fun q hq => hmem q (by simp [hq])) _ _ _ (by simp [hnc])]
    · rfl
    · intro q hq
      have hqN := hmem q (by simp [hq])
      have hlt' := List.idxOf_lt_length_iff.mpr hqN
      have h1 := hmap.1 q.1 (List.mem_map_of_mem hq)
      apply le_of_lt
      apply sorted_index_lt hS hlt hlt'
      rw [List.getElem_idxOf, List.getElem_idxOf]
      exact h1

theorem sum_set {K : Type} [CommRing K] {n : ℕ} (nc : List K) (hn : nc.length = n) (i : ℕ) (hi : i < n) (c : K)
    (h0 : nc[i]? = some 0) (F : ℕ → K) :
    ∑ j ∈ Finset.range n, ((nc.set i c)[j]?.getD 0) * F j = c * F i + ∑ j ∈ Finset.range n, (nc[j]?.getD 0) * F j := by
  have hmem := Finset.mem_range.mpr hi
  rw [← Finset.add_sum_erase _ _ hmem, ← Finset.add_sum_erase (Finset.range n) (fun j => (nc[j]?.getD 0) * F j) hmem, h0]
  have : (nc.set i c)[i]? = some c := by
    rw [List.getElem?_set_self]; omega
  rw [this]
  simp only [Option.getD_some, zero_mul, zero_add]
  congr 1
  apply Finset.sum_congr rfl
  intro j hj
  rw [List.getElem?_set_ne (Finset.ne_of_mem_erase hj).symm]

theorem foldl_set_sum {K : Type} [CommRing K] {nodes : List (List ℕ)} (map : List (List ℕ × K))
    (hnd : (map.map Prod.fst).Nodup) (hmem : ∀ q ∈ map, q.1 ∈ nodes) (nc : List K) (hnc : nc.length = nodes.length)
    (hz : ∀ q ∈ map, nc[nodes.idxOf q.1]? = some 0) (F : List ℕ → K) :
    (map.foldl (fun nc q => nc.set (nodes.idxOf q.1) q.2) nc).length = nodes.length ∧
    ∑ j ∈ Finset.range nodes.length,
      ((map.foldl (fun nc q => nc.set (nodes.idxOf q.1) q.2) nc)[j]?.getD 0) * F (nodes[j]?.getD [])
      = (map.map (fun q => q.2 * F q.1)).sum
        + ∑ j ∈ Finset.range nodes.length, (nc[j]?.getD 0) * F (nodes[j]?.getD []) := by
  induction map generalizing nc with
  | nil => simp [hnc]
  | cons q map ih =>
    obtain ⟨m, c⟩ := q
    have hmN : m ∈ nodes := hmem (m, c) (by simp)
    have hlt := List.idxOf_lt_length_iff.mpr hmN
    rw [List.map_cons, List.nodup_cons] at hnd
    obtain ⟨h1, h2⟩ := ih hnd.2 (fun q hq => hmem q (by simp [hq])) (nc.set (nodes.idxOf m) c) (by simp [hnc]) (by
      intro q hq
      rw [List.getElem?_set_ne]
      · exact hz q (by simp [hq])
      · intro he
        have : q.1 = m := by
          have hq1 := hmem q (by simp [hq])
          have e1 := List.getElem_idxOf (List.idxOf_lt_length_iff.mpr hq1)
          have e2 := List.getElem_idxOf hlt
          rw [← e1, ← e2]
          congr 1; exact he.symm
        have h3 := List.mem_map_of_mem (f := Prod.fst) hq
        rw [this] at h3
        exact hnd.1 h3)
    rw [List.foldl_cons]
    refine ⟨h1, ?_⟩
    rw [h2, sum_set nc hnc _ hlt c (hz (m, c) (by simp)), List.map_cons, List.sum_cons]
    have : nodes[nodes.idxOf m]?.getD [] = m := by
      rw [List.getElem?_eq_getElem hlt, List.getElem_idxOf]; rfl
    simp only [this]
    ring

/-! ## Main result -/

/-- Graph facts the evaluators rely on. -/
structure Valid {K : Type} [CommRing K] (P : Poly K) : Prop where
  len : P.nodes.length = P.numVariables + P.edges.length
  clen : P.nodeCoefficients.length = P.nodes.length
  var : ∀ v < P.numVariables, P.nodes[v]? = some [v]
  edge : ∀ i < P.edges.length, ∃ e y a b, P.edges[i]? = some e ∧ P.nodes[P.numVariables + i]? = some y ∧
    P.nodes[e.1]? = some a ∧ P.nodes[e.2]? = some b ∧ e.1 < P.numVariables + i ∧ e.2 < P.numVariables + i ∧
    (a ++ b).Perm y

theorem mk?_spec {K : Type} [CommRing K] {srt : List (List (List ℕ)) → List (List (List ℕ))} (hs : SortFn srt) (nv : ℕ)
    (coeffs : List K) (monos : List (List ℕ)) (hlen : coeffs.length = monos.length) (hnd : monos.Nodup)
    (hne : ∀ m ∈ monos, m ≠ []) (hr : ∀ m ∈ monos, ∀ v ∈ m, v < nv) :
    ∃ P, Poly.mk? srt nv coeffs monos = some P ∧ Valid P ∧ P.numVariables = nv ∧ P.coefficients = coeffs ∧
      P.monomials = monos ∧ P.nodeValues.length = P.nodes.length ∧ P.nodeAdjoints.length = P.nodes.length ∧
      (∀ F : List ℕ → K, ∑ j ∈ Finset.range P.nodes.length,
        (P.nodeCoefficients[j]?.getD 0) * F (P.nodes[j]?.getD []) =
          ((monos.zip coeffs).map (fun q => q.2 * F q.1)).sum) ∧
      P.nodes.Nodup ∧ (∀ m ∈ monos, m ∈ P.nodes) ∧ (∀ y ∈ P.nodes, ∀ v ∈ y, v < nv) ∧
      P.numAux = (P.nodes.filter (fun y => ¬ (y.length = 1 ∨ y ∈ monos))).length := by
  obtain ⟨map, hmap, hsorted, hperm⟩ := buildMap_spec coeffs monos hlen hnd
  have hkeys : ∀ y, y ∈ map.map Prod.fst ↔ y ∈ monos := by
    intro y
    rw [(hperm.map Prod.fst).mem_iff, List.map_fst_zip (by omega)]
  have hI0 := nodeSet0_inv (nv := nv) (keys := map.map Prod.fst) (fun m hm => hne m ((hkeys m).mp hm))
    (fun m hm => hr m ((hkeys m).mp hm))
  set S0 := nodeSet0 nv (map.map Prod.fst) with hS0
  obtain ⟨S, aux, haux, hI, hsub, hcount, hgood⟩ := auxLoop_spec hs (S0.length + 1) S0.head? S0 0 hI0
    (by
      intro h y hy
      rw [List.head?_eq_none_iff] at h
      rw [h] at hy; simp at hy)
    (by
      intro node hnode
      have hmem := List.mem_of_mem_head? (Option.mem_def.mpr hnode)
      refine ⟨hmem, ?_, ?_⟩
      · intro y hy hlt
        exfalso
        cases hc : S0 with
        | nil => rw [hc] at hy; simp at hy
        | cons z l =>
          rw [hc] at hnode hy
          obtain rfl : z = node := by simpa using hnode
          have hso := hI0.sorted
          rw [hc] at hso
          unfold Sorted at hso
          rw [List.pairwise_cons] at hso
          rcases List.mem_cons.mp hy with rfl | hy
          · exact lexLess_irrefl _ hlt
          · exact lexLess_asymm hlt (hso.1 y hy)
      · unfold rest
        have := List.length_filter_le (fun y => decide ¬ lexLess y node) S0
        omega)
  obtain ⟨R, hSR, hR2⟩ := nodes_split hI
  obtain ⟨es, he1, he2, he3⟩ := buildEdges_spec hs S R hR2 (fun y hy => hgood y (by rw [hSR]; simp [hy]))
  have hedges : buildEdges srt S S = some es := by
    conv_lhs => rw [show buildEdges srt S S = buildEdges srt S ((List.range nv).map (fun v => [v]) ++ R) from by
      rw [← hSR]]
    rw [buildEdges_vars _ _ _ _ (by simp), he1]
  have hmapS : ∀ q ∈ map, q.1 ∈ S := by
    intro q hq
    apply hsub
    rw [(nodeSet0_spec nv (map.map Prod.fst)).2]
    exact Or.inr (List.mem_map_of_mem hq)
  have hfill := fillCoeffs_eq hI.sorted map hsorted hmapS 0 (fun _ _ => Nat.zero_le _) (List.replicate S.length (0 : K))
    (by simp)
  have hsum := fun F => foldl_set_sum (nodes := S) map hsorted.nodup hmapS (List.replicate S.length (0 : K)) (by simp)
    (by
      intro q hq
      have := List.idxOf_lt_length_iff.mpr (hmapS q hq)
      simp [this]) F
  have hmk : Poly.mk? srt nv coeffs monos = some
      { numVariables := nv, coefficients := coeffs, monomials := monos, numAux := aux, nodes := S,
        edges := es, nodeCoefficients := map.foldl (fun nc q => nc.set (S.idxOf q.1) q.2) (List.replicate S.length 0),
        nodeValues := List.replicate S.length 0, nodeAdjoints := List.replicate S.length 0 } := by
    unfold Poly.mk?
    rw [hmap]
    simp only [Option.bind_eq_bind, Option.bind_some]
    rw [← hS0, haux, Option.bind_some]
    simp only
    rw [hedges, Option.bind_some, hfill, Option.bind_some]
    rfl
  have hlenS : S.length = nv + R.length := by
    conv_lhs => rw [hSR]
    simp
  have hRi : ∀ i, S[nv + i]? = R[i]? := by
    intro i
    conv_lhs => rw [hSR]
    rw [List.getElem?_append_right (by simp)]
    simp
  refine ⟨_, hmk, ⟨?_, (hsum (fun _ => 0)).1, ?_, ?_⟩, rfl, rfl, rfl, by simp, by simp, ?_, hI.sorted.nodup, ?_, hI.range, ?_⟩
  · show S.length = nv + es.length
    omega
  · intro v hv
    show S[v]? = some [v]
    have hv : v < nv := hv
    conv_lhs => rw [hSR]
    rw [List.getElem?_append_left (by simpa using hv)]
    simp [hv]
  · intro i hi
    have hi : i < es.length := hi
    have hy : R[i]? = some R[i] := List.getElem?_eq_getElem (by omega)
    obtain ⟨a, b, h1, h2, h3, h4, h5, h6⟩ := he3 i _ hy
    have la := List.idxOf_lt_length_iff.mpr h2
    have lb := List.idxOf_lt_length_iff.mpr h3
    have hSi : S[nv + i]? = some R[i] := by rw [hRi, hy]
    have hlt : nv + i < S.length := by omega
    have hSi' : S[nv + i] = R[i] := by
      have := List.getElem?_eq_getElem hlt
      rw [hSi] at this
      exact (Option.some.inj this).symm
    have hl := h4.length_eq
    rw [List.length_append] at hl
    have pa := List.length_pos_iff.mpr h5
    have pb := List.length_pos_iff.mpr h6
    refine ⟨_, R[i], a, b, h1, hSi, ?_, ?_, ?_, ?_, h4⟩
    · show S[S.idxOf a]? = some a
      rw [List.getElem?_eq_getElem la, List.getElem_idxOf]
    · show S[S.idxOf b]? = some b
      rw [List.getElem?_eq_getElem lb, List.getElem_idxOf]
    · show S.idxOf a < nv + i
      apply sorted_index_lt hI.sorted la hlt
      rw [List.getElem_idxOf, hSi']
      left; omega
    · show S.idxOf b < nv + i
      apply sorted_index_lt hI.sorted lb hlt
      rw [List.getElem_idxOf, hSi']
      left; omega
  · intro F
    have := (hsum F).2
    simp only at this ⊢
    rw [this, ((hperm.map (fun q => q.2 * F q.1)).sum_eq)]
    have hz : ∑ j ∈ Finset.range S.length, ((List.replicate S.length (0 : K))[j]?.getD 0) * F (S[j]?.getD []) = 0 := by
      apply Finset.sum_eq_zero
      intro j hj
      simp [Finset.mem_range.mp hj]
    rw [hz, add_zero]
  · intro m hm
    apply hsub
    rw [(nodeSet0_spec nv (map.map Prod.fst)).2]
    exact Or.inr ((hkeys m).mpr hm)
  · show aux = _
    have h0 : S0.Perm (S.filter (fun y => (y.length = 1 ∨ y ∈ monos))) := by
      rw [List.perm_ext_iff_of_nodup hI0.sorted.nodup (hI.sorted.nodup.filter _)]
      intro y
      rw [List.mem_filter, (nodeSet0_spec nv (map.map Prod.fst)).2, hkeys]
      constructor
      · rintro (⟨v, hv, rfl⟩ | h)
        · exact ⟨hI.vars v hv, by simp⟩
        · exact ⟨hsub ((nodeSet0_spec nv (map.map Prod.fst)).2 y |>.mpr (Or.inr ((hkeys y).mpr h))), by simp [h]⟩
      · rintro ⟨h1, h2⟩
        have h2 : y.length = 1 ∨ y ∈ monos := by simpa using h2
        rcases h2 with h2 | h2
        · obtain ⟨v, rfl⟩ := List.length_eq_one_iff.mp h2
          exact Or.inl ⟨v, hI.range _ h1 v (by simp), rfl⟩
        · exact Or.inr h2
    have h1 := h0.length_eq
    have h2 : S.length = (S.filter (fun y => (y.length = 1 ∨ y ∈ monos))).length
        + (S.filter (fun y => ¬ (y.length = 1 ∨ y ∈ monos))).length := by
      have := List.length_eq_length_filter_add (l := S) (fun y => decide (y.length = 1 ∨ y ∈ monos))
      rw [this]
      congr 2
      apply List.filter_congr
      intro y _
      simp
    simp only at h1 h2 ⊢
    omega

end Verif.Poly
