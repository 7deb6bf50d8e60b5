import Verif.Spec.Torch

/-! # Dictionaries of the extraction script: keys, sums, the sparse form of the coupling tensors -/

namespace Verif.Extract
open Verif.Spec

/-- The keys in order. -/
abbrev Dict.keys (d : Dict) : List (List ℕ) := d.map Prod.fst

/-- Keys after adding one. -/
def addKey (ks : List (List ℕ)) (k : List ℕ) : List (List ℕ) := if k ∈ ks then ks else ks ++ [k]

/-- Sum of the values weighted with a function of the key. -/
def Dict.total (d : Dict) (g : List ℕ → ℝ) : ℝ := (d.map (fun q => q.2 * g q.1)).sum

theorem any_key (d : Dict) (k : List ℕ) : (d.any (fun q => q.1 == k)) = true ↔ k ∈ d.keys := by
  simp only [List.any_eq_true, beq_iff_eq, List.mem_map]

theorem add_keys (d : Dict) (k : List ℕ) (v : ℝ) : (d.add k v).keys = addKey d.keys k := by
  unfold Dict.add addKey
  by_cases h : k ∈ d.keys
  · rw [if_pos ((any_key d k).mpr h), if_pos h, Dict.keys, List.map_map]
    refine List.map_congr_left (fun q _ => ?_)
    simp only [Function.comp]
    split_ifs <;> rfl
  · rw [if_neg (fun hh => h ((any_key d k).mp hh)), if_neg h]
    simp [Dict.keys]

theorem addKey_nodup {ks : List (List ℕ)} (h : ks.Nodup) (k : List ℕ) : (addKey ks k).Nodup := by
  unfold addKey
  split_ifs with hk
  · exact h
  · exact List.nodup_append.mpr ⟨h, List.nodup_singleton k, by
      intro a ha b hb
      rw [List.mem_singleton] at hb
      rintro rfl
      exact hk (hb ▸ ha)⟩

theorem mem_addKey {ks : List (List ℕ)} {k x : List ℕ} : x ∈ addKey ks k ↔ x ∈ ks ∨ x = k := by
  unfold addKey
  split_ifs with hk
  · constructor
    · exact Or.inl
    · rintro (h | rfl)
      · exact h
      · exact hk
  · simp

theorem add_total {d : Dict} (hd : d.keys.Nodup) (k : List ℕ) (v : ℝ) (g : List ℕ → ℝ) :
    (d.add k v).total g = d.total g + v * g k := by
  unfold Dict.add
  by_cases h : k ∈ d.keys
  · rw [if_pos ((any_key d k).mpr h)]
    clear * - hd h
    induction d with
    | nil => cases h
    | cons q d ih =>
      have hn := List.nodup_cons.mp hd
      unfold Dict.total at ih ⊢
      simp only [List.map_cons, List.sum_cons]
      by_cases hq : q.1 = k
      · have hk : k ∉ Dict.keys d := hq ▸ hn.1
        have : (d.map (fun q => if q.1 = k then (q.1, q.2 + v) else q)) = d := by
          conv_rhs => rw [← List.map_id d]
          refine List.map_congr_left (fun x hx => ?_)
          rw [if_neg (fun e : x.1 = k => hk (e ▸ List.mem_map_of_mem (f := Prod.fst) hx))]
          rfl
        rw [this, if_pos hq, hq]
        ring
      · have hk : k ∈ Dict.keys d := by
          rcases List.mem_cons.mp h with h | h
          · exact absurd h.symm hq
          · exact h
        rw [if_neg hq, ih hn.2 hk]
        ring
  · rw [if_neg (fun hh => h ((any_key d k).mp hh))]
    simp [Dict.total]

/-! ## Adding many entries -/

/-- Keys after adding a list of keys. -/
def addKeys (ks : List (List ℕ)) (l : List (List ℕ)) : List (List ℕ) := l.foldl addKey ks

theorem addKeys_nodup {l ks : List (List ℕ)} (h : ks.Nodup) : (addKeys ks l).Nodup := by
  unfold addKeys
  induction l generalizing ks with
  | nil => exact h
  | cons a l ih => exact ih (addKey_nodup h a)

theorem mem_addKeys {l ks : List (List ℕ)} {x : List ℕ} : x ∈ addKeys ks l ↔ x ∈ ks ∨ x ∈ l := by
  unfold addKeys
  induction l generalizing ks with
  | nil => simp
  | cons a l ih =>
    rw [List.foldl_cons, ih, mem_addKey, List.mem_cons]
    tauto

/-- Add all entries of `e`, with values multiplied by `w`. -/
noncomputable def addAll (w : ℝ) (P e : Dict) : Dict := e.foldl (fun P q => P.add q.1 (w * q.2)) P

theorem addAll_keys (w : ℝ) (P e : Dict) : (addAll w P e).keys = addKeys P.keys e.keys := by
  unfold addAll addKeys
  induction e generalizing P with
  | nil => rfl
  | cons q e ih =>
    rw [List.foldl_cons, ih, add_keys]
    rfl

theorem addAll_total (w : ℝ) {P : Dict} (hP : P.keys.Nodup) (e : Dict) (g : List ℕ → ℝ) :
    (addAll w P e).total g = P.total g + w * e.total g := by
  unfold addAll
  induction e generalizing P with
  | nil => simp [Dict.total]
  | cons q e ih =>
    rw [List.foldl_cons, ih (by rw [add_keys]; exact addKey_nodup hP _), add_total hP]
    simp only [Dict.total, List.map_cons, List.sum_cons]
    ring

/-! ## The polynomial -/

theorem etaFold_keys (n : ℕ) (U : ℕ → Dict) (w : ℕ → ℝ) (P : Dict) :
    ((List.range n).foldl (fun P eta => addAll (w eta) P (U eta)) P).keys
      = (List.range n).foldl (fun ks eta => addKeys ks (U eta).keys) P.keys := by
  induction n with
  | zero => rfl
  | succ n ih => rw [List.range_succ, List.foldl_append, List.foldl_append, List.foldl_cons, List.foldl_nil, List.foldl_cons,
      List.foldl_nil, addAll_keys, ih]

theorem etaFold_total (n : ℕ) (U : ℕ → Dict) (w : ℕ → ℝ) {P : Dict} (hP : P.keys.Nodup) (g : List ℕ → ℝ) :
    ((List.range n).foldl (fun P eta => addAll (w eta) P (U eta)) P).keys.Nodup ∧
    ((List.range n).foldl (fun P eta => addAll (w eta) P (U eta)) P).total g
      = P.total g + ∑ eta ∈ Finset.range n, w eta * (U eta).total g := by
  induction n with
  | zero => exact ⟨hP, by simp⟩
  | succ n ih =>
    rw [List.range_succ, List.foldl_append, List.foldl_cons, List.foldl_nil]
    refine ⟨by rw [addAll_keys]; exact addKeys_nodup ih.1, ?_⟩
    rw [addAll_total _ ih.1, ih.2, Finset.sum_range_succ]
    ring

/-- Keys of the polynomial; they do not depend on the weights. -/
def polyKeys (nEta : ℕ → ℕ) (K : ℕ → ℕ → List (List ℕ)) : List (List ℕ) :=
  [1, 2, 3].foldl (fun ks corr => (List.range (nEta corr)).foldl (fun ks eta => addKeys ks (K corr eta)) ks) []

theorem polyDict_keys (nEta : ℕ → ℕ) (U : ℕ → ℕ → Dict) (w : ℕ → ℕ → ℝ) :
    (polyDict nEta U w).keys = polyKeys nEta (fun corr eta => (U corr eta).keys) := by
  show Dict.keys ([1, 2, 3].foldl (fun P corr => (List.range (nEta corr)).foldl (fun P eta => addAll (w corr eta) P (U corr eta)) P) []) = _
  unfold polyKeys
  simp only [List.foldl_cons, List.foldl_nil, etaFold_keys]
  rfl

theorem polyDict_total (nEta : ℕ → ℕ) (U : ℕ → ℕ → Dict) (w : ℕ → ℕ → ℝ) (g : List ℕ → ℝ) :
    (polyDict nEta U w).keys.Nodup ∧ (polyDict nEta U w).total g
      = ∑ corr ∈ {1, 2, 3}, ∑ eta ∈ Finset.range (nEta corr), w corr eta * (U corr eta).total g := by
  have e : polyDict nEta U w = [1, 2, 3].foldl (fun P corr => (List.range (nEta corr)).foldl
      (fun P eta => addAll (w corr eta) P (U corr eta)) P) [] := rfl
  rw [e]
  simp only [List.foldl_cons, List.foldl_nil]
  have h1 := etaFold_total (nEta 1) (U 1) (w 1) (P := []) List.nodup_nil g
  have h2 := etaFold_total (nEta 2) (U 2) (w 2) h1.1 g
  have h3 := etaFold_total (nEta 3) (U 3) (w 3) h2.1 g
  refine ⟨h3.1, ?_⟩
  rw [h3.2, h2.2, h1.2]
  simp [Dict.total, add_assoc]

theorem mem_etaKeys {n : ℕ} {K : ℕ → List (List ℕ)} {ks : List (List ℕ)} {x : List ℕ} :
    x ∈ (List.range n).foldl (fun ks eta => addKeys ks (K eta)) ks ↔ x ∈ ks ∨ ∃ eta < n, x ∈ K eta := by
  induction n with
  | zero => simp
  | succ n ih =>
    rw [List.range_succ, List.foldl_append, List.foldl_cons, List.foldl_nil, mem_addKeys, ih]
    constructor
    · rintro ((h | ⟨e, h, h'⟩) | h)
      · exact Or.inl h
      · exact Or.inr ⟨e, by omega, h'⟩
      · exact Or.inr ⟨n, by omega, h⟩
    · rintro (h | ⟨e, h, h'⟩)
      · exact Or.inl (Or.inl h)
      · by_cases hn : e = n
        · exact Or.inr (hn ▸ h')
        · exact Or.inl (Or.inr ⟨e, by omega, h'⟩)

theorem mem_polyKeys {nEta : ℕ → ℕ} {K : ℕ → ℕ → List (List ℕ)} {x : List ℕ} (h : x ∈ polyKeys nEta K) :
    ∃ corr eta, 1 ≤ corr ∧ corr ≤ 3 ∧ eta < nEta corr ∧ x ∈ K corr eta := by
  unfold polyKeys at h
  simp only [List.foldl_cons, List.foldl_nil, mem_etaKeys] at h
  rcases h with ((h | ⟨e, h1, h2⟩) | ⟨e, h1, h2⟩) | ⟨e, h1, h2⟩
  · cases h
  · exact ⟨1, e, by omega, by omega, h1, h2⟩
  · exact ⟨2, e, by omega, by omega, h1, h2⟩
  · exact ⟨3, e, by omega, by omega, h1, h2⟩

/-! ## The sparse form of a tensor -/

/-- Adding an entry unless it is below the threshold. -/
noncomputable def addIf (d : Dict) (t : List ℕ) (u : ℝ) : Dict := if 1e-12 < |u| then d.add (t.insertionSort (· ≤ ·)) u else d

/-- A loop that consumes the entries of a list one after the other. -/
theorem foldlM_count {α β : Type} (flat : List ℝ) (f : β × ℕ → α → Option (β × ℕ)) (g : β → α → β) (blk : α → List ℝ) (xs : List α)
    (h : ∀ D j, ∀ a ∈ xs, ∀ rest, flat.drop j = blk a ++ rest → f (D, j) a = some (g D a, j + (blk a).length)) :
    ∀ D j rest, flat.drop j = xs.flatMap blk ++ rest → xs.foldlM f (D, j) = some (xs.foldl g D, j + (xs.flatMap blk).length) := by
  induction xs with
  | nil => intro D j rest _; rfl
  | cons a xs ih =>
    intro D j rest hd
    rw [List.flatMap_cons, List.append_assoc] at hd
    rw [List.foldlM_cons, h D j a List.mem_cons_self _ hd]
    simp only [Option.bind_eq_bind, Option.bind_some]
    rw [ih (fun D j b hb => h D j b (List.mem_cons_of_mem _ hb)) (g D a) (j + (blk a).length) rest (by
      rw [← List.drop_drop, hd, List.drop_left])]
    rw [List.foldl_cons, List.flatMap_cons, List.length_append, Nat.add_assoc]

/-- The effect of one step on the dictionaries. -/
noncomputable def pureStep (U : ℕ → List ℕ → ℕ → ℝ) (m : ℕ) (t : List ℕ) (D : ℕ → ℕ → Dict) (eta : ℕ) : ℕ → ℕ → Dict :=
  fun m' eta' => if m' = m ∧ eta' = eta then addIf (D m eta) t (U m t eta) else D m' eta'

theorem sparseStep_eq (flat : List ℝ) (U : ℕ → List ℕ → ℕ → ℝ) (m : ℕ) (t : List ℕ) (D : ℕ → ℕ → Dict) (j eta : ℕ) (rest : List ℝ)
    (h : flat.drop j = [U m t eta] ++ rest) : sparseStep flat m t (D, j) eta = some (pureStep U m t D eta, j + 1) := by
  have hj : flat[j]? = some (U m t eta) := by
    have : (flat.drop j)[0]? = flat[j]? := by rw [List.getElem?_drop, Nat.add_zero]
    rw [← this, h]
    rfl
  unfold sparseStep
  simp only [Option.bind_eq_bind]
  rw [hj]
  simp only [Option.bind_some]
  congr 2
  funext m' eta'
  unfold pureStep addIf
  by_cases hc : (1e-12 : ℝ) < |U m t eta|
  · simp only [if_pos hc]
  · simp only [if_neg hc]
    split_ifs with h2
    · rw [h2.1, h2.2]
    · rfl

theorem etaStep (U : ℕ → List ℕ → ℕ → ℝ) (m : ℕ) (t : List ℕ) (n : ℕ) (D : ℕ → ℕ → Dict) (m' eta' : ℕ) :
    (List.range n).foldl (pureStep U m t) D m' eta' = if m' = m ∧ eta' < n then addIf (D m eta') t (U m t eta') else D m' eta' := by
  induction n with
  | zero => simp
  | succ n ih =>
    rw [List.range_succ, List.foldl_append, List.foldl_cons, List.foldl_nil]
    unfold pureStep
    by_cases h1 : m' = m
    · subst h1
      by_cases h2 : eta' = n
      · subst h2
        rw [if_pos ⟨rfl, rfl⟩, if_pos ⟨rfl, by omega⟩]
        have := ih
        rw [if_neg (by omega)] at this
        exact congrArg (fun d => addIf d t (U m' t eta')) this
      · rw [if_neg (fun h => h2 h.2)]
        refine ih.trans ?_
        by_cases h3 : eta' < n
        · rw [if_pos ⟨rfl, h3⟩, if_pos ⟨rfl, by omega⟩]
        · rw [if_neg (by omega), if_neg (by omega)]
    · rw [if_neg (fun h => h1 h.1), if_neg (fun h => h1 h.1)]
      refine ih.trans ?_
      rw [if_neg (fun h => h1 h.1)]

theorem tupleStep (U : ℕ → List ℕ → ℕ → ℝ) (m n : ℕ) (ts : List (List ℕ)) (D : ℕ → ℕ → Dict) {m' eta' : ℕ} (he : eta' < n) :
    ts.foldl (fun D t => (List.range n).foldl (pureStep U m t) D) D m' eta'
      = if m' = m then ts.foldl (fun d t => addIf d t (U m t eta')) (D m eta') else D m' eta' := by
  induction ts generalizing D with
  | nil =>
    simp only [List.foldl_nil]
    split_ifs with h
    · rw [h]
    · rfl
  | cons t ts ih =>
    rw [List.foldl_cons, ih]
    by_cases h : m' = m
    · rw [if_pos h, if_pos h, List.foldl_cons, etaStep, if_pos ⟨rfl, he⟩]
    · rw [if_neg h, if_neg h, etaStep, if_neg (fun hh => h hh.1)]

/-- The dictionary for one component: all entries above the threshold, in order. -/
noncomputable def denseDict (M corr : ℕ) (U : List ℕ → ℝ) : Dict := (tuples M corr).foldl (fun d t => addIf d t (U t)) []

theorem sparseU_eq (nm M corr nEta : ℕ) (U : ℕ → List ℕ → ℕ → ℝ) : ∃ D, sparseU nm M corr nEta (flatU nm M corr nEta U) = some D ∧
    ∀ m < nm, ∀ eta < nEta, D m eta = denseDict M corr (fun t => U m t eta) := by
  have h1 : ∀ (m : ℕ) (t : List ℕ), ∀ D j rest, (flatU nm M corr nEta U).drop j = (List.range nEta).map (fun eta => U m t eta) ++ rest →
      (List.range nEta).foldlM (sparseStep (flatU nm M corr nEta U) m t) (D, j)
        = some ((List.range nEta).foldl (pureStep U m t) D, j + nEta) := by
    intro m t D j rest h
    have := foldlM_count (flatU nm M corr nEta U) (sparseStep (flatU nm M corr nEta U) m t) (pureStep U m t) (fun eta => [U m t eta])
      (List.range nEta) (fun D j a _ rest hr => sparseStep_eq _ U m t D j a rest hr) D j rest (by
        rw [h, List.map_eq_flatMap])
    rw [this, ← List.map_eq_flatMap]
    simp
  have h2 : ∀ m : ℕ, ∀ D j rest, (flatU nm M corr nEta U).drop j
        = (tuples M corr).flatMap (fun t => (List.range nEta).map (fun eta => U m t eta)) ++ rest →
      (tuples M corr).foldlM (fun s t => (List.range nEta).foldlM (sparseStep (flatU nm M corr nEta U) m t) s) (D, j)
        = some ((tuples M corr).foldl (fun D t => (List.range nEta).foldl (pureStep U m t) D) D,
            j + ((tuples M corr).flatMap (fun t => (List.range nEta).map (fun eta => U m t eta))).length) := by
    intro m
    refine foldlM_count _ _ _ (fun t => (List.range nEta).map (fun eta => U m t eta)) _ (fun D j t _ rest hr => ?_)
    rw [h1 m t D j rest hr]
    simp
  have h3 := foldlM_count (flatU nm M corr nEta U)
    (fun s m => (tuples M corr).foldlM (fun s t => (List.range nEta).foldlM (sparseStep (flatU nm M corr nEta U) m t) s) s)
    (fun D m => (tuples M corr).foldl (fun D t => (List.range nEta).foldl (pureStep U m t) D) D)
    (fun m => (tuples M corr).flatMap (fun t => (List.range nEta).map (fun eta => U m t eta))) (List.range nm)
    (fun D j m _ rest hr => h2 m D j rest hr) (fun _ _ => []) 0 [] (by rw [List.append_nil]; rfl)
  refine ⟨_, by unfold sparseU; rw [h3]; rfl, fun m hm eta he => ?_⟩
  have key : ∀ n, ((List.range n).foldl (fun D m => (tuples M corr).foldl (fun D t => (List.range nEta).foldl (pureStep U m t) D) D)
      (fun _ _ => [])) m eta = if m < n then denseDict M corr (fun t => U m t eta) else [] := by
    intro n
    induction n with
    | zero => rfl
    | succ n ih =>
      rw [List.range_succ, List.foldl_append, List.foldl_cons, List.foldl_nil, tupleStep U n nEta _ _ he]
      by_cases hmn : m = n
      · rw [if_pos hmn, if_pos (by omega)]
        rw [hmn] at ih ⊢
        rw [ih, if_neg (by omega)]
        rfl
      · rw [if_neg hmn, ih]
        by_cases h4 : m < n
        · rw [if_pos h4, if_pos (by omega)]
        · rw [if_neg h4, if_neg (by omega)]
  exact (key nm).trans (if_pos hm)

/-! ## Meaning of the dictionaries -/

theorem addIf_nodup {d : Dict} (h : d.keys.Nodup) (t : List ℕ) (u : ℝ) : (addIf d t u).keys.Nodup := by
  unfold addIf
  split_ifs
  · rw [add_keys]; exact addKey_nodup h _
  · exact h

theorem addIf_total {d : Dict} (hd : d.keys.Nodup) {t : List ℕ} {u : ℝ} (hu : u = 0 ∨ 1e-12 < |u|) (x : ℕ → ℝ) :
    (addIf d t u).total (monomial x) = d.total (monomial x) + u * monomial x t := by
  unfold addIf
  split_ifs with h
  · rw [add_total hd]
    congr 2
    unfold monomial
    exact ((List.perm_insertionSort _ t).map x).prod_eq
  · rcases hu with h0 | h0
    · rw [h0]; ring
    · exact absurd h0 h

theorem denseDict_total (M corr : ℕ) {U : List ℕ → ℝ} (hU : ∀ t, U t = 0 ∨ 1e-12 < |U t|) (x : ℕ → ℝ) :
    (denseDict M corr U).keys.Nodup ∧
      (denseDict M corr U).total (monomial x) = ((tuples M corr).map (fun t => U t * monomial x t)).sum := by
  have key : ∀ (ts : List (List ℕ)) (d : Dict), d.keys.Nodup → (ts.foldl (fun d t => addIf d t (U t)) d).keys.Nodup ∧
      (ts.foldl (fun d t => addIf d t (U t)) d).total (monomial x) = d.total (monomial x) + (ts.map (fun t => U t * monomial x t)).sum := by
    intro ts
    induction ts with
    | nil => intro d hd; exact ⟨hd, by simp⟩
    | cons t ts ih =>
      intro d hd
      obtain ⟨h1, h2⟩ := ih (addIf d t (U t)) (addIf_nodup hd t _)
      refine ⟨h1, ?_⟩
      rw [List.foldl_cons, h2, addIf_total hd (hU t), List.map_cons, List.sum_cons]
      ring
  obtain ⟨h1, h2⟩ := key (tuples M corr) [] List.nodup_nil
  exact ⟨h1, h2.trans (by simp [Dict.total])⟩

theorem mem_denseDict {M corr : ℕ} {U : List ℕ → ℝ} {k : List ℕ} (h : k ∈ (denseDict M corr U).keys) :
    ∃ t ∈ tuples M corr, k.Perm t := by
  have key : ∀ (ts : List (List ℕ)) (d : Dict), k ∈ (ts.foldl (fun d t => addIf d t (U t)) d).keys → k ∈ d.keys ∨ ∃ t ∈ ts, k.Perm t := by
    intro ts
    induction ts with
    | nil => intro d hd; exact Or.inl hd
    | cons t ts ih =>
      intro d hd
      rcases ih (addIf d t (U t)) hd with h1 | ⟨s, h1, h2⟩
      · unfold addIf at h1
        split_ifs at h1
        · rw [add_keys, mem_addKey] at h1
          rcases h1 with h1 | h1
          · exact Or.inl h1
          · exact Or.inr ⟨t, List.mem_cons_self, h1 ▸ List.perm_insertionSort _ t⟩
        · exact Or.inl h1
      · exact Or.inr ⟨s, List.mem_cons_of_mem _ h1, h2⟩
  rcases key _ _ h with h1 | h1
  · cases h1
  · exact h1

theorem mem_tuples {M c : ℕ} {t : List ℕ} : t ∈ tuples M c ↔ t.length = c ∧ ∀ v ∈ t, v < M := by
  induction c generalizing t with
  | zero =>
    simp only [tuples, List.mem_singleton]
    constructor
    · rintro rfl; simp
    · rintro ⟨h, -⟩; exact List.eq_nil_of_length_eq_zero h
  | succ c ih =>
    simp only [tuples, List.mem_flatMap, List.mem_range, List.mem_map]
    constructor
    · rintro ⟨a, ha, s, hs, rfl⟩
      obtain ⟨h1, h2⟩ := ih.mp hs
      refine ⟨by simp [h1], fun v hv => ?_⟩
      rcases List.mem_cons.mp hv with rfl | hv
      · exact ha
      · exact h2 v hv
    · rintro ⟨h1, h2⟩
      match t with
      | [] => cases h1
      | a :: s => exact ⟨a, h2 a List.mem_cons_self, s, ih.mpr ⟨by simpa using h1, fun v hv => h2 v (List.mem_cons_of_mem _ hv)⟩, rfl⟩

theorem tuples_sum (M c : ℕ) (F : List ℕ → ℝ) :
    ((tuples M c).map F).sum = ∑ t : Fin c → Fin M, F (List.ofFn (fun i => (t i : ℕ))) := by
  induction c generalizing F with
  | zero => simp [tuples]
  | succ c ih =>
    have h1 : ((tuples M (c + 1)).map F).sum = ∑ a ∈ Finset.range M, ((tuples M c).map (fun t => F (a :: t))).sum := by
      show (((List.range M).flatMap (fun a => (tuples M c).map (fun t => a :: t))).map F).sum = _
      have h2 : ∀ n, (((List.range n).flatMap (fun a => (tuples M c).map (fun t => a :: t))).map F).sum
          = ∑ a ∈ Finset.range n, ((tuples M c).map (fun t => F (a :: t))).sum := by
        intro n
        induction n with
        | zero => simp
        | succ n ihn =>
          rw [List.range_succ, List.flatMap_append, List.map_append, List.sum_append, ihn, Finset.sum_range_succ]
          simp [Function.comp_def]
      exact h2 M
    rw [h1, Finset.sum_range]
    rw [← (Fin.consEquiv (fun _ : Fin (c + 1) => Fin M)).sum_comp, Fintype.sum_prod_type]
    refine Finset.sum_congr rfl (fun a _ => ?_)
    rw [ih]
    refine Finset.sum_congr rfl (fun t _ => ?_)
    simp [Fin.consEquiv, List.ofFn_succ]

theorem contraction_eq (M corr : ℕ) (U : List ℕ → ℝ) (x : ℕ → ℝ) :
    contraction M corr U x = ((tuples M corr).map (fun t => U t * monomial x t)).sum := by
  unfold contraction
  rw [tuples_sum]
  refine Finset.sum_congr rfl (fun t _ => ?_)
  unfold monomial
  rw [List.map_ofFn, List.prod_ofFn]
  rfl

end Verif.Extract
