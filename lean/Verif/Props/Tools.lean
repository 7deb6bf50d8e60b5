import Verif.Lemmas.Partitions
import Verif.Lemmas.Permutations
import Mathlib.Data.Finset.Powerset
import Mathlib.Data.Nat.Factorial.Basic
import Mathlib.Data.Prod.Lex

/-! # Property theorems: combinatorial helpers (C28 - C33) -/

namespace Verif.Props
open Verif.Tools Verif.Spec

/-- C28: `_binomial_coefficient(n,k)` counts the `k`-element subsets of an `n`-element set and is `0` for
negative `k`. (For `k > n` the count is `0` as well.) -/
theorem C28_binomial (n : ℕ) :
    (∀ k : ℕ, binomialCoefficient n k = (((Finset.range n).powerset.filter (fun s => s.card = k)).card : ℤ)) ∧
    (∀ k : ℤ, k < 0 → binomialCoefficient n k = 0) ∧
    (∀ k : ℤ, (n : ℤ) < k → binomialCoefficient n k = 0) := by
  refine ⟨fun k => ?_, fun k hk => ?_, fun k hk => ?_⟩
  · rw [binomial_eq_choose, ← Finset.powersetCard_eq_filter, Finset.card_powersetCard, Finset.card_range]
  · unfold binomialCoefficient; rw [if_pos (Or.inl hk)]
  · unfold binomialCoefficient; rw [if_pos (Or.inr hk)]

example : binomialCoefficient 5 2 = 10 := by
  rw [show (5 : ℤ) = (5 : ℕ) from rfl, show (2 : ℤ) = (2 : ℕ) from rfl, binomial_eq_choose]; decide

/-- C29: for a non-empty list of distinct values, whatever order `std::sort` leaves equal-sized partitions in,
`_partitions` returns every partition exactly once, in order of non-decreasing number of blocks. -/
theorem C29_partitions {α : Type*} (v : List α) (hv : v ≠ []) (hnd : v.Nodup)
    (out : List (List (List α))) (h : Partitions v out) :
    out.Nodup ∧ (∀ P, P ∈ out ↔ IsPartition v P) ∧ out.Pairwise (fun p q => p.length ≤ q.length) := by
  obtain ⟨h1, h2⟩ := partitionsUnsorted_spec hv hnd
  exact ⟨h.1.nodup_iff.mpr h1, fun P => h.1.mem_iff.trans (h2 P), h.2⟩

/-- Empty input: no partition is returned (not even the empty one). -/
theorem C29_partitions_nil {α : Type*} (out : List (List (List α))) (h : Partitions ([] : List α) out) :
    out = [] := List.perm_nil.mp h.1

example : Partitions [7, 3] [[[7, 3]], [[7], [3]]] ∧ [7, 3] ≠ [] ∧ [7, 3].Nodup := by
  refine ⟨⟨?_, ?_⟩, by decide, by decide⟩
  · show List.Perm _ [[[7], [3]], [[7, 3]]]
    exact List.Perm.swap _ _ _
  · decide

/-- C30: `_two_part_partitions(v)` is, up to order, obtained by reading off `v` at the two blocks of positions of
each splitting of `{0..n-1}` into two non-empty blocks, each splitting once; there are `2^(n-1)-1` of them.
Repeated values in `v` are allowed. -/
theorem C30_two_part_partitions {α : Type*} (v : List α) (out : List (List (List α)))
    (h : TwoPartPartitions v out) :
    (∃ S : List (List (List (Fin v.length))), S.Nodup ∧
      (∀ P, P ∈ S ↔ P.length = 2 ∧ IsPartition (List.finRange v.length) P) ∧
      out.Perm (S.map (List.map (List.map (fun i => v[i]))))) ∧
    (v ≠ [] → out.length = 2 ^ (v.length - 1) - 1) := by
  constructor
  · by_cases hv : v = []
    · subst hv
      refine ⟨[], List.nodup_nil, fun P => ?_, by simpa [twoPartUnsorted] using h.1⟩
      simp only [List.not_mem_nil, false_iff, not_and]
      intro hP hPart
      cases P with
      | nil => simp at hP
      | cons b P =>
        have hb := hPart.nonempty b (by simp)
        obtain ⟨y, ys, rfl⟩ := List.exists_cons_of_ne_nil hb
        exact y.elim0
    · have hpos := List.length_pos_iff.mpr hv
      have hne : List.finRange v.length ≠ [] := by
        apply List.length_pos_iff.mp; simpa using hpos
      obtain ⟨h1, h2⟩ := partitionsUnsorted_spec hne (List.nodup_finRange _)
      refine ⟨twoPartUnsorted (List.finRange v.length), ?_, ?_, ?_⟩
      · rw [twoPartUnsorted_eq]; exact h1.filter _
      · intro P
        rw [twoPartUnsorted_eq, List.mem_filter, h2]
        simp [and_comm]
      · rw [← twoPartUnsorted_map]
        have : (List.finRange v.length).map (fun i => v[i]) = v := by
          apply List.ext_getElem <;> simp
        rw [this]; exact h.1
  · intro hv
    rw [h.1.length_eq, length_twoPartUnsorted hv]

example : TwoPartPartitions [4, 4, 5] [[[4, 4], [5]], [[4, 5], [4]], [[4], [4, 5]]] := by
  refine ⟨?_, by decide⟩
  have : twoPartUnsorted [4, 4, 5] = [[[4, 5], [4]], [[4], [4, 5]], [[4, 4], [5]]] := by decide
  rw [this]; decide

/-- C31: the loop of `_permutations(n)` terminates and produces the strictly increasing (lexicographic) list of
all `n!` rearrangements of `0..n-1`. -/
theorem C31_permutations (n : ℕ) : ∃ out : List (List ℕ),
    (∃ fuel0, ∀ fuel ≥ fuel0, permutations fuel n = some out) ∧
    out.Pairwise (fun u w => List.Lex (· < ·) u w) ∧
    (∀ u : List ℕ, u ∈ out ↔ u.Perm (List.range n)) ∧
    out.length = n.factorial := by
  obtain ⟨out, h1, h2, h3⟩ := permLoop_spec (later (List.range n) + 1) (List.range n) (by omega)
  have hmem : ∀ u : List ℕ, u ∈ List.range n :: out ↔ u.Perm (List.range n) := by
    intro u
    rw [List.mem_cons, h3]
    constructor
    · rintro (rfl | h)
      · exact List.Perm.refl _
      · exact h.1
    · intro hu
      by_cases he : u = List.range n
      · exact Or.inl he
      · right
        refine ⟨hu, ?_⟩
        have hasc : (List.range n).Pairwise (· ≤ ·) := List.pairwise_le_range
        rcases lt_trichotomy u (List.range n) with h4 | h4 | h4
        · exact absurd h4 (not_lt_of_asc hasc hu)
        · exact absurd h4 he
        · exact h4
  have hpw : (List.range n :: out).Pairwise (· < ·) :=
    List.pairwise_cons.mpr ⟨fun u hu => ((h3 u).mp hu).2, h2⟩
  refine ⟨List.range n :: out, ⟨later (List.range n) + 1, fun fuel hf => ?_⟩, hpw, hmem, ?_⟩
  · obtain ⟨out', h1', h2', h3'⟩ := permLoop_spec fuel (List.range n) (by omega)
    have : out' = out := by
      apply List.Perm.eq_of_pairwise (le := (· < ·)) _ h2' h2
      · rw [List.perm_ext_iff_of_nodup (h2'.imp (fun h => ne_of_lt h)) (h2.imp (fun h => ne_of_lt h))]
        intro u; rw [h3, h3']
      · intro a b _ _ hab hba; exact absurd (lt_trans hab hba) (lt_irrefl a)
    simp [permutations, h1', this]
  · have hnd : (List.range n :: out).Nodup := hpw.imp (fun h => ne_of_lt h)
    have hnd2 : (List.range n).permutations.Nodup := List.nodup_permutations _ List.nodup_range
    have : (List.range n :: out).Perm (List.range n).permutations := by
      rw [List.perm_ext_iff_of_nodup hnd hnd2]
      intro u; rw [hmem, List.mem_permutations]
    rw [this.length_eq, List.length_permutations, List.length_range]

example : permutations 6 3 =
    some [[0, 1, 2], [0, 2, 1], [1, 0, 2], [1, 2, 0], [2, 0, 1], [2, 1, 0]] := by decide

/-- C32: `_combinations(set, 2)` lists exactly `(set[i], set[j])` for the position pairs `i < j`, in
lexicographic order of positions; every other `k` is rejected with an exception. -/
theorem C32_combinations {α : Type*} (set : List α) :
    (∀ k : ℤ, k ≠ 2 → combinations set k = none) ∧
    ∃ out, combinations set 2 = some out ∧
      ∃ L : List (ℕ × ℕ), L.Pairwise (fun p q => p.1 < q.1 ∨ (p.1 = q.1 ∧ p.2 < q.2)) ∧
        (∀ i j, (i, j) ∈ L ↔ i < j ∧ j < set.length) ∧
        List.Forall₂ (fun c (p : ℕ × ℕ) => ∃ a b, set[p.1]? = some a ∧ set[p.2]? = some b ∧ c = [a, b])
          out L := by
  refine ⟨fun k hk => by simp [combinations, hk], ?_⟩
  refine ⟨_, by simp only [combinations]; rfl, ?_⟩
  refine ⟨(List.range set.length).flatMap fun i =>
      ((List.range set.length).drop (i + 1)).map fun j => (i, j), ?_, ?_, ?_⟩
  · rw [List.pairwise_flatMap]
    constructor
    · intro i _
      rw [List.pairwise_map]
      exact (List.pairwise_lt_range.sublist (List.drop_sublist _ _)).imp (fun h => Or.inr ⟨rfl, h⟩)
    · refine List.pairwise_lt_range.imp ?_
      intro i i' hii p hp q hq
      obtain ⟨_, _, rfl⟩ := List.mem_map.mp hp
      obtain ⟨_, _, rfl⟩ := List.mem_map.mp hq
      exact Or.inl hii
  · intro i j
    have hdrop : ∀ i j, j ∈ (List.range set.length).drop (i + 1) ↔ i < j ∧ j < set.length := by
      intro i j
      rw [List.mem_drop_iff_getElem]
      constructor
      · rintro ⟨m, hm, rfl⟩; simp at hm ⊢; omega
      · rintro ⟨h1, h2⟩
        exact ⟨j - (i + 1), by simp; omega, by simp; omega⟩
    simp only [List.mem_flatMap, List.mem_map, Prod.mk.injEq, List.mem_range]
    constructor
    · rintro ⟨i', _, j', hj, rfl, rfl⟩; exact (hdrop _ _).mp hj
    · intro h; exact ⟨i, by omega, j, (hdrop _ _).mpr h, rfl, rfl⟩
  · have key : ∀ l : List ℕ, (∀ i ∈ l, i < set.length) →
        List.Forall₂ (fun c (p : ℕ × ℕ) => ∃ a b, set[p.1]? = some a ∧ set[p.2]? = some b ∧ c = [a, b])
          (l.flatMap fun i => ((List.range set.length).drop (i + 1)).filterMap fun j =>
            match set[i]?, set[j]? with
            | some a, some b => some [a, b]
            | _, _ => none)
          (l.flatMap fun i => ((List.range set.length).drop (i + 1)).map fun j => (i, j)) := by
      intro l hl
      induction l with
      | nil => simp
      | cons i l ih =>
        rw [List.flatMap_cons, List.flatMap_cons]
        refine List.rel_append ?_ (ih (fun k hk => hl k (by simp [hk])))
        have hi := hl i (by simp)
        have hin : ∀ m : List ℕ, (∀ j ∈ m, j < set.length) →
            List.Forall₂ (fun c (p : ℕ × ℕ) => ∃ a b, set[p.1]? = some a ∧ set[p.2]? = some b ∧ c = [a, b])
            (m.filterMap fun j =>
              match set[i]?, set[j]? with
              | some a, some b => some [a, b]
              | _, _ => none)
            (m.map fun j => (i, j)) := by
          intro m hm
          induction m with
          | nil => simp
          | cons j m ihm =>
            have hj := hm j (by simp)
            rw [List.filterMap_cons]
            simp only [List.getElem?_eq_getElem hi, List.getElem?_eq_getElem hj]
            rw [List.map_cons, List.forall₂_cons]
            refine ⟨⟨set[i], set[j], by simp [hi], by simp [hj], rfl⟩, ?_⟩
            have := ihm (fun k hk => hm k (by simp [hk]))
            simpa only [List.getElem?_eq_getElem hi] using this
        exact hin _ (fun j hj => by
          have := List.mem_of_mem_drop hj
          simpa using this)
    exact key _ (fun i hi => by simpa using hi)

example : combinations [5, 6, 5] 2 = some [[5, 6], [5, 5], [6, 5]] := by decide

/-- C33: `_product` returns exactly the tuples with one element from each input; the tuple choosing positions `q`
sits at the mixed-radix rank of `q` (last position fastest); `_product_repeat` and `_generate_indices` are the
instances with equal inputs, the latter having `max^dim` entries. -/
theorem C33_product {α : Type*} (inputs : List (List α)) :
    (product inputs).length = (inputs.map List.length).prod ∧
    (∀ t, t ∈ product inputs ↔ List.Forall₂ (fun a l => a ∈ l) t inputs) ∧
    (∀ q, List.Forall₂ (· < ·) q (inputs.map List.length) →
      mixedRadixRank (inputs.map List.length) q < (product inputs).length ∧
      (product inputs)[mixedRadixRank (inputs.map List.length) q]? = pick inputs q) := by
  refine ⟨length_product _, fun t => mem_product, fun q hq => ⟨?_, getElem?_product hq⟩⟩
  rw [length_product]; exact rank_lt hq

theorem C33_product_repeat {α : Type*} (input : List α) (rep : ℕ) :
    (productRepeat input rep).length = input.length ^ rep ∧
    (∀ t, t ∈ productRepeat input rep ↔ t.length = rep ∧ ∀ a ∈ t, a ∈ input) := by
  refine ⟨by simp [productRepeat, length_product], fun t => ?_⟩
  rw [productRepeat, mem_product]
  induction rep generalizing t with
  | zero => simp; rintro rfl; simp
  | succ rep ih =>
    rw [List.replicate_succ, List.forall₂_cons_right_iff]
    constructor
    · rintro ⟨a, t', ha, ht', rfl⟩
      obtain ⟨h1, h2⟩ := (ih t').mp ht'
      exact ⟨by simp [h1], by simpa [ha] using h2⟩
    · rintro ⟨h1, h2⟩
      cases t with
      | nil => simp at h1
      | cons a t' => exact ⟨a, t', h2 a (by simp), (ih t').mpr ⟨by simpa using h1,
          fun b hb => h2 b (by simp [hb])⟩, rfl⟩

theorem C33_generate_indices (dim max : ℕ) :
    (generateIndices dim max).length = max ^ dim ∧
    (∀ q : List ℕ, q.length = dim → (∀ x ∈ q, x < max) →
      (generateIndices dim max)[mixedRadixRank (List.replicate dim max) q]? = some q) ∧
    (∀ t, t ∈ generateIndices dim max ↔ t.length = dim ∧ ∀ a ∈ t, a < max) := by
  refine ⟨by simp [generateIndices, length_product], fun q hq hmax => ?_, fun t => ?_⟩
  · have hF : List.Forall₂ (· < ·) q (List.replicate dim max) := by
      rw [List.forall₂_iff_get]
      refine ⟨by simp [hq], fun i h1 h2 => ?_⟩
      simpa using hmax _ (by simp)
    have hm : (List.replicate dim (List.range max)).map List.length = List.replicate dim max := by simp
    have := getElem?_product (inputs := List.replicate dim (List.range max)) (q := q) (by rwa [hm])
    rw [hm] at this
    rw [generateIndices, this]
    clear this hm hF
    induction dim generalizing q with
    | zero => rw [List.length_eq_zero_iff.mp hq]; rfl
    | succ d ih =>
      cases q with
      | nil => simp at hq
      | cons a t =>
        have ha := hmax a (by simp)
        simp only [List.replicate_succ, pick]
        rw [ih t (by simpa using hq) (fun x hx => hmax x (by simp [hx]))]
        simp [ha]
  · have := (C33_product_repeat (List.range max) dim).2 t
    simpa [productRepeat, generateIndices] using this

example : List.Forall₂ (· < ·) [1, 0] (([[5, 6], [7, 8, 9]] : List (List ℕ)).map List.length) := by simp

end Verif.Props
