import Verif.Model.Tools
import Verif.Spec.Tools
import Mathlib.Data.List.Permutation
import Mathlib.Data.Finset.Card
import Mathlib.Data.Nat.Choose.Basic
import Mathlib.Tactic.Ring

import Mathlib.Data.List.Lex

/-! # Helper lemmas: permutations, products, binomials (C28, C31, C33) -/

namespace Verif.Tools
open Verif.Spec

/-- Descending lists are lexicographically largest. -/
theorem not_lt_of_desc {v u : List ℕ} (hv : v.Pairwise (· ≥ ·)) (hu : u.Perm v) : ¬ v < u := by
  induction v generalizing u with
  | nil => rw [List.perm_nil.mp hu]; simp
  | cons a s ih =>
    cases u with
    | nil => simp
    | cons c t =>
      rw [List.pairwise_cons] at hv
      have hc : c ∈ a :: s := hu.subset (by simp)
      have hca : c ≤ a := by
        rcases List.mem_cons.mp hc with h | h
        · omega
        · exact hv.1 c h
      rw [List.cons_lt_cons_iff]
      rintro (h | ⟨rfl, h⟩)
      · omega
      · exact ih hv.2 hu.cons_inv h

/-- Ascending lists are lexicographically smallest. -/
theorem not_lt_of_asc {v u : List ℕ} (hv : v.Pairwise (· ≤ ·)) (hu : u.Perm v) : ¬ u < v := by
  induction v generalizing u with
  | nil => rw [List.perm_nil.mp hu]; simp
  | cons a s ih =>
    cases u with
    | nil => exact absurd hu.length_eq (by simp)
    | cons c t =>
      rw [List.pairwise_cons] at hv
      have hc : c ∈ a :: s := hu.subset (by simp)
      have hca : a ≤ c := by
        rcases List.mem_cons.mp hc with h | h
        · omega
        · exact hv.1 c h
      rw [List.cons_lt_cons_iff]
      rintro (h | ⟨rfl, h⟩)
      · omega
      · exact ih hv.2 hu.cons_inv h

theorem swapLast_none {a : ℕ} {s : List ℕ} (h : swapLast a s = none) : ∀ b ∈ s, b ≤ a := by
  induction s with
  | nil => simp
  | cons b s ih =>
    unfold swapLast at h
    split at h
    · simp at h
    · rename_i hs
      split at h
      · simp at h
      · intro c hc
        rcases List.mem_cons.mp hc with rfl | hc
        · omega
        · exact ih hs c hc

theorem swapLast_some {a b : ℕ} {s s' : List ℕ} (h : swapLast a s = some (b, s')) :
    ∃ l1 l2, s = l1 ++ b :: l2 ∧ s' = l1 ++ a :: l2 ∧ a < b ∧ ∀ c ∈ l2, c ≤ a := by
  induction s generalizing s' with
  | nil => simp [swapLast] at h
  | cons d s ih =>
    unfold swapLast at h
    split at h
    · rename_i c s'' hs
      simp only [Option.some.injEq, Prod.mk.injEq] at h
      obtain ⟨rfl, rfl⟩ := h
      obtain ⟨l1, l2, rfl, rfl, h1, h2⟩ := ih hs
      exact ⟨d :: l1, l2, rfl, rfl, h1, h2⟩
    · rename_i hs
      split at h
      · simp only [Option.some.injEq, Prod.mk.injEq] at h
        obtain ⟨rfl, rfl⟩ := h
        exact ⟨[], s, rfl, rfl, ‹_›, swapLast_none hs⟩
      · simp at h

theorem nextPermutation_none {v : List ℕ} (h : nextPermutation v = none) : v.Pairwise (· ≥ ·) := by
  induction v with
  | nil => simp
  | cons a s ih =>
    unfold nextPermutation at h
    split at h
    · simp at h
    · rename_i hs
      split at h
      · simp at h
      · rename_i hsw
        exact List.pairwise_cons.mpr ⟨swapLast_none hsw, ih hs⟩

/-- `nextPermutation` yields the immediate lexicographic successor among the rearrangements. -/
theorem nextPermutation_some {v w : List ℕ} (h : nextPermutation v = some w) :
    w.Perm v ∧ v < w ∧ ∀ u : List ℕ, u.Perm v → v < u → ¬ u < w := by
  induction v generalizing w with
  | nil => simp [nextPermutation] at h
  | cons a s ih =>
    unfold nextPermutation at h
    split at h
    · rename_i s' hs
      simp only [Option.some.injEq] at h
      subst h
      obtain ⟨h1, h2, h3⟩ := ih hs
      refine ⟨h1.cons a, ?_, ?_⟩
      · rw [List.cons_lt_cons_iff]; exact Or.inr ⟨rfl, h2⟩
      · intro u hu hlt
        cases u with
        | nil => simp at hlt
        | cons c t =>
          rw [List.cons_lt_cons_iff] at hlt ⊢
          rintro (hc | ⟨rfl, hc⟩)
          · rcases hlt with h | ⟨rfl, h⟩ <;> omega
          · rcases hlt with h | ⟨_, h⟩
            · omega
            · exact h3 t hu.cons_inv h hc
    · rename_i hs
      have hdesc := nextPermutation_none hs
      split at h
      · rename_i b s' hsw
        simp only [Option.some.injEq] at h
        subst h
        obtain ⟨l1, l2, rfl, rfl, hab, hl2⟩ := swapLast_some hsw
        have hperm1 : (b :: (l1 ++ a :: l2)).Perm (a :: (l1 ++ b :: l2)) := by
          have p1 : (l1 ++ a :: l2).Perm (a :: (l1 ++ l2)) := List.perm_middle
          have p2 : (l1 ++ b :: l2).Perm (b :: (l1 ++ l2)) := List.perm_middle
          exact (p1.cons b).trans ((List.Perm.swap a b _).trans (p2.cons a).symm)
        have hdesc' : (l1 ++ a :: l2).Pairwise (· ≥ ·) := by
          rw [List.pairwise_append, List.pairwise_cons] at hdesc ⊢
          obtain ⟨d1, ⟨d2, d3⟩, d4⟩ := hdesc
          refine ⟨d1, ⟨fun c hc => hl2 c hc, d3⟩, ?_⟩
          intro x hx y hy
          have hxb := d4 x hx b (by simp)
          rcases List.mem_cons.mp hy with rfl | hy
          · omega
          · exact d4 x hx y (by simp [hy])
        have hasc : (l1 ++ a :: l2).reverse.Pairwise (· ≤ ·) := by
          rw [List.pairwise_reverse]; exact hdesc'
        refine ⟨((List.reverse_perm _).cons b).trans hperm1, ?_, ?_⟩
        · rw [List.cons_lt_cons_iff]; exact Or.inl hab
        · intro u hu hlt
          cases u with
          | nil => simp at hlt
          | cons c t =>
            rw [List.cons_lt_cons_iff] at hlt ⊢
            have hac : a < c := by
              rcases hlt with h | ⟨rfl, h⟩
              · exact h
              · exact absurd h (not_lt_of_desc hdesc hu.cons_inv)
            have hcm : c ∈ a :: (l1 ++ b :: l2) := hu.subset (by simp)
            have hbc : b ≤ c := by
              rw [List.pairwise_append] at hdesc
              simp only [List.mem_cons, List.mem_append] at hcm
              rcases hcm with h | h | h | h
              · omega
              · exact hdesc.2.2 c h b (by simp)
              · omega
              · have := hl2 c h; omega
            rintro (h | ⟨rfl, h⟩)
            · omega
            · have ht : t.Perm (l1 ++ a :: l2) := (hu.trans hperm1.symm).cons_inv
              exact not_lt_of_asc hasc (ht.trans (List.reverse_perm _).symm) h
      · simp at h

/-- Number of rearrangements of `v` after `v`. -/
def later (v : List ℕ) : ℕ := (v.permutations.toFinset.filter (fun u => v < u)).card

theorem later_lt {v w : List ℕ} (h : nextPermutation v = some w) : later w < later v := by
  obtain ⟨hp, hlt, _⟩ := nextPermutation_some h
  unfold later
  apply Finset.card_lt_card
  rw [Finset.ssubset_iff_of_subset]
  · refine ⟨w, ?_, ?_⟩
    · simp [hp, hlt]
    · simp
  · intro u hu
    simp only [Finset.mem_filter, List.mem_toFinset, List.mem_permutations] at hu ⊢
    exact ⟨hu.1.trans hp, lt_trans hlt hu.2⟩

theorem permLoop_spec (fuel : ℕ) (v : List ℕ) (hf : later v < fuel) :
    ∃ out, permLoop fuel v = some out ∧ out.Pairwise (· < ·) ∧
      ∀ u : List ℕ, u ∈ out ↔ u.Perm v ∧ v < u := by
  induction fuel generalizing v with
  | zero => omega
  | succ fuel ih =>
    unfold permLoop
    split
    · rename_i hn
      refine ⟨[], rfl, by simp, fun u => ?_⟩
      simp only [List.not_mem_nil, false_iff, not_and]
      exact fun hu => not_lt_of_desc (nextPermutation_none hn) hu
    · rename_i w hw
      have hl := later_lt hw
      obtain ⟨hp, hlt, hmin⟩ := nextPermutation_some hw
      obtain ⟨out, h1, h2, h3⟩ := ih w (by omega)
      refine ⟨w :: out, by simp [h1], ?_, ?_⟩
      · rw [List.pairwise_cons]
        exact ⟨fun u hu => ((h3 u).mp hu).2, h2⟩
      · intro u
        rw [List.mem_cons, h3]
        constructor
        · rintro (rfl | ⟨h, h'⟩)
          · exact ⟨hp, hlt⟩
          · exact ⟨h.trans hp, lt_trans hlt h'⟩
        · rintro ⟨h, h'⟩
          by_cases hu : u = w
          · exact Or.inl hu
          · right
            refine ⟨h.trans hp.symm, ?_⟩
            rcases lt_trichotomy u w with h4 | h4 | h4
            · exact absurd h4 (hmin u h h')
            · exact absurd h4 hu
            · exact h4

/-! ## products -/

variable {α : Type*}

theorem foldl_product (inputs : List (List α)) (outs : List (List α)) :
    inputs.foldl (fun outputs input => outputs.flatMap fun output => input.map fun i => output ++ [i]) outs
      = outs.flatMap fun o => (product inputs).map fun t => o ++ t := by
  induction inputs using List.reverseRecOn generalizing outs with
  | nil => simp [product]
  | append_singleton ls l ih =>
    rw [product, List.foldl_append, List.foldl_append, ih, ih]
    simp [List.flatMap_assoc, List.map_flatMap, List.flatMap_map, Function.comp_def]

theorem product_cons (l : List α) (ls : List (List α)) :
    product (l :: ls) = l.flatMap fun a => (product ls).map fun t => a :: t := by
  rw [product, List.foldl_cons, foldl_product]
  simp [List.flatMap_map]

theorem mem_product {inputs : List (List α)} {t : List α} :
    t ∈ product inputs ↔ List.Forall₂ (fun a l => a ∈ l) t inputs := by
  induction inputs generalizing t with
  | nil => simp [product]
  | cons l ls ih =>
    rw [product_cons, List.mem_flatMap, List.forall₂_cons_right_iff]
    constructor
    · rintro ⟨a, ha, ht⟩
      obtain ⟨t', ht', rfl⟩ := List.mem_map.mp ht
      exact ⟨a, t', ha, ih.mp ht', rfl⟩
    · rintro ⟨a, t', ha, ht', rfl⟩
      exact ⟨a, ha, List.mem_map.mpr ⟨t', ih.mpr ht', rfl⟩⟩

theorem length_product (inputs : List (List α)) :
    (product inputs).length = (inputs.map List.length).prod := by
  induction inputs with
  | nil => simp [product]
  | cons l ls ih =>
    rw [product_cons, List.length_flatMap]
    simp [ih]

theorem getElem?_flatMap_const {β : Type*} (l : List α) (g : α → List β) (m : ℕ)
    (hg : ∀ a ∈ l, (g a).length = m) (q j : ℕ) (hj : j < m) :
    (l.flatMap g)[q * m + j]? = l[q]?.bind fun a => (g a)[j]? := by
  induction l generalizing q with
  | nil => simp
  | cons a l ih =>
    have ha := hg a (by simp)
    rw [List.flatMap_cons]
    cases q with
    | zero => rw [List.getElem?_append_left (by simp [ha, hj])]; simp
    | succ q =>
      rw [List.getElem?_append_right (by rw [ha, Nat.succ_mul]; omega)]
      have : (q + 1) * m + j - (g a).length = q * m + j := by rw [ha, Nat.succ_mul]; omega
      rw [this, ih (fun b hb => hg b (by simp [hb]))]
      simp

theorem rank_lt {dims q : List ℕ} (h : List.Forall₂ (· < ·) q dims) :
    mixedRadixRank dims q < dims.prod := by
  induction h with
  | nil => simp [mixedRadixRank]
  | @cons a n qs ns h1 _ ih =>
    simp only [mixedRadixRank, List.prod_cons]
    calc a * ns.prod + mixedRadixRank ns qs < a * ns.prod + ns.prod := by omega
      _ = (a + 1) * ns.prod := by rw [Nat.succ_mul]
      _ ≤ n * ns.prod := Nat.mul_le_mul_right _ h1

theorem getElem?_product {inputs : List (List α)} {q : List ℕ}
    (h : List.Forall₂ (· < ·) q (inputs.map List.length)) :
    (product inputs)[mixedRadixRank (inputs.map List.length) q]? = pick inputs q := by
  induction inputs generalizing q with
  | nil =>
    simp only [List.map_nil, List.forall₂_nil_right_iff] at h
    subst h; simp [product, mixedRadixRank, pick]
  | cons l ls ih =>
    simp only [List.map_cons, List.forall₂_cons_right_iff] at h
    obtain ⟨a, t, ha, ht, rfl⟩ := h
    simp only [List.map_cons, mixedRadixRank, pick]
    rw [product_cons, getElem?_flatMap_const _ _ (ls.map List.length).prod
      (fun a _ => by simp [length_product]) _ _ (rank_lt ht)]
    congr 1
    funext b
    rw [List.getElem?_map, ih ht]
    cases pick ls t <;> rfl

theorem binomial_eq_choose (n k : ℕ) : binomialCoefficient n k = Nat.choose n k := by
  induction n generalizing k with
  | zero =>
    unfold binomialCoefficient
    cases k with
    | zero => simp
    | succ k => simp
  | succ n ih =>
    unfold binomialCoefficient
    cases k with
    | zero => 
      have : ¬ (((0 : ℕ) : ℤ) < 0 ∨ ((0 : ℕ) : ℤ) > ((n + 1 : ℕ) : ℤ)) := by omega
      rw [if_neg this]; simp
    | succ k =>
      by_cases h : n < k
      · have : ((k + 1 : ℕ) : ℤ) < 0 ∨ ((k + 1 : ℕ) : ℤ) > ((n + 1 : ℕ) : ℤ) := by omega
        rw [if_pos this, Nat.choose_eq_zero_of_lt (by omega)]; rfl
      · have : ¬ (((k + 1 : ℕ) : ℤ) < 0 ∨ ((k + 1 : ℕ) : ℤ) > ((n + 1 : ℕ) : ℤ)) := by omega
        rw [if_neg this]
        by_cases h' : n = k
        · subst h'; simp
        · have : ¬ (((k + 1 : ℕ) : ℤ) = 0 ∨ ((k + 1 : ℕ) : ℤ) = ((n + 1 : ℕ) : ℤ)) := by omega
          rw [if_neg this]
          have e1 : ((n + 1 : ℕ) : ℤ) - 1 = (n : ℤ) := by omega
          have e2 : ((k + 1 : ℕ) : ℤ) - 1 = (k : ℤ) := by omega
          rw [e1, e2, ih, ih, Nat.choose_succ_succ]
          push_cast; ring

end Verif.Tools
