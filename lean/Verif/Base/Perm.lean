import Mathlib.Data.Set.Function
import Mathlib.Data.List.Perm.Basic
import Mathlib.Order.Interval.Set.Basic

/-! # Permuted lists, by index -/

namespace Verif

/-- The entries of permuted lists are matched by a bijection of the indices. -/
theorem perm_index {α : Type*} {l l' : List α} (h : l.Perm l') :
    ∃ π : ℕ → ℕ, Set.BijOn π (Set.Iio l.length) (Set.Iio l'.length) ∧ ∀ k < l.length, l'[π k]? = l[k]? := by
  induction h with
  | nil => exact ⟨id, by simpa using Set.bijOn_id _, fun _ _ => rfl⟩
  | @cons a l l' _ ih =>
    obtain ⟨π, h1, h2⟩ := ih
    refine ⟨fun k => if k = 0 then 0 else π (k - 1) + 1, ⟨?_, ?_, ?_⟩, ?_⟩
    · intro k hk
      rcases Nat.eq_zero_or_pos k with rfl | hp
      · simp
      · have : π (k - 1) < l'.length := h1.1 (by simp only [List.length_cons, Set.mem_Iio] at hk ⊢; omega)
        simp only [List.length_cons, Set.mem_Iio, if_neg (by omega : ¬ k = 0)]
        omega
    · intro k hk k' hk' heq
      simp only [List.length_cons, Set.mem_Iio] at hk hk'
      rcases Nat.eq_zero_or_pos k with rfl | hp <;> rcases Nat.eq_zero_or_pos k' with rfl | hp'
      · rfl
      · simp [show ¬ k' = 0 by omega] at heq
      · simp [show ¬ k = 0 by omega] at heq
      · simp only [if_neg (by omega : ¬ k = 0), if_neg (by omega : ¬ k' = 0)] at heq
        have := h1.2.1 (show k - 1 ∈ Set.Iio l.length by simp only [Set.mem_Iio]; omega)
          (show k' - 1 ∈ Set.Iio l.length by simp only [Set.mem_Iio]; omega) (by omega)
        omega
    · intro k hk
      simp only [List.length_cons, Set.mem_Iio] at hk
      rcases Nat.eq_zero_or_pos k with rfl | hp
      · exact ⟨0, by simp, by simp⟩
      · obtain ⟨j, hj, hj2⟩ := h1.2.2 (show k - 1 ∈ Set.Iio l'.length by simp only [Set.mem_Iio]; omega)
        simp only [Set.mem_Iio] at hj
        exact ⟨j + 1, by simp only [List.length_cons, Set.mem_Iio]; omega, by simp [hj2]; omega⟩
    · intro k hk
      rcases Nat.eq_zero_or_pos k with rfl | hp
      · simp
      · obtain ⟨j, rfl⟩ : ∃ j, k = j + 1 := ⟨k - 1, by omega⟩
        simp only [List.length_cons] at hk
        simpa using h2 j (by omega)
  | swap a b l =>
    refine ⟨fun k => if k = 0 then 1 else if k = 1 then 0 else k, ⟨?_, ?_, ?_⟩, ?_⟩
    · intro k hk
      simp only [List.length_cons, Set.mem_Iio] at hk ⊢
      split_ifs <;> omega
    · intro k _ k' _ heq
      dsimp only at heq
      split_ifs at heq <;> omega
    · intro k hk
      simp only [List.length_cons, Set.mem_Iio] at hk
      refine ⟨if k = 0 then 1 else if k = 1 then 0 else k, ?_, ?_⟩
      · simp only [List.length_cons, Set.mem_Iio]
        split_ifs <;> omega
      · by_cases h0 : k = 0
        · subst h0; rfl
        · by_cases h1 : k = 1
          · subst h1; rfl
          · simp [h0, h1]
    · intro k _
      match k with
      | 0 => rfl
      | 1 => rfl
      | k + 2 => simp
  | trans _ _ ih1 ih2 =>
    obtain ⟨π, h1, h2⟩ := ih1
    obtain ⟨ρ, h3, h4⟩ := ih2
    exact ⟨ρ ∘ π, h3.comp h1, fun k hk => by rw [Function.comp, h4 _ (h1.1 hk), h2 k hk]⟩

end Verif
