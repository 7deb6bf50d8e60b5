import Verif.Lemmas.Lammps.Build

/-! # Communication of features and adjoints -/

namespace Verif.Lammps
open Verif.Spec

variable {C n : ℕ}

/-- Writing `n` rows of a table starting at row `first`. -/
theorem write_rows {M first : ℕ} {g h : ℕ → ℕ → ℝ} (hM : first + n ≤ M) {body : ℕ → ℕ → Option ℝ}
    (hb : ∀ i < n, ∀ k < C, body i k = some (g i k)) :
    loop n (fun i => loop C (fun k H => (body i k).bind (fun v => wr H ((first + i) * C + k) v))) (tab2 M C h)
      = some (tab2 M C (fun a k => if first ≤ a ∧ a < first + n then g (a - first) k else h a k)) := by
  have key := loop_eq (n := n) (fun m => tab2 M C (fun a k => if first ≤ a ∧ a < first + m then g (a - first) k else h a k))
    (body := fun i => loop C (fun k H => (body i k).bind (fun v => wr H ((first + i) * C + k) v))) (fun i hi => by
      have hin := loop_eq (n := C) (fun k' => tab2 M C (fun a k => if (first ≤ a ∧ a < first + i) ∨ (a = first + i ∧ k < k')
          then g (a - first) k else h a k))
        (body := fun k H => (body i k).bind (fun v => wr H ((first + i) * C + k) v)) (fun k hk => by
          rw [hb i hi k hk, Option.bind_some, wr_tab2 _ (by omega) hk]
          congr 1
          apply tab2_congr
          intro a _ k' _
          unfold upd2
          by_cases e : a = first + i ∧ k' = k
          · obtain ⟨rfl, rfl⟩ := e; simp
          · rw [if_neg e]
            have : ((first ≤ a ∧ a < first + i) ∨ (a = first + i ∧ k' < k + 1))
                ↔ ((first ≤ a ∧ a < first + i) ∨ (a = first + i ∧ k' < k)) := by
              constructor
              · rintro (h | ⟨h1, h2⟩)
                · exact Or.inl h
                · refine Or.inr ⟨h1, ?_⟩
                  rcases Nat.lt_succ_iff_lt_or_eq.mp h2 with h | h
                  · exact h
                  · exact absurd ⟨h1, h⟩ e
              · rintro (h | ⟨h1, h2⟩)
                · exact Or.inl h
                · exact Or.inr ⟨h1, by omega⟩
            simp only [this])
      have h0 : tab2 M C (fun a k => if (first ≤ a ∧ a < first + i) ∨ (a = first + i ∧ k < 0) then g (a - first) k else h a k)
          = tab2 M C (fun a k => if first ≤ a ∧ a < first + i then g (a - first) k else h a k) := by
        apply tab2_congr; intro a _ k _; simp
      have h1 : tab2 M C (fun a k => if (first ≤ a ∧ a < first + i) ∨ (a = first + i ∧ k < C) then g (a - first) k else h a k)
          = tab2 M C (fun a k => if first ≤ a ∧ a < first + (i + 1) then g (a - first) k else h a k) := by
        apply tab2_congr
        intro a _ k hk
        have : ((first ≤ a ∧ a < first + i) ∨ (a = first + i ∧ k < C)) ↔ (first ≤ a ∧ a < first + (i + 1)) := by
          constructor
          · rintro (⟨h1, h2⟩ | ⟨h1, _⟩) <;> omega
          · rintro ⟨h1, h2⟩
            by_cases h : a < first + i
            · exact Or.inl ⟨h1, h⟩
            · exact Or.inr ⟨by omega, hk⟩
        simp only [this]
      rw [h0, h1] at hin
      exact hin)
  have h0 : tab2 M C (fun a k => if first ≤ a ∧ a < first + 0 then g (a - first) k else h a k) = tab2 M C h := by
    apply tab2_congr
    intro a _ k _
    rw [if_neg (by omega)]
  rw [h0] at key
  exact key

/-- Adding rows: row `i` is added to row `dst i`. -/
theorem add_rows {M : ℕ} {g h : ℕ → ℕ → ℝ} {dst : ℕ → ℕ} (hd : ∀ i < n, dst i < M) {body : ℕ → ℕ → Option ℝ}
    (hb : ∀ i < n, ∀ k < C, body i k = some (g i k)) :
    loop n (fun i => loop C (fun k H => (body i k).bind (fun v => ad H (dst i * C + k) v))) (tab2 M C h)
      = some (tab2 M C (fun a k => h a k + ∑ i ∈ Finset.range n, if dst i = a then g i k else 0)) := by
  have key := loop_eq (n := n) (fun m => tab2 M C (fun a k => h a k + ∑ i ∈ Finset.range m, if dst i = a then g i k else 0))
    (body := fun i => loop C (fun k H => (body i k).bind (fun v => ad H (dst i * C + k) v))) (fun i hi => by
      have hin := loop_eq (n := C) (fun k' => tab2 M C (fun a k => (h a k + ∑ i ∈ Finset.range i, if dst i = a then g i k else 0)
          + if dst i = a ∧ k < k' then g i k else 0))
        (body := fun k H => (body i k).bind (fun v => ad H (dst i * C + k) v)) (fun k hk => by
          rw [hb i hi k hk, Option.bind_some, ad_tab2 _ (hd i hi) hk]
          congr 1
          apply tab2_congr
          intro a _ k' _
          unfold upd2
          by_cases e : a = dst i ∧ k' = k
          · obtain ⟨rfl, rfl⟩ := e; simp
          · rw [if_neg e]
            have : (dst i = a ∧ k' < k + 1) ↔ (dst i = a ∧ k' < k) := by
              constructor
              · rintro ⟨h1, h2⟩
                refine ⟨h1, ?_⟩
                rcases Nat.lt_succ_iff_lt_or_eq.mp h2 with h | h
                · exact h
                · exact absurd ⟨h1.symm, h⟩ e
              · rintro ⟨h1, h2⟩
                exact ⟨h1, by omega⟩
            simp only [this])
      have h0 : tab2 M C (fun a k => (h a k + ∑ i ∈ Finset.range i, if dst i = a then g i k else 0)
          + if dst i = a ∧ k < 0 then g i k else 0)
          = tab2 M C (fun a k => h a k + ∑ i ∈ Finset.range i, if dst i = a then g i k else 0) := by
        apply tab2_congr; intro a _ k _; simp
      have h1 : tab2 M C (fun a k => (h a k + ∑ i ∈ Finset.range i, if dst i = a then g i k else 0)
          + if dst i = a ∧ k < C then g i k else 0)
          = tab2 M C (fun a k => h a k + ∑ i ∈ Finset.range (i + 1), if dst i = a then g i k else 0) := by
        apply tab2_congr
        intro a _ k hk
        simp only [hk, and_true, Finset.sum_range_succ]
        ring
      rw [h0, h1] at hin
      exact hin)
  have h0 : tab2 M C (fun a k => h a k + ∑ i ∈ Finset.range 0, if dst i = a then g i k else 0) = tab2 M C h := by
    apply tab2_congr; intro a _ k _; simp
  rw [h0] at key
  exact key

variable {list : List ℕ} {M : ℕ} {H : ℕ → ℕ → ℝ}

theorem packForward_eq (hn : n ≤ list.length) (hl : ∀ ii < n, nthN list ii < M) {B : ℕ} {b : ℕ → ℕ → ℝ} (hB : n ≤ B) :
    packForward C n list (tab2 M C H) (tab2 B C b)
      = some (n * C, tab2 B C (fun ii k => if ii < n then H (nthN list ii) k else b ii k)) := by
  unfold packForward
  have := write_rows (n := n) (C := C) (M := B) (first := 0) (g := fun ii k => H (nthN list ii) k) (h := b)
    (body := fun ii k => (tab2 M C H)[nthN list ii * C + k]?) (by omega) (fun ii hii k hk => getElem?_tab2 (hl ii hii) hk)
  rw [loop_congr (body' := fun ii => loop C (fun k H' => ((tab2 M C H)[nthN list ii * C + k]?).bind (fun v => wr H' ((0 + ii) * C + k) v)))
    (fun ii hii s => by rw [get_nthN (by omega)]; simp only [zero_add]; rfl), this]
  simp

theorem unpackForward_eq {first B : ℕ} {b : ℕ → ℕ → ℝ} (hB : n ≤ B) (hM : first + n ≤ M) :
    unpackForward C n first (tab2 B C b) (tab2 M C H)
      = some (tab2 M C (fun a k => if first ≤ a ∧ a < first + n then b (a - first) k else H a k)) := by
  unfold unpackForward
  exact write_rows hM (fun i hi k hk => getElem?_tab2 (by omega) hk)

theorem packReverse_eq {first B : ℕ} {b : ℕ → ℕ → ℝ} (hB : n ≤ B) (hM : first + n ≤ M) :
    packReverse C n first (tab2 M C H) (tab2 B C b)
      = some (n * C, tab2 B C (fun ii k => if ii < n then H (first + ii) k else b ii k)) := by
  unfold packReverse
  have := write_rows (n := n) (C := C) (M := B) (first := 0) (g := fun ii k => H (first + ii) k) (h := b)
    (body := fun ii k => (tab2 M C H)[(first + ii) * C + k]?) (by omega) (fun ii hii k hk => getElem?_tab2 (by omega) hk)
  rw [loop_congr (body' := fun ii => loop C (fun k H' => ((tab2 M C H)[(first + ii) * C + k]?).bind (fun v => wr H' ((0 + ii) * C + k) v)))
    (fun ii hii s => by simp only [zero_add]; rfl), this]
  simp

theorem unpackReverse_eq (hn : n ≤ list.length) (hl : ∀ ii < n, nthN list ii < M) {B : ℕ} {b : ℕ → ℕ → ℝ} (hB : n ≤ B) :
    unpackReverse C n list (tab2 B C b) (tab2 M C H)
      = some (tab2 M C (fun a k => H a k + ∑ ii ∈ Finset.range n, if nthN list ii = a then b ii k else 0)) := by
  unfold unpackReverse
  have := add_rows (n := n) (C := C) (M := M) (dst := fun ii => nthN list ii) (g := b) (h := H)
    (body := fun ii k => (tab2 B C b)[ii * C + k]?) hl (fun ii hii k hk => getElem?_tab2 (by omega) hk)
  rw [loop_congr (body' := fun ii => loop C (fun k H' => ((tab2 B C b)[ii * C + k]?).bind (fun v => ad H' (nthN list ii * C + k) v)))
    (fun ii hii s => by rw [get_nthN (by omega)]; rfl), this]

end Verif.Lammps
