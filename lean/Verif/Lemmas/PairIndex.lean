import Verif.Model.MACE
import Verif.Spec.Pairs
import Mathlib.Data.List.Nodup
import Mathlib.Data.List.Flatten
import Mathlib.Tactic.Ring
import Mathlib.Tactic.Linarith

/-! # The species-pair index -/

namespace Verif.MACE
open Verif.Spec

/-- The rows below `m`. -/
def pairRows (n m : ℕ) : List (ℕ × ℕ) := (List.range m).flatMap (fun a => (List.range' a (n - a)).map (fun b => (a, b)))

theorem pairRows_succ (n m : ℕ) : pairRows n (m + 1) = pairRows n m ++ (List.range' m (n - m)).map (fun b => (m, b)) := by
  unfold pairRows
  rw [List.range_succ, List.flatMap_append]
  simp

theorem two_mul_pairRows_length {n m : ℕ} (h : m ≤ n) : 2 * (pairRows n m).length + m * m = m * (2 * n + 1) := by
  induction m with
  | zero => simp [pairRows]
  | succ m ih =>
    rw [pairRows_succ, List.length_append, List.length_map, List.length_range']
    have := ih (by omega)
    obtain ⟨k, rfl⟩ : ∃ k, n = m + 1 + k := ⟨n - (m + 1), by omega⟩
    have e : m + 1 + k - m = k + 1 := by omega
    rw [e]
    nlinarith

theorem pairRows_length {n m : ℕ} (h : m < n) : (pairRows n m).length = m * (2 * n - m - 1) / 2 + m := by
  have := two_mul_pairRows_length h.le
  obtain ⟨k, rfl⟩ : ∃ k, n = m + 1 + k := ⟨n - (m + 1), by omega⟩
  have e : 2 * (m + 1 + k) - m - 1 = m + 1 + 2 * k := by omega
  rw [e]
  have h2 : m * (m + 1 + 2 * k) + 2 * m = 2 * (pairRows (m + 1 + k) m).length := by nlinarith
  omega

theorem pairRows_prefix {n m m' : ℕ} (h : m ≤ m') : pairRows n m <+: pairRows n m' := by
  induction m', h using Nat.le_induction with
  | base => exact List.prefix_refl _
  | succ m' _ ih =>
    rw [pairRows_succ]
    exact ih.trans (List.prefix_append _ _)

theorem pairList_get {n a b : ℕ} (hab : a ≤ b) (hb : b < n) :
    (pairList n)[a * (2 * n - a - 1) / 2 + b]? = some (a, b) := by
  have h1 : pairRows n (a + 1) <+: pairList n := pairRows_prefix (m' := n) (by omega)
  have h2 := pairRows_length (show a < n by omega)
  have h3 : (pairRows n (a + 1))[a * (2 * n - a - 1) / 2 + b]? = some (a, b) := by
    rw [pairRows_succ, List.getElem?_append_right (by omega), List.getElem?_map, List.getElem?_range' (by omega)]
    simp only [Option.map_some]
    congr 2
    omega
  obtain ⟨t, ht⟩ := h1
  rw [← ht, List.getElem?_append_left (List.getElem?_eq_some_iff.mp h3).1, h3]

theorem pairList_nodup (n : ℕ) : (pairList n).Nodup := by
  unfold pairList
  rw [List.nodup_flatMap]
  refine ⟨fun a _ => (List.nodup_range' ).map (fun x y h => by simpa using h), ?_⟩
  refine List.nodup_range.pairwise_of_forall_ne ?_
  intro a _ a' _ hne x h1 h2
  simp only [List.mem_map] at h1 h2
  obtain ⟨_, _, rfl⟩ := h1
  obtain ⟨_, _, h⟩ := h2
  simp only [Prod.mk.injEq] at h
  exact hne h.1.symm

theorem two_mul_pairList_length (n : ℕ) : 2 * (pairList n).length = n * (n + 1) := by
  have := two_mul_pairRows_length (le_refl n)
  have e : pairRows n n = pairList n := rfl
  rw [e] at this
  nlinarith

theorem pairIndex_get {n a b : ℕ} (ha : a < n) (hb : b < n) :
    (pairList n)[pairIndex n a b]? = some (min a b, max a b) := by
  unfold pairIndex
  split_ifs with h
  · rw [min_eq_left h, max_eq_right h]; exact pairList_get h hb
  · have h : b ≤ a := by omega
    rw [min_eq_right h, max_eq_left h]; exact pairList_get h ha

theorem pairIndex_lt {n a b : ℕ} (ha : a < n) (hb : b < n) : pairIndex n a b < (pairList n).length :=
  (List.getElem?_eq_some_iff.mp (pairIndex_get ha hb)).1

theorem pairIndex_eq_pos {n a b : ℕ} (ha : a < n) (hb : b < n) : pairIndex n a b = pairPos n a b := by
  unfold pairPos
  have h1 := pairIndex_get ha hb
  have h2 := (List.getElem?_eq_some_iff.mp h1)
  obtain ⟨h3, h4⟩ := h2
  rw [← h4, (pairList_nodup n).idxOf_getElem]

theorem pairIndex_comm (n a b : ℕ) : pairIndex n a b = pairIndex n b a := by
  unfold pairIndex
  split_ifs with h1 h2 h2
  · have : a = b := by omega
    subst this; rfl
  · rfl
  · rfl
  · omega

theorem pairIndex_inj {n a b a' b' : ℕ} (ha : a < n) (hb : b < n) (ha' : a' < n) (hb' : b' < n)
    (h : pairIndex n a b = pairIndex n a' b') : (a = a' ∧ b = b') ∨ (a = b' ∧ b = a') := by
  have h1 := pairIndex_get ha hb
  rw [h, pairIndex_get ha' hb'] at h1
  simp only [Option.some.injEq, Prod.mk.injEq] at h1
  omega

end Verif.MACE
