import Verif.Lemmas.Extract.Coupling
import Verif.Lemmas.PairIndex
import Verif.Lemmas.MACE.Load
import Verif.Spec.KokkosFile

/-! # Tables of the file -/

namespace Verif.Extract
open Verif.MACE Verif.Spec

theorem nthN_lt_iff {an : List ℕ} (h : an.Pairwise (· < ·)) {i j : ℕ} (hi : i < an.length) (hj : j < an.length) :
    nthN an i < nthN an j ↔ i < j := by
  have mono : ∀ i j, i < j → j < an.length → nthN an i < nthN an j := by
    intro i j hij hj
    have := List.pairwise_iff_getElem.mp h i j (by omega) hj hij
    simpa [nthN, hj, show i < an.length by omega] using this
  constructor
  · intro hh
    by_contra hc
    rcases Nat.lt_or_ge j i with h1 | h1
    · have := mono j i h1 hi; omega
    · have : i = j := by omega
      subst this; omega
  · intro hh; exact mono i j hh hj

theorem eq_map_nthN (an : List ℕ) : an = (List.range an.length).map (nthN an) := by
  refine List.ext_getElem (by simp) (fun i h1 h2 => ?_)
  simp [nthN, h1]

theorem filter_ge_range (n a : ℕ) : (List.range n).filter (fun j => !decide (j < a)) = List.range' a (n - a) := by
  induction n with
  | zero => simp
  | succ n ih =>
    rw [List.range_succ, List.filter_append, ih]
    by_cases h : n < a
    · rw [show n + 1 - a = 0 by omega, show n - a = 0 by omega]; simp [h]
    · rw [show n + 1 - a = (n - a) + 1 by omega, List.range'_concat]
      simp [h]; omega

/-- The pairs of distinct sorted elements are those of `pairList`. -/
theorem elementPairs_eq {an : List ℕ} (h : an.Pairwise (· < ·)) :
    elementPairs an = (pairList an.length).map (fun p => (nthN an p.1, nthN an p.2)) := by
  unfold elementPairs pairList
  have e : ∀ i ∈ List.range an.length, (an.filter (fun b => !decide (b < nthN an i))).map (fun b => (nthN an i, b))
      = ((List.range' i (an.length - i)).map (fun b => (i, b))).map (fun p => (nthN an p.1, nthN an p.2)) := by
    intro i hi
    have hi := List.mem_range.mp hi
    have e1 : an.filter (fun b => !decide (b < nthN an i)) = (List.range' i (an.length - i)).map (nthN an) := by
      conv_lhs => rw [eq_map_nthN an]
      rw [List.filter_map, ← filter_ge_range]
      congr 1
      refine List.filter_congr (fun j hj => ?_)
      have := nthN_lt_iff h (List.mem_range.mp hj) hi
      have e2 : nthN (List.map (nthN an) (List.range an.length)) i = nthN an i := by rw [← eq_map_nthN an]
      simp only [Function.comp, e2, this]
    rw [e1, List.map_map, List.map_map]
    rfl
  rw [List.map_flatMap]
  conv_lhs => rw [show an.flatMap (fun a => (an.filter (fun b => !decide (b < a))).map (fun b => (a, b)))
    = ((List.range an.length).map (nthN an)).flatMap (fun a => (an.filter (fun b => !decide (b < a))).map (fun b => (a, b))) by
      rw [← eq_map_nthN an]]
  rw [List.flatMap_map]
  exact List.flatMap_congr e

/-- Entry of a table over the pairs. -/
theorem pair_table {α : Type} {an : List ℕ} (h : an.Pairwise (· < ·)) (T : ℕ × ℕ → α) {a b : ℕ} (ha : a < an.length) (hb : b < an.length)
    (hT : ∀ x y, T (x, y) = T (y, x)) :
    ((elementPairs an).map T)[pairPos an.length a b]? = some (T (nthN an a, nthN an b)) := by
  rw [elementPairs_eq h, List.map_map, List.getElem?_map, ← pairIndex_eq_pos ha hb, pairIndex_get ha hb]
  simp only [Option.map_some, Function.comp]
  rcases Nat.le_total a b with hh | hh
  · rw [min_eq_left hh, max_eq_right hh]
  · rw [min_eq_right hh, max_eq_left hh, hT]

theorem pair_length {an : List ℕ} (h : an.Pairwise (· < ·)) : (elementPairs an).length = (pairList an.length).length := by
  rw [elementPairs_eq h, List.length_map]

/-! ## Flattened matrices -/

theorem flatten_length (n m : ℕ) (A : ℕ → ℕ → ℝ) : (flatten n m A).length = n * m := by
  unfold flatten
  rw [List.length_flatMap]
  simp

theorem flatten_get {n m : ℕ} (A : ℕ → ℕ → ℝ) {i k : ℕ} (hi : i < n) (hk : k < m) : nth (flatten n m A) (i * m + k) = A i k := by
  have := flatMap_range_get (fun i => (List.range m).map (fun k => A i k)) hi (b := k) (by simpa using hk)
  simp only [List.length_map, List.length_range] at this
  rw [List.map_const', List.sum_replicate, List.length_range] at this
  unfold nth flatten
  rw [show i * m = i • m from rfl, this]
  simp [hk]

theorem nth_map_range {n : ℕ} (g : ℕ → ℝ) {i : ℕ} (hi : i < n) : nth ((List.range n).map g) i = g i := by simp [nth, hi]

theorem tableOf_length (rcut : ℝ) (n : ℕ) (R : ℝ → ℝ) : (tableOf rcut n R).length = n := by simp [tableOf]

end Verif.Extract
