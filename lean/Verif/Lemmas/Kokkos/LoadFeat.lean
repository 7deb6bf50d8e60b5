import Verif.Lemmas.Kokkos.LoadRadial
import Verif.Lemmas.Kokkos.Pipeline
import Verif.Lemmas.MACE.Eval
import Verif.Spec.KokkosFile

/-! # Radial tables of the Kokkos evaluator: content after loading and evaluation at an edge -/

namespace Verif.Kokkos
open Verif.Par Verif.Par.Prog Verif.MACE Verif.Spec Verif.Spline

theorem uniqueTypes_pairs (n : ℕ) : uniqueTypes (pairList n).length = n := by
  have h := two_mul_pairList_length n
  have e : 8 * (pairList n).length + 1 = (2 * n + 1) * (2 * n + 1) := by nlinarith
  unfold uniqueTypes
  rw [e, Nat.sqrt_eq]
  omega

section tables
variable {nA S n : ℕ}

theorem tabOk_of {vals ders : List (List (List ℝ))} (hv : vals.length = nA) (hd : ders.length = nA)
    (hr : ∀ i < nA, Rect S n (tbl vals i) (tbl ders i)) :
    TabOk nA S n vals ders (fun a j i => nth (row (tbl vals a) j) i) (fun a j i => nth (row (tbl ders a) j) i) := by
  intro a ha
  obtain ⟨h1, h2, h3, h4⟩ := hr a ha
  refine ⟨_, _, some_tbl (by omega), some_tbl (by omega), fun j hj => ⟨_, _, some_row (by omega), some_row (by omega), fun i hi => ?_⟩⟩
  have e1 := h3 _ (row_mem (l := tbl vals a) (i := j) (by omega))
  have e2 := h4 _ (row_mem (l := tbl ders a) (i := j) (by omega))
  exact ⟨some_nth (by omega), some_nth (by omega)⟩

theorem tabOk_map {vals ders : List (List ℝ)} (hv : vals.length = nA) (hd : ders.length = nA)
    (hr : ∀ i < nA, n ≤ (row vals i).length ∧ n ≤ (row ders i).length) :
    TabOk nA 1 n (vals.map (fun v => [v])) (ders.map (fun v => [v])) (fun a _ i => nth (row vals a) i) (fun a _ i => nth (row ders a) i) := by
  intro a ha
  refine ⟨[row vals a], [row ders a], ?_, ?_, fun j hj => ?_⟩
  · rw [List.getElem?_map, some_row (by omega)]; rfl
  · rw [List.getElem?_map, some_row (by omega)]; rfl
  · obtain rfl : j = 0 := by omega
    refine ⟨_, _, rfl, rfl, fun i hi => ?_⟩
    have := hr a ha
    exact ⟨some_nth (by omega), some_nth (by omega)⟩

end tables

/-- A table of cubics evaluated inside the interval. -/
theorem coeffs_of {co : View ℝ} {ty i k : ℕ} {q : ℕ → ℝ} (h : ∀ s < 4, co.get [ty, i, s, k] = some (q s)) :
    coeffs co ty i k = some (q 0, q 1, q 2, q 3) := by
  unfold coeffs
  rw [h 0 (by omega), h 1 (by omega), h 2 (by omega), h 3 (by omega)]
  rfl

section eval
variable {f : File} {T : Sys} {NH Ex : ℕ} {X : ℕ → ℕ → ℝ} {sph : ℝ → ℝ → ℝ → ℕ → ℝ}

/-- One interval of the table `co` at an edge. -/
theorem radOkK_of (hT : SysIn f T NH) {h : ℝ} {n S : ℕ} {co : View ℝ} {pair : ℕ → ℕ → ℕ} {φ φ' : ℕ → ℕ → ℝ} {q : ℕ → ℕ → ℕ → ℕ → ℝ}
    (hh : 0 < h) (hin : ∀ e < T.E, 0 < len (X e) ∧ len (X e) < h * (n - 1 : ℕ))
    (hco : ∀ i < T.N, ∀ e ∈ T.edg i, ∀ j < n - 1, ∀ s < 4, ∀ k < S,
      co.get [pair (nthN T.types i) (nthN T.ntypes e), j, s, k] = some (q e j s k))
    (hq : ∀ i < T.N, ∀ e ∈ T.edg i, ∀ j < n - 1, ∀ k < S, h * j ≤ len (X e) → len (X e) < h * (j + 1) → ∀ x, x = len (X e) - h * j →
      φ e k = q e j 0 k + q e j 1 k * x + q e j 2 k * (x * x) + q e j 3 k * (x * x * x) ∧
      φ' e k = q e j 1 k + q e j 2 k * (2 * x) + q e j 3 k * (3 * (x * x))) :
    RadOkK h co S pair (gx T Ex X) (confOf f sph T X) (fun e => len (X e)) φ φ' := by
  intro i hi e he
  obtain ⟨h5, h6⟩ := hin e (edg_lt hi he)
  obtain ⟨j, hj, b1, b2⟩ := exists_interval hh h5.le h6
  have ht : truncInt (len (X e) / h) = (j : ℤ) := truncInt_div hh j b1 b2
  dsimp only
  rw [ht]
  refine ⟨by omega, fun k hk => ?_⟩
  refine ⟨_, _, _, _, coeffs_of (q := fun s => q e j s k) (fun s hs => hco i hi e he j hj s hs k hk), ?_⟩
  have := hq i hi e he j hj k hk b1 b2 _ rfl
  simpa using this

theorem radOkK_set (hT : SysIn f T NH) {h : ℝ} {n S : ℕ} {s : RadialSet ℝ} {v d : ℕ → ℕ → ℕ → ℝ} (hh : 0 < h)
    (hin : ∀ e < T.E, 0 < len (X e) ∧ len (X e) < h * (n - 1 : ℕ)) (h1 : s.h = h) (h2 : s.numTypes = (pairList f.nT).length)
    (h3 : CoefOk s.c (pairList f.nT).length (n - 1) S (fun a i s j => cub h (v a j i) (d a j i) (v a j (i + 1)) (d a j (i + 1)) s)) :
    RadOkK s.h s.c S (pairIndex (uniqueTypes s.numTypes)) (gx T Ex X) (confOf f sph T X) (fun e => len (X e))
      (fun e p => hermite h (v (edgePair f T e) p) (d (edgePair f T e) p) (len (X e)))
      (fun e p => hermite' h (v (edgePair f T e) p) (d (edgePair f T e) p) (len (X e))) := by
  rw [h1, h2, uniqueTypes_pairs]
  refine radOkK_of hT (n := n) (q := fun e j s k => cub h (v (edgePair f T e) k j) (d (edgePair f T e) k j) (v (edgePair f T e) k (j + 1))
    (d (edgePair f T e) k (j + 1)) s) hh hin ?_ ?_
  · intro i hi e he j hj s hs k hk
    obtain ⟨e1, e2⟩ := edgePair_eq hT hi he
    rw [e1]
    exact h3 _ e2 j hj s hs k hk
  · intro i hi e he j hj k hk b1 b2 x hx
    obtain ⟨g1, g2⟩ := hermite_eq_seg hh (v := v (edgePair f T e) k) (d := d (edgePair f T e) k) b1 b2
    rw [g1, g2, ← hx]
    simp only [cub, seg, segD]
    norm_num
    ring

/-- The table of the first layer, with embedding and mixing folded in. -/
theorem radOkK_fold (hT : SysIn f T NH) {dsph : ℝ → ℝ → ℝ → ℕ → ℕ → ℝ} (hC : 0 < f.numChannels) {n : ℕ} {co : View ℝ} (hh : 0 < f.splH)
    (hin : ∀ e < T.E, 0 < len (X e) ∧ len (X e) < f.splH * (n - 1 : ℕ))
    (h3 : ∀ a < f.nT, ∀ b < f.nT, ∀ i < n - 1, ∀ s < 4, ∀ l < f.lmax + 1, ∀ k < f.numChannels,
      co.get [a * f.nT + b, i, s, l * f.numChannels + k] =
        some (∑ k' ∈ Finset.range f.numChannels, (netOf f).mix0 a l k' k *
          (cub f.splH (nth (row (tbl f.vals0 (pairIndex f.nT a b)) (l * f.numChannels + k')) i)
            (nth (row (tbl f.ders0 (pairIndex f.nT a b)) (l * f.numChannels + k')) i)
            (nth (row (tbl f.vals0 (pairIndex f.nT a b)) (l * f.numChannels + k')) (i + 1))
            (nth (row (tbl f.ders0 (pairIndex f.nT a b)) (l * f.numChannels + k')) (i + 1)) s * (netOf f).emb b k'))) :
    RadOkK f.splH co ((f.lmax + 1) * f.numChannels) (fun a b => a * f.nT + b) (gx T Ex X) (confOf f sph T X) (fun e => len (X e))
      (fun e p => fold0 (netOf f) (confOf f sph T X) T.nn T.N (confOf f sph T X).R0 e (p / f.numChannels) (p % f.numChannels))
      (fun e p => fold0 (netOf f) (confOf f sph T X) T.nn T.N (dconfOf f dsph T X).dR0 e (p / f.numChannels) (p % f.numChannels)) := by
  refine radOkK_of hT (n := n) (q := fun e j s p => ∑ k' ∈ Finset.range f.numChannels,
    (netOf f).mix0 (nthN T.types (T.owner e)) (p / f.numChannels) k' (p % f.numChannels) *
      (cub f.splH (nth (row (tbl f.vals0 (edgePair f T e)) (p / f.numChannels * f.numChannels + k')) j)
        (nth (row (tbl f.ders0 (edgePair f T e)) (p / f.numChannels * f.numChannels + k')) j)
        (nth (row (tbl f.vals0 (edgePair f T e)) (p / f.numChannels * f.numChannels + k')) (j + 1))
        (nth (row (tbl f.ders0 (edgePair f T e)) (p / f.numChannels * f.numChannels + k')) (j + 1)) s
        * (netOf f).emb (nthN T.ntypes e) k')) hh hin ?_ ?_
  · intro i hi e he j hj s hs p hp
    obtain ⟨l, k, hl, hk, rfl⟩ := flat_decomp hp
    obtain ⟨e1, e2⟩ := edgePair_eq hT hi he
    rw [flat_div hk, flat_mod hk, owner_eq hi he, ← e1]
    exact h3 _ (hT.typ i hi) _ (hT.nty e (edg_lt hi he)) j hj s hs l hl k hk
  · intro i hi e he j hj p hp b1 b2 x hx
    obtain ⟨l, k, hl, hk, rfl⟩ := flat_decomp hp
    have e0 : own T.nn T.N e = T.owner e := own_owner (edg_lt hi he)
    simp only [flat_div hk, flat_mod hk]
    have g := fun k' => hermite_eq_seg hh (v := nth (row (tbl f.vals0 (edgePair f T e)) (l * f.numChannels + k')))
      (d := nth (row (tbl f.ders0 (edgePair f T e)) (l * f.numChannels + k'))) b1 b2
    unfold fold0
    constructor
    · rw [Finset.sum_mul, Finset.sum_mul, Finset.sum_mul, ← Finset.sum_add_distrib, ← Finset.sum_add_distrib, ← Finset.sum_add_distrib]
      refine Finset.sum_congr rfl (fun k' _ => ?_)
      rw [e0]
      change hermite f.splH _ _ _ * (netOf f).emb (nthN T.ntypes e) k' * (netOf f).mix0 (nthN T.types (T.owner e)) l k' k = _
      rw [(g k').1, ← hx]
      simp only [cub, seg]
      norm_num
      ring
    · rw [Finset.sum_mul, Finset.sum_mul, ← Finset.sum_add_distrib, ← Finset.sum_add_distrib]
      refine Finset.sum_congr rfl (fun k' _ => ?_)
      rw [e0]
      change hermite' f.splH _ _ _ * (netOf f).emb (nthN T.ntypes e) k' * (netOf f).mix0 (nthN T.types (T.owner e)) l k' k = _
      rw [(g k').2, ← hx]
      simp only [cub, segD]
      norm_num
      ring

end eval

end Verif.Kokkos
