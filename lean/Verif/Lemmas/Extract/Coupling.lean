import Verif.Lemmas.Extract.Product

/-! # The coupling table -/

namespace Verif.Extract
open Verif.MACE Verif.Spec

theorem flatMap_range_sum {α : Type} (n : ℕ) (F : ℕ → List α) (G : α → ℝ) :
    (((List.range n).flatMap F).map G).sum = ∑ j ∈ Finset.range n, ((F j).map G).sum := by
  induction n with
  | zero => simp
  | succ n ih =>
    rw [List.range_succ, List.flatMap_append, List.map_append, List.sum_append, ih, Finset.sum_range_succ]
    simp

theorem flatMap_range_length {α : Type} (n : ℕ) (F : ℕ → List α) :
    ((List.range n).flatMap F).length = ((List.range n).map (fun j => (F j).length)).sum := by
  rw [List.length_flatMap]

theorem flatMap_range_get {α : Type} (F : ℕ → List α) {n a b : ℕ} (ha : a < n) (hb : b < (F a).length) :
    ((List.range n).flatMap F)[((List.range a).map (fun j => (F j).length)).sum + b]? = (F a)[b]? := by
  induction n with
  | zero => omega
  | succ n ih =>
    rw [List.range_succ, List.flatMap_append]
    have e : [n].flatMap F = F n := by simp
    rw [e]
    by_cases h : a = n
    · subst h
      rw [List.getElem?_append_right (by rw [flatMap_range_length]; omega), flatMap_range_length]
      congr 1
      omega
    · have h1 := ih (by omega)
      have h2 : ((List.range a).map (fun j => (F j).length)).sum + b < ((List.range n).flatMap F).length := by
        by_contra hc
        rw [List.getElem?_eq_none (by omega)] at h1
        have := List.getElem?_eq_getElem hb
        rw [← h1] at this
        cases this
      rw [List.getElem?_append_left h2, h1]

/-! ## Sorted paths -/

theorem sorted_lt_iff {xs : List ℕ} (hs : xs.Pairwise (· ≤ ·)) (l : ℕ) {i : ℕ} (hi : i < xs.length) :
    nthN xs i < l ↔ i < xs.countP (fun x => decide (x < l)) := by
  induction xs generalizing i with
  | nil => simp at hi
  | cons x xs ih =>
    rw [List.pairwise_cons] at hs
    cases i with
    | zero =>
      by_cases h : x < l
      · simp [nthN, h]
      · have : xs.countP (fun x => decide (x < l)) = 0 := by
          rw [List.countP_eq_zero]
          intro y hy
          have := hs.1 y hy
          simp only [decide_eq_true_eq]
          omega
        simp [nthN, h, this]
    | succ i =>
      have hi' : i < xs.length := by simpa using hi
      have := ih hs.2 hi'
      have e : nthN (x :: xs) (i + 1) = nthN xs i := by simp [nthN]
      rw [e, this, List.countP_cons]
      by_cases h : x < l
      · simp [h]
      · have h0 : xs.countP (fun x => decide (x < l)) = 0 := by
          rw [List.countP_eq_zero]
          intro y hy
          have := hs.1 y hy
          simp only [decide_eq_true_eq]
          omega
        simp [h, h0]

theorem countP_succ (xs : List ℕ) (l : ℕ) : xs.countP (fun x => decide (x < l + 1)) = xs.countP (fun x => decide (x < l)) + xs.count l := by
  induction xs with
  | nil => rfl
  | cons x xs ih =>
    rw [List.countP_cons, List.countP_cons, List.count_cons, ih]
    rcases lt_trichotomy x l with h | h | h
    · have h1 : x < l + 1 := by omega
      have h2 : x ≠ l := by omega
      simp [h, h1, h2]; omega
    · subst h; simp; omega
    · have h1 : ¬ x < l + 1 := by omega
      have h2 : ¬ x < l := by omega
      have h3 : x ≠ l := by omega
      simp [h1, h2, h3]

theorem sorted_eq_iff {xs : List ℕ} (hs : xs.Pairwise (· ≤ ·)) (l : ℕ) {i : ℕ} (hi : i < xs.length) :
    nthN xs i = l ↔ xs.countP (fun x => decide (x < l)) ≤ i ∧ i < xs.countP (fun x => decide (x < l)) + xs.count l := by
  have h1 := sorted_lt_iff hs l hi
  have h2 := sorted_lt_iff hs (l + 1) hi
  rw [countP_succ] at h2
  omega

theorem countP_le (xs : List ℕ) (l : ℕ) : xs.countP (fun x => decide (x < l)) + xs.count l ≤ xs.length := by
  rw [← countP_succ]
  exact List.countP_le_length

theorem nthN_take {xs : List ℕ} {i n : ℕ} (h : i < n) : nthN (xs.take n) i = nthN xs i := by
  unfold nthN
  rw [List.getElem?_take, if_pos h]

/-- Number of earlier paths with the same output, in a sorted list. -/
theorem rank_eq {xs : List ℕ} (hs : xs.Pairwise (· ≤ ·)) {i : ℕ} (hi : i < xs.length) :
    (xs.take i).count (nthN xs i) = i - xs.countP (fun x => decide (x < nthN xs i)) := by
  set l := nthN xs i with hl
  have h0 := (sorted_eq_iff hs l hi).mp rfl
  have hst : (xs.take i).Pairwise (· ≤ ·) := hs.sublist (List.take_sublist _ _)
  have hlen : (xs.take i).length = i := by rw [List.length_take]; omega
  have h1 : (xs.take i).countP (fun x => decide (x < l)) = xs.countP (fun x => decide (x < l)) := by
    apply Nat.le_antisymm ((List.take_sublist _ _).countP_le)
    by_contra hc
    push Not at hc
    have hj : (xs.take i).countP (fun x => decide (x < l)) < (xs.take i).length := by omega
    have h2 := sorted_lt_iff hst l hj
    rw [nthN_take (by omega)] at h2
    have h3 := sorted_lt_iff hs l (i := (xs.take i).countP (fun x => decide (x < l))) (by omega)
    have : ¬ nthN xs ((xs.take i).countP (fun x => decide (x < l))) < l := fun h => absurd (h2.mp h) (by omega)
    exact this (h3.mpr hc)
  have h2 : (xs.take i).countP (fun x => decide (x < l)) + (xs.take i).count l = i := by
    rw [← countP_succ, List.countP_eq_length.mpr, hlen]
    intro y hy
    obtain ⟨j, hj, rfl⟩ := List.getElem_of_mem hy
    have hj' : j < i := by omega
    have h4 : (xs.take i)[j] = nthN xs j := by
      rw [← nthN_take hj']; unfold nthN; rw [List.getElem?_eq_getElem hj]; rfl
    rw [h4]
    have h5 := sorted_lt_iff hs (l + 1) (i := j) (by omega)
    have h6 := sorted_lt_iff hs (l + 1) hi
    simp only [decide_eq_true_eq]
    rw [h5]
    have : nthN xs i < l + 1 := by omega
    have := h6.mp this
    omega
  omega

/-! ## The output index -/

/-- First output index of angular momentum `l`. -/
def baseOf (phil : List ℕ) (l : ℕ) : ℕ := ∑ l' ∈ Finset.range l, (2 * l' + 1) * phil.count l'

theorem baseOf_mono (phil : List ℕ) {l l' : ℕ} (h : l < l') : baseOf phil l + (2 * l + 1) * phil.count l ≤ baseOf phil l' := by
  have : baseOf phil (l + 1) ≤ baseOf phil l' := by
    unfold baseOf
    exact Finset.sum_le_sum_of_subset (Finset.range_subset_range.mpr h)
  rw [show baseOf phil (l + 1) = baseOf phil l + (2 * l + 1) * phil.count l from Finset.sum_range_succ _ _] at this
  exact this

theorem sum_range_list (n : ℕ) (g : ℕ → ℕ) : ((List.range n).map g).sum = ∑ j ∈ Finset.range n, g j := by
  induction n with
  | zero => rfl
  | succ n ih => rw [List.range_succ, List.map_append, List.sum_append, ih, Finset.sum_range_succ]; simp

theorem lmeOf_eq {phil : List ℕ} (hs : phil.Pairwise (· ≤ ·)) {le : ℕ} (h : le < phil.length) (mu : ℕ) :
    lmeOf phil le (nthN phil le) mu
      = baseOf phil (nthN phil le) + mu * phil.count (nthN phil le) + (phil.take le).count (nthN phil le) := by
  rw [rank_eq hs h]
  unfold lmeOf baseOf
  simp only []
  rw [sum_range_list]
  rfl

theorem rank_lt {phil : List ℕ} (hs : phil.Pairwise (· ≤ ·)) {le : ℕ} (h : le < phil.length) :
    (phil.take le).count (nthN phil le) < phil.count (nthN phil le) := by
  rw [rank_eq hs h]
  have := (sorted_eq_iff hs _ h).mp rfl
  omega

theorem out_inj {phil : List ℕ} {l mu e l' mu' e' : ℕ} (hmu : mu < 2 * l + 1) (he : e < phil.count l) (hmu' : mu' < 2 * l' + 1)
    (he' : e' < phil.count l') (h : baseOf phil l + mu * phil.count l + e = baseOf phil l' + mu' * phil.count l' + e') :
    l = l' ∧ mu = mu' ∧ e = e' := by
  have b1 : mu * phil.count l + e < (2 * l + 1) * phil.count l := by nlinarith
  have b2 : mu' * phil.count l' + e' < (2 * l' + 1) * phil.count l' := by nlinarith
  have hl : l = l' := by
    rcases lt_trichotomy l l' with hh | hh | hh
    · have := baseOf_mono phil hh; omega
    · exact hh
    · have := baseOf_mono phil hh; omega
  subst hl
  have h2 : mu * phil.count l + e = mu' * phil.count l + e' := by omega
  have hp : 0 < phil.count l := by omega
  have h3 : mu = mu' := by
    have := congrArg (· / phil.count l) h2
    have dv : ∀ a b : ℕ, (a * phil.count l + b) / phil.count l = a + b / phil.count l := fun a b => by
      rw [Nat.add_comm, Nat.add_mul_div_right _ _ hp, Nat.add_comm]
    simpa [dv, Nat.div_eq_of_lt he, Nat.div_eq_of_lt he'] using this
  subst h3
  exact ⟨rfl, rfl, by omega⟩

theorem path_ext {phil : List ℕ} (hs : phil.Pairwise (· ≤ ·)) {le le' : ℕ} (h : le < phil.length) (h' : le' < phil.length)
    (hl : nthN phil le = nthN phil le') (hr : (phil.take le).count (nthN phil le) = (phil.take le').count (nthN phil le')) : le = le' := by
  rw [rank_eq hs h, rank_eq hs h', ← hl] at hr
  have h1 := (sorted_eq_iff hs (nthN phil le) h).mp rfl
  have h2 := (sorted_eq_iff hs (nthN phil le) h').mp hl.symm
  omega

theorem lme_inj {phil : List ℕ} (hs : phil.Pairwise (· ≤ ·)) {le le' mu mu' : ℕ} (h : le < phil.length) (h' : le' < phil.length)
    (hmu : mu < 2 * nthN phil le + 1) (hmu' : mu' < 2 * nthN phil le' + 1)
    (e : lmeOf phil le (nthN phil le) mu = lmeOf phil le' (nthN phil le') mu') : le = le' ∧ mu = mu' := by
  rw [lmeOf_eq hs h, lmeOf_eq hs h'] at e
  obtain ⟨h1, h2, h3⟩ := out_inj hmu (rank_lt hs h) hmu' (rank_lt hs h') e
  exact ⟨path_ext hs h h' h1 h3, h2⟩

theorem lme_lt {phil : List ℕ} (hs : phil.Pairwise (· ≤ ·)) {n : ℕ} (hn : ∀ l ∈ phil, l < n) {le mu : ℕ} (h : le < phil.length)
    (hmu : mu < 2 * nthN phil le + 1) : lmeOf phil le (nthN phil le) mu < baseOf phil n := by
  rw [lmeOf_eq hs h]
  have h1 := rank_lt hs h
  have hmem : nthN phil le ∈ phil := by simp [nthN, h]
  have h2 := baseOf_mono phil (hn _ hmem)
  nlinarith

/-! ## The entries -/

theorem getD_nthN (l : List ℕ) (i : ℕ) : l.getD i 0 = nthN l i := List.getD_eq_getElem?_getD ..

theorem take_map_sum (phil : List ℕ) (g : ℕ → ℕ) {le : ℕ} (h : le ≤ phil.length) :
    ((phil.take le).map g).sum = ((List.range le).map (fun j => g (nthN phil j))).sum := by
  have : phil.take le = (List.range le).map (fun j => nthN phil j) := by
    refine List.ext_getElem (by simp [h]) (fun i h1 h2 => ?_)
    have h3 : i < phil.length := by simp at h1; omega
    simp [nthN, h3]
  rw [this, List.map_map]
  rfl

theorem phi0List_get (C : ℕ) (phil : List ℕ) (Phi : ℕ → ℝ) {le mu : ℕ} (h : le < phil.length) (hmu : mu < 2 * nthN phil le + 1) :
    (phi0List C phil Phi).getD (lemOf phil le mu) 0 = Phi (((phil.take le).map (fun l => 2 * l + 1)).sum * C + mu) := by
  have := flatMap_range_get (fun le => (List.range (2 * phil.getD le 0 + 1)).map
    (fun p => Phi (((phil.take le).map (fun l => 2 * l + 1)).sum * C + p))) h (b := mu) (by rw [List.length_map, List.length_range, getD_nthN]; exact hmu)
  rw [List.getD_eq_getElem?_getD]
  unfold phi0List lemOf
  rw [take_map_sum phil _ h.le]
  simp only [List.length_map, List.length_range, getD_nthN] at this ⊢
  rw [this, List.getElem?_map, List.getElem?_range hmu, take_map_sum phil _ h.le]
  rfl

/-- Position of a coupling channel. -/
def chanPos (M : Torch) (le m1 m2 : ℕ) : ℕ :=
  ((List.range le).map (fun j => (2 * nthN M.phil1 j + 1) * (2 * nthN M.phil2 j + 1))).sum + (m1 * (2 * nthN M.phil2 le + 1) + m2)

theorem lelmOf_eq (M : Torch) (le m1 m2 : ℕ) :
    lelmOf M.phil1 M.phil2 le ((m1 : ℤ) - nthN M.phil1 le) ((m2 : ℤ) - nthN M.phil2 le) = (chanPos M le m1 m2 : ℕ) := by
  unfold lelmOf chanPos
  simp only [getD_nthN]
  push_cast
  have e : ((((List.range le).map (fun j => (2 * nthN M.phil1 j + 1) * (2 * nthN M.phil2 j + 1))).sum : ℕ) : ℤ)
      = ((List.range le).map (fun j => (2 * (nthN M.phil1 j : ℤ) + 1) * (2 * (nthN M.phil2 j : ℤ) + 1))).sum := by
    rw [Nat.cast_list_sum, List.map_map]
    congr 1
  rw [Nat.cast_list_sum] at e
  rw [e]
  ring

theorem unit_sum_Y (c : ℕ → ℝ) {l l1 mu1 : ℕ} (h1 : mu1 < 2 * l1 + 1) :
    ∑ m ∈ Finset.range (2 * l + 1), c m * unit (l1 * l1 + mu1) (l * l + m) = if l1 = l then c mu1 else 0 := by
  split_ifs with h
  · subst h
    rw [Finset.sum_eq_single mu1]
    · simp [unit]
    · intro m _ hm
      have : l1 * l1 + m ≠ l1 * l1 + mu1 := by omega
      simp [unit, this, hm]
    · intro hm; exact absurd (Finset.mem_range.mpr h1) hm
  · refine Finset.sum_eq_zero (fun m hm => ?_)
    have : l * l + m ≠ l1 * l1 + mu1 := by
      intro e
      have := congrArg Nat.sqrt e
      rw [sqrt_add (Finset.mem_range.mp hm), sqrt_add h1] at this
      exact h this.symm
    simp [unit, this]

theorem unit_sum_H (c : ℕ → ℝ) {C l l2 mu2 : ℕ} (hC : 0 < C) (h2 : mu2 < 2 * l2 + 1) :
    ∑ m ∈ Finset.range (2 * l + 1), c m * unit (l2 * l2 * C + mu2) (l * l * C + m) = if l2 = l then c mu2 else 0 := by
  split_ifs with h
  · subst h
    rw [Finset.sum_eq_single mu2]
    · simp [unit]
    · intro m _ hm
      simp [unit, hm]
    · intro hm; exact absurd (Finset.mem_range.mpr h2) hm
  · refine Finset.sum_eq_zero (fun m hm => ?_)
    have hm := Finset.mem_range.mp hm
    have key : ∀ a b x y : ℕ, x < 2 * a + 1 → a < b → a * a * C + x ≠ b * b * C + y := by
      intro a b x y hx hab e
      have h1 : (a + 1) * (a + 1) * C ≤ b * b * C := Nat.mul_le_mul_right _ (Nat.mul_le_mul hab hab)
      have h2 : (a + 1) * (a + 1) * C = a * a * C + (2 * a + 1) * C := by ring
      have h3 : 2 * a + 1 ≤ (2 * a + 1) * C := Nat.le_mul_of_pos_right _ hC
      omega
    have : l * l * C + m ≠ l2 * l2 * C + mu2 := by
      rcases Nat.lt_or_gt_of_ne h with h' | h'
      · exact (key _ _ _ _ h2 h').symm
      · exact key _ _ _ _ hm h'
    simp [unit, this]

theorem odd_sum (l : ℕ) : ((List.range l).map (fun p => 2 * p + 1)).sum = l * l := by
  induction l with
  | zero => rfl
  | succ l ih => rw [List.range_succ, List.map_append, List.sum_append, ih]; simp; ring

variable {M : Torch} {cg : ℕ → ℕ → ℕ → ℕ → ℝ}

/-- The number the script finds for unit features and harmonics. -/
theorem entry_eq (h : TorchOk M cg) {l1 mu1 l2 mu2 le mu : ℕ} (h1 : mu1 < 2 * l1 + 1) (h2 : mu2 < 2 * l2 + 1) (hle : le < M.phil.length)
    (hmu : mu < 2 * nthN M.phil le + 1) :
    (phi0List M.C M.phil (M.tp (unit (((List.range l2).map (fun p => 2 * p + 1)).sum * M.C + mu2)) (unit (l1 * l1 + mu1))
        (fun _ => 1))).getD (lemOf M.phil le mu) 0
      = if l1 = nthN M.phil1 le ∧ l2 = nthN M.phil2 le then cg le mu1 mu2 mu else 0 := by
  rw [phi0List_get _ _ _ hle hmu, odd_sum]
  have := h.tp (unit (l2 * l2 * M.C + mu2)) (unit (l1 * l1 + mu1)) (fun _ => 1) le hle 0 h.C mu hmu
  simp only [Nat.zero_mul, Nat.add_zero, one_mul] at this
  rw [this]
  simp only [unit_sum_H _ h.C h2]
  by_cases h3 : l2 = nthN M.phil2 le
  · simp only [h3, if_true, and_true]
    exact unit_sum_Y (fun m => cg le m mu2 mu) h1
  · simp [h3]

theorem sum_swap2 {ι κ μ : Type} (s : Finset ι) (t : ι → Finset κ) (u : Finset μ) (F : ι → κ → μ → ℝ) :
    ∑ i ∈ s, ∑ j ∈ t i, ∑ k ∈ u, F i j k = ∑ k ∈ u, ∑ i ∈ s, ∑ j ∈ t i, F i j k :=
  (Finset.sum_congr rfl (fun _ _ => Finset.sum_comm)).trans Finset.sum_comm

/-- Sums over the table. -/
theorem coupling_sum (h : TorchOk M cg) (g : ℕ → ℕ → ℝ) :
    ((couplingTable M).map (fun q => q.2.1 * g q.1 q.2.2.toNat)).sum
      = ∑ le ∈ Finset.range M.phil.length, ∑ mu ∈ Finset.range (2 * nthN M.phil le + 1),
          ∑ m1 ∈ Finset.range (2 * nthN M.phil1 le + 1), ∑ m2 ∈ Finset.range (2 * nthN M.phil2 le + 1),
            cg le m1 m2 mu * g (lmeOf M.phil le (nthN M.phil le) mu) (chanPos M le m1 m2) := by
  have e1 : ((couplingTable M).map (fun q => q.2.1 * g q.1 q.2.2.toNat)).sum
      = ∑ l1 ∈ Finset.range (M.lmax + 1), ∑ mu1 ∈ Finset.range (2 * l1 + 1), ∑ l2 ∈ Finset.range (M.Lmax + 1),
          ∑ mu2 ∈ Finset.range (2 * l2 + 1), ∑ le ∈ Finset.range M.phil.length, ∑ mu ∈ Finset.range (2 * nthN M.phil le + 1),
            if l1 = nthN M.phil1 le then (if l2 = nthN M.phil2 le then
              cg le mu1 mu2 mu * g (lmeOf M.phil le (nthN M.phil le) mu) (chanPos M le mu1 mu2) else 0) else 0 := by
    unfold couplingTable
    simp only [flatMap_range_sum]
    refine Finset.sum_congr rfl (fun l1 _ => Finset.sum_congr rfl (fun mu1 hmu1 => Finset.sum_congr rfl (fun l2 _ =>
      Finset.sum_congr rfl (fun mu2 hmu2 => Finset.sum_congr rfl (fun le hle => ?_)))))
    have hle := Finset.mem_range.mp hle
    rw [getD_nthN]
    refine Finset.sum_congr rfl (fun mu hmu => ?_)
    rw [entry_eq h (Finset.mem_range.mp hmu1) (Finset.mem_range.mp hmu2) hle (Finset.mem_range.mp hmu)]
    have hz : ¬ (1e-12 : ℝ) < |0| := by norm_num
    by_cases h1 : l1 = nthN M.phil1 le
    · by_cases h2 : l2 = nthN M.phil2 le
      · subst h1; subst h2
        simp only [and_self, if_true]
        rcases h.thr le mu1 mu2 mu with h0 | h0
        · rw [h0, if_neg hz]; simp
        · rw [if_pos h0, lelmOf_eq]; simp
      · have h3 : ¬ (l1 = nthN M.phil1 le ∧ l2 = nthN M.phil2 le) := fun hh => h2 hh.2
        simp only [if_neg h3, if_neg hz, if_neg h2]; simp
    · have h3 : ¬ (l1 = nthN M.phil1 le ∧ l2 = nthN M.phil2 le) := fun hh => h1 hh.1
      simp only [if_neg h3, if_neg hz, if_neg h1]; simp
  rw [e1]
  have e2 : ∀ (n : ℕ) (F : ℕ → ℕ → ℝ) (a : ℕ), a ≤ n →
      ∑ l ∈ Finset.range (n + 1), ∑ m ∈ Finset.range (2 * l + 1), (if l = a then F l m else 0)
        = ∑ m ∈ Finset.range (2 * a + 1), F a m := by
    intro n F a ha
    rw [Finset.sum_eq_single a]
    · simp
    · intro b _ hb; simp [hb]
    · intro hb; exact absurd (Finset.mem_range.mpr (Nat.lt_succ_of_le ha)) hb
  have hp1 : ∀ le < M.phil.length, nthN M.phil1 le ≤ M.lmax := fun le hle =>
    h.phil1.2 _ (by have := h.phil1.1; simp [nthN, show le < M.phil1.length by omega])
  have hp2 : ∀ le < M.phil.length, nthN M.phil2 le ≤ M.Lmax := fun le hle =>
    h.phil2.2 _ (by have := h.phil2.1; simp [nthN, show le < M.phil2.length by omega])
  have e3 : ∀ l1 mu1, ∑ l2 ∈ Finset.range (M.Lmax + 1), ∑ mu2 ∈ Finset.range (2 * l2 + 1), ∑ le ∈ Finset.range M.phil.length,
        ∑ mu ∈ Finset.range (2 * nthN M.phil le + 1), (if l1 = nthN M.phil1 le then (if l2 = nthN M.phil2 le then
              cg le mu1 mu2 mu * g (lmeOf M.phil le (nthN M.phil le) mu) (chanPos M le mu1 mu2) else 0) else 0)
      = ∑ le ∈ Finset.range M.phil.length, ∑ mu ∈ Finset.range (2 * nthN M.phil le + 1), if l1 = nthN M.phil1 le then
          ∑ m2 ∈ Finset.range (2 * nthN M.phil2 le + 1), cg le mu1 m2 mu * g (lmeOf M.phil le (nthN M.phil le) mu) (chanPos M le mu1 m2)
          else 0 := by
    intro l1 mu1
    rw [sum_swap2]
    refine Finset.sum_congr rfl (fun le hle => ?_)
    rw [sum_swap2]
    refine Finset.sum_congr rfl (fun mu _ => ?_)
    by_cases h1 : l1 = nthN M.phil1 le
    · simp only [h1, if_true]
      exact e2 M.Lmax (fun _ mu2 => cg le mu1 mu2 mu * g (lmeOf M.phil le (nthN M.phil le) mu) (chanPos M le mu1 mu2)) _
        (hp2 le (Finset.mem_range.mp hle))
    · simp [h1]
  simp only [e3]
  rw [sum_swap2]
  refine Finset.sum_congr rfl (fun le hle => ?_)
  rw [sum_swap2]
  refine Finset.sum_congr rfl (fun mu _ => ?_)
  exact e2 M.lmax (fun _ m1 => ∑ m2 ∈ Finset.range (2 * nthN M.phil2 le + 1), cg le m1 m2 mu
    * g (lmeOf M.phil le (nthN M.phil le) mu) (chanPos M le m1 m2)) _ (hp1 le (Finset.mem_range.mp hle))

/-- The entries point to outputs and channels of a path. -/
theorem coupling_mem (h : TorchOk M cg) {q : ℕ × ℝ × ℤ} (hq : q ∈ couplingTable M) :
    ∃ le mu m1 m2, le < M.phil.length ∧ mu < 2 * nthN M.phil le + 1 ∧ m1 < 2 * nthN M.phil1 le + 1 ∧ m2 < 2 * nthN M.phil2 le + 1 ∧
      q.1 = lmeOf M.phil le (nthN M.phil le) mu ∧ q.2.2 = (chanPos M le m1 m2 : ℕ) := by
  unfold couplingTable at hq
  simp only [List.mem_flatMap, List.mem_range] at hq
  obtain ⟨l1, -, mu1, hmu1, l2, -, mu2, hmu2, le, hle, mu, hmu, hq⟩ := hq
  rw [getD_nthN] at hmu
  rw [entry_eq h hmu1 hmu2 hle hmu] at hq
  have hz : ¬ (1e-12 : ℝ) < |0| := by norm_num
  by_cases h1 : l1 = nthN M.phil1 le ∧ l2 = nthN M.phil2 le
  · obtain ⟨rfl, rfl⟩ := h1
    simp only [and_self, if_true] at hq
    split_ifs at hq with h2
    · rw [List.mem_singleton] at hq
      refine ⟨le, mu, mu1, mu2, hle, hmu, hmu1, hmu2, ?_, ?_⟩
      · rw [hq]; simp only [getD_nthN]
      · rw [hq]; exact lelmOf_eq M le mu1 mu2
    · cases hq
  · rw [if_neg h1, if_neg hz] at hq
    cases hq

end Verif.Extract
