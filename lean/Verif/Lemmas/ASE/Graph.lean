import Verif.Spec.ASE
import Verif.Base.Tab
import Verif.Lemmas.MACE.Eval

/-! # The graph passed to the evaluator -/

namespace Verif.ASE
open Verif.MACE Verif.Spec

variable {nA : ℕ} {i j : List ℕ}

theorem PairsOk.perm (h : PairsOk nA i j) : i.Perm j := by
  have := h.symm.map Prod.fst
  rwa [List.map_fst_zip (by rw [h.len]), List.map_fst_zip (by rw [h.len])] at this

theorem PairsOk.count (h : PairsOk nA i j) (a : ℕ) : j.count a = i.count a := (h.perm.count_eq a).symm

theorem max?_le {l : List ℕ} {m : ℕ} (h : l.max? = some m) : m ∈ l ∧ ∀ a ∈ l, a ≤ m := by
  rw [List.max?_eq_some_iff] at h
  exact h

theorem binLength_eq {l : List ℕ} {m : ℕ} (h : ∀ a ∈ l, a < m) : binLength l m = m := by
  unfold binLength
  cases hm : l.max? with
  | none => rfl
  | some x =>
    have := h x (max?_le hm).1
    simp only
    omega

/-- In a sorted list the entries below `k` come first. -/
theorem lt_countP {l : List ℕ} (hl : l.Pairwise (· ≤ ·)) (k : ℕ) {e : ℕ} (he : e < l.length) :
    l[e] < k ↔ e < l.countP (fun a => decide (a < k)) := by
  induction l generalizing e with
  | nil => simp at he
  | cons a l ih =>
    rw [List.pairwise_cons] at hl
    rw [List.countP_cons]
    by_cases ha : a < k
    · cases e with
      | zero => simp [ha]
      | succ e =>
        have := ih hl.2 (e := e) (by simpa using he)
        simp [ha, this]
    · have h0 : l.countP (fun a => decide (a < k)) = 0 := by
        rw [List.countP_eq_zero]
        intro b hb
        have := hl.1 b hb
        simp; omega
      rw [h0]
      cases e with
      | zero => simp [ha]
      | succ e =>
        have he' : e < l.length := by simpa using he
        have hb := hl.1 l[e] (List.getElem_mem he')
        simp [ha]
        omega

theorem countP_succ (l : List ℕ) (k : ℕ) :
    l.countP (fun a => decide (a < k + 1)) = l.countP (fun a => decide (a < k)) + l.count k := by
  induction l with
  | nil => simp
  | cons a l ih =>
    rw [List.countP_cons, List.countP_cons, List.count_cons, ih]
    by_cases h1 : a < k
    · have : a ≠ k := by omega
      have h3 : a < k + 1 := by omega
      simp [h1, this, h3]; omega
    · by_cases h2 : a = k
      · subst h2; simp; omega
      · have h3 : ¬ a < k + 1 := by omega
        simp [h1, h2, h3]

theorem sum_count (l : List ℕ) {N k : ℕ} (hk : k ≤ N) :
    (((List.range N).map (fun a => l.count a)).take k).sum = l.countP (fun a => decide (a < k)) := by
  rw [← List.map_take, List.take_range, Nat.min_eq_left hk]
  clear hk
  induction k with
  | zero => simp
  | succ k ih =>
    rw [List.range_succ, List.map_append, List.sum_append, ih, countP_succ]
    simp

variable {mace Z : List ℕ} {N : ℕ}

theorem countP_all {k : ℕ} (h : ∀ a ∈ i, a < k) : i.countP (fun a => decide (a < k)) = i.length := by
  rw [List.countP_eq_length]
  intro a ha
  simpa using h a ha

theorem sysOf_E (hN : ∀ a ∈ i, a < N) : (sysOf mace Z i j N).E = i.length := by
  unfold Sys.E
  show (((List.range N).map (fun a => i.count a)).take N).sum = _
  rw [sum_count i le_rfl, countP_all hN]

/-- Edge `e` belongs to its first atom. -/
theorem sysOf_edg (hs : i.Pairwise (· ≤ ·)) {a e : ℕ} (ha : a < N) (he : e < i.length) :
    e ∈ (sysOf mace Z i j N).edg a ↔ i[e] = a := by
  unfold Sys.edg
  show e ∈ Finset.Ico (((List.range N).map (fun a => i.count a)).take a).sum
    (((List.range N).map (fun a => i.count a)).take (a + 1)).sum ↔ _
  rw [sum_count i (by omega), sum_count i (by omega), Finset.mem_Ico, ← not_lt, ← lt_countP hs _ he, ← lt_countP hs _ he]
  omega

theorem typeOf_eq {a : ℕ} (ha : a < Z.length) (hm : nthN Z a ∈ mace) : typeOf mace Z a = some (elem mace Z a) := by
  unfold typeOf elem
  have : Z[a]? = some (nthN Z a) := by unfold nthN; rw [List.getElem?_eq_getElem ha]; rfl
  rw [this]
  simp only [Option.bind_eq_bind, Option.bind_some]
  generalize nthN Z a = z at hm
  rw [List.findIdx?_eq_some_iff_findIdx_eq]
  exact ⟨List.idxOf_lt_length_of_mem hm, rfl⟩

theorem typesOf_eq {l : List ℕ} (hl : ∀ a ∈ l, a < Z.length ∧ nthN Z a ∈ mace) : typesOf mace Z l = some (l.map (elem mace Z)) := by
  induction l with
  | nil => rfl
  | cons a l ih =>
    unfold typesOf
    rw [typeOf_eq (hl a (by simp)).1 (hl a (by simp)).2, ih (fun b hb => hl b (by simp [hb]))]
    rfl

/-- Every atom is of an element of the model. -/
def Known (mace Z : List ℕ) : Prop := ∀ z ∈ Z, z ∈ mace

theorem Known.nth (h : Known mace Z) {a : ℕ} (ha : a < Z.length) : nthN Z a ∈ mace := by
  apply h
  unfold nthN
  rw [List.getElem?_eq_getElem ha]
  exact List.getElem_mem ha

theorem arguments_eq (hp : PairsOk Z.length i j) (hZ : Known mace Z) {m : ℕ} (hm : i.max? = some m) (X : ℕ → ℕ → ℝ) :
    arguments mace Z (pairsOf i j X) = some ((sysOf mace Z i j (m + 1)).graph X) := by
  have hi := max?_le hm
  have hmlt := hp.lt m hi.1
  have hlt : ∀ a ∈ i, a < m + 1 := fun a ha => Nat.lt_succ_of_le (hi.2 a ha)
  have hj : ∀ a ∈ j, a < m + 1 := fun a ha => hlt a (hp.perm.mem_iff.mpr ha)
  unfold arguments
  simp only [pairsOf, hm, Option.bind_eq_bind, Option.bind_some]
  rw [typesOf_eq (fun a ha => ?_), typesOf_eq (fun a ha => ?_)]
  · simp only [Option.bind_some, Sys.graph]
    rw [sysOf_E hlt]
    congr 2
    unfold bincount
    rw [binLength_eq hj]
    unfold tab sysOf
    simp only [hp.count]
  · have := hj a ha
    exact ⟨by omega, hZ.nth (by omega)⟩
  · have := List.mem_range.mp ha
    exact ⟨by omega, hZ.nth (by omega)⟩

theorem sysOf_ok {f : File} (hp : PairsOk Z.length i j) (hZ : Known f.atomicNumbers Z) (hN : ∀ a ∈ i, a < N) (hle : N ≤ Z.length) :
    SysOk f (sysOf f.atomicNumbers Z i j N) := by
  have hel : ∀ a < N, elem f.atomicNumbers Z a < f.nT := fun a ha =>
    List.idxOf_lt_length_of_mem (hZ.nth (by omega))
  have hj : ∀ e < i.length, nthN j e < N := by
    intro e he
    have he' : e < j.length := hp.len ▸ he
    unfold nthN
    rw [List.getElem?_eq_getElem he']
    exact hN _ (hp.perm.mem_iff.mpr (List.getElem_mem he'))
  have hE := sysOf_E (mace := f.atomicNumbers) (Z := Z) (j := j) hN
  constructor
  · simp [sysOf]
  · intro a ha
    have ha' : a < N := ha
    have : nthN (sysOf f.atomicNumbers Z i j N).types a = elem f.atomicNumbers Z a := by simp [nthN, sysOf, ha']
    rw [this]
    exact hel a ha'
  · simp [sysOf]
  · rw [hE, hp.len]; rfl
  · intro e he
    rw [hE] at he
    exact hj e he
  · rw [hE, hp.len]; simp [sysOf]
  · intro e he
    rw [hE] at he
    have he' : e < j.length := hp.len ▸ he
    have : nthN (sysOf f.atomicNumbers Z i j N).ntypes e = elem f.atomicNumbers Z (nthN j e) := by
      simp [nthN, sysOf, he']
    rw [this]
    exact hel _ (hj e he)

end Verif.ASE
