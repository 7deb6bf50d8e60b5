import Verif.Model.IntIndex
import Mathlib.Tactic.GCongr
import Mathlib.Tactic.Ring

/-! Evaluation of `int` expressions and of the loops around them. -/

namespace Verif.IntIndex
open Verif.MACE Verif.Spec

@[simp] theorem ok_n (k : ℕ) : (Ex.n k).ok = true := rfl
@[simp] theorem ok_0 : ((0 : Ex)).ok = true := rfl
@[simp] theorem val_0 : ((0 : Ex)).val = 0 := rfl
@[simp] theorem ok_1 : ((1 : Ex)).ok = true := rfl
@[simp] theorem val_1 : ((1 : Ex)).val = 1 := rfl
@[simp] theorem ok_2 : ((2 : Ex)).ok = true := rfl
@[simp] theorem val_2 : ((2 : Ex)).val = 2 := rfl
@[simp] theorem ok_3 : ((3 : Ex)).ok = true := rfl
@[simp] theorem val_3 : ((3 : Ex)).val = 3 := rfl
@[simp] theorem ok_4 : ((4 : Ex)).ok = true := rfl
@[simp] theorem val_4 : ((4 : Ex)).val = 4 := rfl
@[simp] theorem val_n (k : ℕ) : (Ex.n k).val = k := rfl
@[simp] theorem val_add (a b : Ex) : (a + b).val = a.val + b.val := rfl
@[simp] theorem val_mul (a b : Ex) : (a * b).val = a.val * b.val := rfl
@[simp] theorem ok_add (a b : Ex) : (a + b).ok = true ↔ a.ok = true ∧ b.ok = true ∧ a.val + b.val < 2147483648 := by
  change (a.ok && b.ok && decide (a.val + b.val < 2 ^ 31)) = true ↔ _
  rw [Bool.and_eq_true, Bool.and_eq_true, decide_eq_true_eq, and_assoc]; norm_num
@[simp] theorem ok_mul (a b : Ex) : (a * b).ok = true ↔ a.ok = true ∧ b.ok = true ∧ a.val * b.val < 2147483648 := by
  change (a.ok && b.ok && decide (a.val * b.val < 2 ^ 31)) = true ↔ _
  rw [Bool.and_eq_true, Bool.and_eq_true, decide_eq_true_eq, and_assoc]; norm_num

theorem ev_iff (e : Ex) : ev e = some () ↔ e.ok = true := by
  unfold ev; split <;> simp_all

theorem ev_none (e : Ex) : ev e = none ↔ e.ok = false := by
  unfold ev; split <;> simp_all

theorem narrow_iff (k : ℕ) : narrow k = some () ↔ k < 2 ^ 31 := by
  unfold narrow; split <;> simp_all

theorem seq {a b : Option Unit} (ha : a = some ()) (hb : b = some ()) : (do a; b) = some () := by subst ha; exact hb

theorem seq_none {a b : Option Unit} (h : b = none) : (do a; b) = none := by subst h; cases a <;> rfl

theorem each_ok {n : ℕ} {f : ℕ → Option Unit} (h : ∀ i < n, f i = some ()) : each n f = some () :=
  loop_eq (fun _ => ()) (fun i hi => h i hi)

/-- A loop in which one iteration fails. -/
theorem each_none {n i : ℕ} {f : ℕ → Option Unit} (hi : i < n) (h : f i = none) : each n f = none := by
  cases e : each n f with
  | none => rfl
  | some u =>
    obtain ⟨t, t', ht⟩ := loop_some_imp e i hi
    rw [h] at ht
    exact absurd ht (by simp)

theorem inner_ok {n ij : ℕ} {f : ℕ → Option Unit} (h : ∀ k < n, f (ij + k) = some ()) (hb : ij + n < 2 ^ 31) :
    inner n f ij = some (ij + n) := by
  have := loop_eq (n := n) (body := fun (_ : ℕ) ij => (f ij).bind (fun _ => (ev ((ij : Ex) + 1)).bind (fun _ => some (ij + 1))))
    (fun k => ij + k) (fun k hk => by
      have h1 : ev (((ij + k : ℕ) : Ex) + 1) = some () := by
        rw [ev_iff]; simp; omega
      simp only [h k hk, h1, Option.bind_some]
      rfl)
  simpa [inner] using this

/-- Edges before node `i`. -/
abbrev pos (T : Sys) (i : ℕ) : ℕ := (T.nn.take i).sum

theorem pos_succ (T : Sys) {i : ℕ} (hi : i < T.nn.length) : pos T (i + 1) = pos T i + nthN T.nn i := by
  simp only [pos, nthN]
  rw [List.take_add_one, List.sum_append]
  simp [List.getElem?_eq_getElem hi]

theorem pos_le (T : Sys) {i : ℕ} (hi : i ≤ T.N) : pos T i ≤ T.E := by
  simp only [pos, Sys.E]
  conv_rhs => rw [← List.take_append_drop i (T.nn.take T.N), List.sum_append, List.take_take, min_eq_left hi]
  omega

theorem edges_ok {T : Sys} {pre post : ℕ → Option Unit} {g : ℕ → ℕ → Option Unit} (hn : T.N ≤ T.nn.length)
    (hE : T.E < 2 ^ 31) (hpre : ∀ i < T.N, pre i = some ()) (hg : ∀ i < T.N, ∀ e < T.E, g i e = some ())
    (hpost : ∀ i < T.N, post i = some ()) : edges T pre g post = some () := by
  have := loop_eq (n := T.N) (body := fun i ij => (do
    pre i
    let ij ← inner (nthN T.nn i) (g i) ij
    post i
    pure ij : Option ℕ)) (fun i => pos T i) (fun i hi => by
      have h1 := pos_succ T (i := i) (by omega)
      have h2 := pos_le T (i := i + 1) (by omega)
      have h3 : inner (nthN T.nn i) (g i) (pos T i) = some (pos T (i + 1)) := by
        rw [h1]
        exact inner_ok (fun k hk => hg i hi _ (by omega)) (by omega)
      simp only [hpre i hi, hpost i hi, h3]
      rfl)
  unfold edges
  rw [show (0 : ℕ) = pos T 0 from by simp [pos], this]
  rfl

end Verif.IntIndex
