import Verif.Model.MACE
import Verif.Spec.MACEFile
import Verif.Lemmas.MACE.Setup

/-! # Loops of `load_from_json`: appending loops, nested counter loops -/

namespace Verif.MACE
open Verif.Spec

section append
variable {α : Type}

/-- Loop appending blocks of length `m`. -/
theorem append_loop {n m : ℕ} {body : ℕ → List α → Option (List α)} {Q : ℕ → α → Prop}
    (h : ∀ i < n, ∀ out, ∃ l, body i out = some (out ++ l) ∧ l.length = m ∧ ∀ j < m, ∃ a, l[j]? = some a ∧ Q (i * m + j) a)
    (out : List α) :
    ∃ l, loop n body out = some (out ++ l) ∧ l.length = n * m ∧ ∀ p < n * m, ∃ a, l[p]? = some a ∧ Q p a := by
  induction n with
  | zero => exact ⟨[], by simp, by simp, by simp⟩
  | succ n ih =>
    obtain ⟨l, h1, h2, h3⟩ := ih (fun i hi => h i (by omega))
    obtain ⟨l', k1, k2, k3⟩ := h n (by omega) (out ++ l)
    refine ⟨l ++ l', by rw [loop_succ, h1, Option.bind_some, k1, List.append_assoc], by
      rw [List.length_append, h2, k2, Nat.succ_mul], fun p hp => ?_⟩
    by_cases hl : p < n * m
    · rw [List.getElem?_append_left (by omega)]
      exact h3 p hl
    · rw [List.getElem?_append_right (by omega), h2]
      rw [Nat.succ_mul] at hp
      obtain ⟨a, e1, e2⟩ := k3 (p - n * m) (by omega)
      exact ⟨a, e1, by rwa [show n * m + (p - n * m) = p by omega] at e2⟩

theorem pushLoop_spec {n : ℕ} {f : ℕ → Option α} {Q : ℕ → α → Prop} (h : ∀ i < n, ∃ a, f i = some a ∧ Q i a) (out : List α) :
    ∃ l, pushLoop n f out = some (out ++ l) ∧ l.length = n ∧ ∀ i < n, ∃ a, l[i]? = some a ∧ Q i a := by
  have := append_loop (n := n) (m := 1) (body := fun i out => (f i).bind fun a => pure (out ++ [a])) (Q := Q) (fun i hi out => by
    obtain ⟨a, h1, h2⟩ := h i hi
    refine ⟨[a], by rw [h1]; rfl, rfl, fun j hj => ⟨a, ?_, ?_⟩⟩
    · obtain rfl : j = 0 := by omega
      rfl
    · rwa [show i * 1 + j = i by omega]) out
  rw [Nat.mul_one] at this
  exact this

end append

section nested
variable {α σ : Type}

/-- Run `b` on the elements of a list with a running counter. -/
def runL (b : α → ℕ → σ → Option σ) : List α → ℕ × σ → Option (ℕ × σ)
  | [], q => some q
  | x :: xs, q => (b x q.1 q.2).bind (fun s => runL b xs (q.1 + 1, s))

variable (b : α → ℕ → σ → Option σ)

theorem runL_append (l1 l2 : List α) (q : ℕ × σ) : runL b (l1 ++ l2) q = (runL b l1 q).bind (runL b l2) := by
  induction l1 generalizing q with
  | nil => rfl
  | cons x xs ih =>
    simp only [List.cons_append, runL]
    cases b x q.1 q.2 with
    | none => rfl
    | some s => simp [ih]

theorem loop_runL (n : ℕ) (f : ℕ → List α) (q : ℕ × σ) :
    loop n (fun i => runL b (f i)) q = runL b ((List.range n).flatMap f) q := by
  induction n with
  | zero => rfl
  | succ n ih =>
    rw [loop_succ, ih, List.range_succ, List.flatMap_append, runL_append]
    simp

theorem cnt_runL (n : ℕ) (f : ℕ → α) (q : ℕ × σ) :
    cnt n (fun k c s => b (f k) c s) q = runL b ((List.range n).map f) q := by
  unfold cnt
  induction n with
  | zero => rfl
  | succ n ih =>
    rw [loop_succ, ih, List.range_succ, List.map_append, runL_append]
    congr 1
    funext q
    simp only [List.map_cons, List.map_nil, runL]
    cases b (f n) q.1 q.2 <;> rfl

theorem runL_loop (d : α) (l : List α) (c : ℕ) (s : σ) :
    runL b l (c, s) = (loop l.length (fun q => b (l[q]?.getD d) (c + q)) s).map (fun s => (c + l.length, s)) := by
  induction l using List.reverseRecOn with
  | nil => simp [runL]
  | append_singleton l x ih =>
    rw [runL_append, ih, List.length_append, List.length_singleton, loop_succ]
    have e : loop l.length (fun q => b ((l ++ [x])[q]?.getD d) (c + q)) s = loop l.length (fun q => b (l[q]?.getD d) (c + q)) s :=
      loop_congr (body := fun q => b ((l ++ [x])[q]?.getD d) (c + q)) (body' := fun q => b (l[q]?.getD d) (c + q))
        (fun i hi s => by rw [List.getElem?_append_left hi]) s
    rw [e]
    cases loop l.length (fun q => b (l[q]?.getD d) (c + q)) s with
    | none => rfl
    | some s' =>
      simp only [Option.map_some, Option.bind_some, runL]
      rw [List.getElem?_append_right le_rfl, Nat.sub_self]
      simp only [List.getElem?_cons_zero, Option.getD_some]
      cases b x (c + l.length) s' <;> simp [add_assoc]

end nested

end Verif.MACE
