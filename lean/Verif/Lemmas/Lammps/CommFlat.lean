import Verif.Lemmas.Lammps.Results

/-! # Communication on flat arrays of any length -/

namespace Verif

theorem loop_mul {σ : Type*} (n C : ℕ) (body : ℕ → ℕ → σ → Option σ) (s : σ) :
    loop n (fun i => loop C (body i)) s = loop (n * C) (fun p => body (p / C) (p % C)) s := by
  induction n with
  | zero => simp
  | succ n ih =>
    rw [loop_succ, ih, Nat.succ_mul, loop_add]
    congr 1
    funext s
    refine loop_congr (fun k hk s => ?_) s
    have hC : 0 < C := by omega
    rw [Nat.mul_comm n C, Nat.mul_add_div hC, Nat.div_eq_of_lt hk, Nat.add_zero, Nat.mul_add_mod, Nat.mod_eq_of_lt hk]

/-- Writing consecutive entries. -/
theorem loop_wr {α : Type*} {n o : ℕ} {g : ℕ → α} {v : ℕ → Option α} {s : List α} (hv : ∀ p < n, v p = some (g p))
    (hn : o + n ≤ s.length) : ∃ s', loop n (fun p s => (v p).bind (fun x => wr s (o + p) x)) s = some s' ∧ s'.length = s.length ∧
      (∀ p < n, s'[o + p]? = some (g p)) ∧ ∀ p, (p < o ∨ o + n ≤ p) → s'[p]? = s[p]? := by
  induction n with
  | zero => exact ⟨s, rfl, rfl, by omega, fun _ _ => rfl⟩
  | succ n ih =>
    obtain ⟨s', h1, h2, h3, h4⟩ := ih (fun p hp => hv p (by omega)) (by omega)
    refine ⟨s'.set (o + n) (g n), ?_, by simp [h2], fun p hp => ?_, fun p hp => ?_⟩
    · rw [loop_succ, h1, Option.bind_some, hv n (by omega), Option.bind_some, wr_eq _ (by omega)]
    · by_cases e : p = n
      · subst e; rw [List.getElem?_set_self (by omega)]
      · rw [List.getElem?_set_ne (by omega)]; exact h3 p (by omega)
    · rw [List.getElem?_set_ne (by omega)]; exact h4 p (by omega)

/-- Adding to entries in any order. -/
theorem loop_ad {n : ℕ} {g : ℕ → ℝ} {d : ℕ → ℕ} {v : ℕ → Option ℝ} {s : List ℝ} (hv : ∀ p < n, v p = some (g p))
    (hd : ∀ p < n, d p < s.length) : ∃ s', loop n (fun p s => (v p).bind (fun x => ad s (d p) x)) s = some s' ∧ s'.length = s.length ∧
      ∀ q, Spec.nth s' q = Spec.nth s q + ∑ p ∈ Finset.range n, if d p = q then g p else 0 := by
  induction n with
  | zero => exact ⟨s, rfl, rfl, by simp⟩
  | succ n ih =>
    obtain ⟨s', h1, h2, h3⟩ := ih (fun p hp => hv p (by omega)) (fun p hp => hd p (by omega))
    have hdn : d n < s'.length := by rw [h2]; exact hd n (by omega)
    refine ⟨s'.set (d n) (s'[d n] + g n), ?_, by simp [h2], fun q => ?_⟩
    · rw [loop_succ, h1, Option.bind_some, hv n (by omega), Option.bind_some]
      simp [ad, md, hdn]
    · rw [Finset.sum_range_succ, ← add_assoc, ← h3]
      unfold Spec.nth
      by_cases e : d n = q
      · subst e
        rw [List.getElem?_set_self hdn, List.getElem?_eq_getElem hdn]
        simp
      · rw [List.getElem?_set_ne e, if_neg e, add_zero]

namespace Lammps
open Verif.Spec

theorem packForward_flat {C n : ℕ} {list : List ℕ} {H buf : List ℝ} (hn : n ≤ list.length)
    (hl : ∀ ii < n, (nthN list ii + 1) * C ≤ H.length) (hb : n * C ≤ buf.length) :
    ∃ buf', packForward C n list H buf = some (n * C, buf') ∧ buf'.length = buf.length ∧
      (∀ p < n * C, buf'[p]? = some (nth H (nthN list (p / C) * C + p % C))) ∧ ∀ p, n * C ≤ p → buf'[p]? = buf[p]? := by
  obtain ⟨b', h1, h2, h3, h4⟩ := loop_wr (n := n * C) (o := 0) (s := buf)
    (g := fun p => nth H (nthN list (p / C) * C + p % C)) (v := fun p => H[nthN list (p / C) * C + p % C]?) (fun p hp => by
      have hC : 0 < C := Nat.pos_of_mul_pos_left (by omega : 0 < n * C)
      have h1 : p / C < n := Nat.div_lt_of_lt_mul (by rw [Nat.mul_comm]; exact hp)
      have := hl _ h1
      rw [Nat.succ_mul] at this
      exact get_nth (by have := Nat.mod_lt p hC; omega)) (by omega)
  refine ⟨b', ?_, h2, fun p hp => by simpa using h3 p hp, fun p hp => h4 p (by omega)⟩
  unfold packForward
  rw [loop_congr (body' := fun ii => loop C (fun k b => (H[nthN list ii * C + k]?).bind (fun v => wr b (ii * C + k) v)))
    (fun ii hii s => by rw [get_nthN (by omega)]; rfl), loop_mul]
  rw [loop_congr (body' := fun p s => (H[nthN list (p / C) * C + p % C]?).bind (fun x => wr s (0 + p) x)) (fun p _ s => by
    rw [Nat.zero_add, Nat.mul_comm (p / C) C, Nat.div_add_mod, Nat.mul_comm]), h1]
  rfl

theorem packReverse_flat {C n first : ℕ} {G buf : List ℝ} (hG : (first + n) * C ≤ G.length) (hb : n * C ≤ buf.length) :
    ∃ buf', packReverse C n first G buf = some (n * C, buf') ∧ buf'.length = buf.length ∧
      (∀ p < n * C, buf'[p]? = some (nth G (first * C + p))) ∧ ∀ p, n * C ≤ p → buf'[p]? = buf[p]? := by
  obtain ⟨b', h1, h2, h3, h4⟩ := loop_wr (n := n * C) (o := 0) (s := buf)
    (g := fun p => nth G (first * C + p)) (v := fun p => G[first * C + p]?) (fun p hp =>
      get_nth (by rw [Nat.add_mul] at hG; omega)) (by omega)
  refine ⟨b', ?_, h2, fun p hp => by simpa using h3 p hp, fun p hp => h4 p (by omega)⟩
  unfold packReverse
  rw [loop_mul n C (fun i k b => do
      let v ← G[(first + i) * C + k]?
      wr b (i * C + k) v)]
  rw [loop_congr (body' := fun p s => (G[first * C + p]?).bind (fun x => wr s (0 + p) x)) (fun p _ s => by
    have : p / C * C + p % C = p := by rw [Nat.mul_comm, Nat.div_add_mod]
    rw [Nat.zero_add, Nat.add_mul, Nat.add_assoc, this]
    rfl), h1]
  rfl

theorem unpackForward_flat {C n first : ℕ} {buf G : List ℝ} (hG : (first + n) * C ≤ G.length) (hb : n * C ≤ buf.length) :
    ∃ G', unpackForward C n first buf G = some G' ∧ G'.length = G.length ∧
      (∀ p < n * C, G'[first * C + p]? = some (nth buf p)) ∧ ∀ p, (p < first * C ∨ (first + n) * C ≤ p) → G'[p]? = G[p]? := by
  rw [Nat.add_mul] at hG ⊢
  obtain ⟨b', h1, h2, h3, h4⟩ := loop_wr (n := n * C) (o := first * C) (s := G)
    (g := fun p => nth buf p) (v := fun p => buf[p]?) (fun p hp => get_nth (by omega)) hG
  refine ⟨b', ?_, h2, h3, h4⟩
  unfold unpackForward
  rw [loop_mul n C (fun i k G => do
      let v ← buf[i * C + k]?
      wr G ((first + i) * C + k) v)]
  rw [loop_congr (body' := fun p s => (buf[p]?).bind (fun x => wr s (first * C + p) x)) (fun p _ s => by
    have : p / C * C + p % C = p := by rw [Nat.mul_comm, Nat.div_add_mod]
    rw [Nat.add_mul, Nat.add_assoc, this]
    rfl), h1]

theorem unpackReverse_flat {C n : ℕ} {list : List ℕ} {buf H : List ℝ} (hn : n ≤ list.length)
    (hl : ∀ ii < n, (nthN list ii + 1) * C ≤ H.length) (hb : n * C ≤ buf.length) :
    ∃ H', unpackReverse C n list buf H = some H' ∧ H'.length = H.length ∧
      ∀ q, nth H' q = nth H q + ∑ p ∈ Finset.range (n * C), if nthN list (p / C) * C + p % C = q then nth buf p else 0 := by
  obtain ⟨H', h1, h2, h3⟩ := loop_ad (n := n * C) (s := H) (g := fun p => nth buf p) (v := fun p => buf[p]?)
    (d := fun p => nthN list (p / C) * C + p % C) (fun p hp => get_nth (by omega)) (fun p hp => by
      have hC : 0 < C := Nat.pos_of_mul_pos_left (by omega : 0 < n * C)
      have h1 : p / C < n := Nat.div_lt_of_lt_mul (by rw [Nat.mul_comm]; exact hp)
      have := hl _ h1
      rw [Nat.succ_mul] at this
      have := Nat.mod_lt p hC
      omega)
  refine ⟨H', ?_, h2, h3⟩
  unfold unpackReverse
  rw [loop_congr (body' := fun ii => loop C (fun k H => (buf[ii * C + k]?).bind (fun v => ad H (nthN list ii * C + k) v)))
    (fun ii hii s => by rw [get_nthN (by omega)]; rfl), loop_mul]
  rw [loop_congr (body' := fun p s => (buf[p]?).bind (fun x => ad s (nthN list (p / C) * C + p % C) x)) (fun p _ s => by
    have : p / C * C + p % C = p := by rw [Nat.mul_comm, Nat.div_add_mod]
    rw [this]), h1]

end Lammps
end Verif
