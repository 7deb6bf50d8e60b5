import Verif.Base.Loop
import Mathlib.Algebra.Order.BigOperators.Group.List

/-!
# Loops over the edges of a neighbour list

The C++ loops number the edges with a running counter `ij` that is incremented inside the loop over the
neighbours of each node.  These rules replace the counter by its value `off num_neigh i + j`.
-/

namespace Verif

/-- Number of edges of the nodes before `i`. -/
def off (nn : List ℕ) (i : ℕ) : ℕ := (nn.take i).sum

/-- `for (j<n) { body(ij); ij += 1; }` with the counter `ij` in the state. -/
def edgesFrom {σ : Type*} (n : ℕ) (body : ℕ → σ → Option σ) (p : ℕ × σ) : Option (ℕ × σ) :=
  loop n (fun _ (q : ℕ × σ) => (body q.1 q.2).map (fun s => (q.1 + 1, s))) p

theorem edgesFrom_eq {σ : Type*} (n : ℕ) (body : ℕ → σ → Option σ) (ij : ℕ) (s : σ) :
    edgesFrom n body (ij, s) = (loop n (fun j => body (ij + j)) s).map (fun s => (ij + n, s)) := by
  unfold edgesFrom
  induction n with
  | zero => simp
  | succ n ih =>
    rw [loop_succ, loop_succ, ih]
    cases loop n (fun j => body (ij + j)) s with
    | none => rfl
    | some s' => simp [add_assoc]

theorem off_zero (nn : List ℕ) : off nn 0 = 0 := by simp [off]

theorem off_succ {nn : List ℕ} {i n : ℕ} (h : nn[i]? = some n) : off nn (i + 1) = off nn i + n := by
  unfold off
  rw [List.take_add_one, h]
  simp

theorem off_mono (nn : List ℕ) {i j : ℕ} (h : i ≤ j) : off nn i ≤ off nn j := by
  induction j, h using Nat.le_induction with
  | base => exact le_rfl
  | succ j _ ih =>
    cases hn : nn[j]? with
    | none =>
      have : nn.length ≤ j := List.getElem?_eq_none_iff.mp hn
      have e : off nn (j + 1) = off nn j := by
        unfold off
        rw [List.take_of_length_le this, List.take_of_length_le (by omega)]
      omega
    | some n => rw [off_succ hn]; omega

/-- Edge `off i + j` of node `i` is below the total. -/
theorem off_add_lt {nn : List ℕ} {N i n j : ℕ} (hi : i < N) (h : nn[i]? = some n) (hj : j < n) :
    off nn i + j < off nn N := by
  have := off_mono nn (show i + 1 ≤ N from hi)
  rw [off_succ h] at this
  omega

/-- Every edge number belongs to exactly one node. -/
theorem exists_edge {nn : List ℕ} {N e : ℕ} (hN : N ≤ nn.length) (he : e < off nn N) :
    ∃ i n j, i < N ∧ nn[i]? = some n ∧ j < n ∧ e = off nn i + j := by
  induction N with
  | zero => simp [off_zero] at he
  | succ N ih =>
    have hn : nn[N]? = some nn[N] := List.getElem?_eq_getElem (by omega)
    by_cases h : e < off nn N
    · obtain ⟨i, n, j, hi, h1, h2, h3⟩ := ih (by omega) h
      exact ⟨i, n, j, by omega, h1, h2, h3⟩
    · rw [off_succ hn] at he
      exact ⟨N, _, e - off nn N, by omega, hn, by omega, by omega⟩

theorem edge_unique {nn : List ℕ} {i i' n n' j j' : ℕ} (h : nn[i]? = some n) (h' : nn[i']? = some n')
    (hj : j < n) (hj' : j' < n') (he : off nn i + j = off nn i' + j') : i = i' ∧ j = j' := by
  rcases lt_trichotomy i i' with hlt | rfl | hlt
  · have := off_mono nn (show i + 1 ≤ i' from hlt)
    rw [off_succ h] at this; omega
  · exact ⟨rfl, by omega⟩
  · have := off_mono nn (show i' + 1 ≤ i from hlt)
    rw [off_succ h'] at this; omega

/-- Node loop with the edge counter in the state. -/
theorem nodeLoop_eq {σ : Type*} {N : ℕ} {nn : List ℕ} {body : ℕ → ℕ × σ → Option (ℕ × σ)}
    {B : ℕ → σ → Option σ}
    (h : ∀ i < N, ∀ s, body i (off nn i, s) = (B i s).map (fun s => (off nn (i + 1), s))) (s : σ) :
    loop N body (0, s) = (loop N B s).map (fun s => (off nn N, s)) := by
  induction N with
  | zero => simp [off_zero]
  | succ N ih =>
    rw [loop_succ, loop_succ, ih (fun i hi => h i (Nat.lt_succ_of_lt hi))]
    cases loop N B s with
    | none => rfl
    | some s' => exact h N (Nat.lt_succ_self N) s'

theorem option_map_id_of {K : Type*} {f : K → K} (h : ∀ x, f x = x) (o : Option K) : o.map f = o := by
  cases o <;> simp [h]

/-- Iterated double loop over all edges where only edge `(i0, j0)` acts on the cell. -/
theorem iter_edge {K : Type*} {nn : List ℕ} {N i0 n0 j0 : ℕ} (hi0 : i0 < N) (h0 : nn[i0]? = some n0)
    (hj0 : j0 < n0) {n : ℕ → ℕ} (hn : ∀ i < N, nn[i]? = some (n i)) {G : ℕ → ℕ → K → K}
    (hG : ∀ i < N, ∀ j < n i, off nn i + j ≠ off nn i0 + j0 → ∀ x, G i j x = x) (x : K) :
    iter N (fun i => iter (n i) (G i)) x = G i0 j0 x := by
  have e0 : n i0 = n0 := Option.some.inj ((hn i0 hi0).symm.trans h0)
  rw [iter_single i0 hi0, e0]
  · rw [iter_single j0 hj0]
    intro j hj hne x
    exact hG i0 hi0 j (e0 ▸ hj) (by omega) x
  · intro i hi hne x
    apply iter_id
    intro j hj x
    refine hG i hi j hj ?_ x
    intro he
    exact hne (edge_unique (hn i hi) h0 hj hj0 he).1

end Verif
