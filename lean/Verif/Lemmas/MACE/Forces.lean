import Verif.Lemmas.MACE.Setup

/-! # Accumulation of edge forces -/

namespace Verif.MACE
open Verif.Spec Verif.Blas

variable {K : Type} [Field K]

/-- The node an edge belongs to. -/
def own (nn : List ℕ) (N e : ℕ) : ℕ := Nat.findGreatest (fun i => off nn i ≤ e) N

theorem own_eq {nn : List ℕ} {N i e : ℕ} (hi : i < N) (he : e ∈ edges nn i) : own nn N e = i := by
  have h := Finset.mem_Ico.mp he
  unfold own
  rw [Nat.findGreatest_eq_iff]
  refine ⟨hi.le, fun _ => h.1, ?_⟩
  intro j hj _ hle
  have := off_mono nn (show i + 1 ≤ j from hj)
  omega

theorem own_spec {nn : List ℕ} {N e : ℕ} (he : e < off nn N) : own nn N e < N ∧ e ∈ edges nn (own nn N e) := by
  obtain ⟨i, hi, h⟩ := exists_owner he
  rw [own_eq hi h]
  exact ⟨hi, h⟩

/-- `v` on the edges of the first `N` nodes. -/
def onE (nn : List ℕ) (N : ℕ) (v : ℕ → ℕ → ℕ → K) (e a : ℕ) : K := if e < off nn N then v (own nn N e) e a else 0

theorem onE_add (nn : List ℕ) (N : ℕ) (v w : ℕ → ℕ → ℕ → K) (e a : ℕ) :
    onE nn N (fun i e a => v i e a + w i e a) e a = onE nn N v e a + onE nn N w e a := by
  unfold onE; split <;> simp

/-- Sum over all edges where only edge `e0` contributes. -/
theorem sum_edges_single {N : ℕ} {nn : List ℕ} {e0 : ℕ} (he : e0 < off nn N) (f : ℕ → ℕ → K)
    (h0 : ∀ i e, e ≠ e0 → f i e = 0) :
    ∑ i ∈ Finset.range N, ∑ e ∈ edges nn i, f i e = f (own nn N e0) e0 := by
  obtain ⟨h1, h2⟩ := own_spec he
  rw [Finset.sum_eq_single (own nn N e0), Finset.sum_eq_single e0]
  · intro e _ hne; exact h0 _ _ hne
  · intro h; exact absurd h2 h
  · intro i hi hne
    refine Finset.sum_eq_zero (fun e hme => h0 _ _ ?_)
    rintro rfl
    exact hne (edges_disj hme h2)
  · intro h; exact absurd (Finset.mem_range.mpr h1) h

theorem nodeEdges_forces {N : ℕ} {nn : List ℕ} {n : ℕ → ℕ} (hn : ∀ i < N, nn[i]? = some (n i))
    {body : ℕ → ℕ → List K → Option (List K)} {v : ℕ → ℕ → ℕ → K}
    {Ex : ℕ} (hE : off nn N ≤ Ex) (h : ∀ i < N, ∀ e ∈ edges nn i, Adds (Ex * 3) (body i e)
      (fun p => ∑ a ∈ Finset.range 3, if p = e * 3 + a then v i e a else 0)) (F0 : ℕ → ℕ → K) :
    loop N (fun i (q : ℕ × List K) => (nn[i]?).bind (fun n => edgesFrom n (body i) q)) (0, tab2 Ex 3 F0)
      = some (off nn N, tab2 Ex 3 (fun e a => F0 e a + onE nn N v e a)) := by
  rw [nodeEdges_adds hn h _ (by simp)]
  simp only [Option.some.injEq, Prod.mk.injEq, true_and]
  unfold tab2
  rw [tab_mapIdx]
  apply tab_congr
  intro p hp
  obtain ⟨e0, a0, he0, ha0, rfl⟩ := flat_decomp hp
  rw [flat_div ha0, flat_mod ha0]
  congr 1
  unfold onE
  split
  · rename_i he1
    rw [sum_edges_single he1 (fun i e => ∑ a ∈ Finset.range 3, if e0 * 3 + a0 = e * 3 + a then v i e a else 0)]
    · rw [Finset.sum_eq_single a0]
      · simp
      · intro b hb hne
        rw [if_neg]
        omega
      · intro h'; exact absurd (Finset.mem_range.mpr ha0) h'
    · intro i e hne
      refine Finset.sum_eq_zero (fun b hb => ?_)
      have := Finset.mem_range.mp hb
      rw [if_neg]
      omega
  · rename_i he1
    refine Finset.sum_eq_zero (fun i hi => Finset.sum_eq_zero (fun e hme => Finset.sum_eq_zero (fun b hb => ?_)))
    have h1 := (Finset.mem_Ico.mp hme).2
    have h2 := off_mono nn (show i + 1 ≤ N from Finset.mem_range.mp hi)
    have := Finset.mem_range.mp hb
    rw [if_neg]
    omega

end Verif.MACE
