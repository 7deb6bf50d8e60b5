import Verif.Lemmas.MACE.Adjoint

/-! # Stage lemmas: `compute_A1`, `reverse_A1` -/

namespace Verif

/-- Simulation of a loop by a loop on a smaller state. -/
theorem loop_sim {σ τ : Type*} {n : ℕ} {body : ℕ → τ → Option τ} {B : ℕ → σ → Option σ} (inj : ℕ → σ → τ)
    (h : ∀ i < n, ∀ s, body i (inj i s) = (B i s).map (inj (i + 1))) (s : σ) :
    loop n body (inj 0 s) = (loop n B s).map (inj n) := by
  induction n with
  | zero => rfl
  | succ n ih =>
    rw [loop_succ, loop_succ, ih (fun i hi => h i (Nat.lt_succ_of_lt hi))]
    cases loop n B s with
    | none => rfl
    | some s' => exact h n (Nat.lt_succ_self n) s'

end Verif

namespace Verif.MACE
open Verif.Spec Verif.Blas

variable {K : Type} [Field K] {P : Params K} {W : Net K} {g : Graph K} {nT nP : ℕ}

theorem base_succ (W : Net K) (l : ℕ) : W.base (l + 1) = W.base l + (2 * l + 1) * W.nE l := by
  unfold Net.base; rw [Finset.sum_range_succ]

theorem base_mono (W : Net K) {l l' : ℕ} (h : l ≤ l') : W.base l ≤ W.base l' := by
  unfold Net.base
  exact Finset.sum_le_sum_of_subset (Finset.range_mono h)

theorem out_lt (W : Net K) {l mm e : ℕ} (hl : l < W.lmax + 1) (hmm : mm < 2 * l + 1) (he : e < W.nE l) :
    W.base l + mm * W.nE l + e < W.nOut := by
  have h1 : W.base (l + 1) ≤ W.nOut := base_mono W hl
  have h2 := flat_lt hmm he
  rw [base_succ] at h1
  omega

/-- Angular momentum of output index `o`. -/
def outL (W : Net K) (o : ℕ) : ℕ := Nat.findGreatest (fun l => W.base l ≤ o) W.lmax

theorem outL_eq (W : Net K) {l mm e : ℕ} (hl : l < W.lmax + 1) (hmm : mm < 2 * l + 1) (he : e < W.nE l) :
    outL W (W.base l + mm * W.nE l + e) = l := by
  unfold outL
  rw [Nat.findGreatest_eq_iff]
  refine ⟨by omega, fun _ => by omega, ?_⟩
  intro j hj _ hle
  have h1 := base_mono W (show l + 1 ≤ j from hj)
  rw [base_succ] at h1
  have := flat_lt hmm he
  omega

theorem out_decomp (W : Net K) {o : ℕ} (ho : o < W.nOut) :
    ∃ l mm e, l < W.lmax + 1 ∧ mm < 2 * l + 1 ∧ e < W.nE l ∧ o = W.base l + mm * W.nE l + e := by
  have h0 : W.base (outL W o) ≤ o := by
    refine Nat.findGreatest_spec (P := fun l => W.base l ≤ o) (m := 0) (by omega) ?_
    unfold Net.base; simp
  have hL : outL W o ≤ W.lmax := Nat.findGreatest_le _
  have h1 : o < W.base (outL W o + 1) := by
    by_contra hc
    by_cases hlt : outL W o + 1 ≤ W.lmax
    · have := Nat.le_findGreatest (P := fun l => W.base l ≤ o) hlt (by omega)
      unfold outL at *
      omega
    · have : outL W o = W.lmax := by omega
      rw [this] at hc
      exact hc ho
  rw [base_succ] at h1
  obtain ⟨mm, e, hmm, he, heq⟩ := flat_decomp (p := o - W.base (outL W o)) (A := 2 * outL W o + 1) (C := W.nE (outL W o)) (by omega)
  exact ⟨outL W o, mm, e, by omega, hmm, he, by omega⟩

/-- `dPhi1` from `A1_adj`. -/
def phi1a (W : Net K) (A : ℕ → ℕ → ℕ → K) (i o k' : ℕ) : K :=
  ∑ k ∈ Finset.range W.C, A i (outL W o * outL W o + (o - W.base (outL W o)) / W.nE (outL W o)) k
    * W.mix1 (outL W o) ((o - W.base (outL W o)) % W.nE (outL W o)) k' k

theorem phi1a_eq (W : Net K) (A : ℕ → ℕ → ℕ → K) {l mm e : ℕ} (hl : l < W.lmax + 1) (hmm : mm < 2 * l + 1) (he : e < W.nE l)
    (i k' : ℕ) : phi1a W A i (W.base l + mm * W.nE l + e) k' =
      ∑ k ∈ Finset.range W.C, A i (l * l + mm) k * W.mix1 l e k' k := by
  unfold phi1a
  rw [outL_eq W hl hmm he, add_assoc, Nat.add_sub_cancel_left, flat_div he, flat_mod he]

theorem sum_sq (l C : ℕ) : ∑ l' ∈ Finset.range l, (2 * l' + 1) * C = l * l * C := by
  induction l with
  | zero => simp
  | succ l ih => rw [Finset.sum_range_succ, ih]; ring

theorem sum_base (W : Net K) (l : ℕ) : ∑ l' ∈ Finset.range l, (2 * l' + 1) * W.nE l' * W.C = W.base l * W.C := by
  unfold Net.base; rw [Finset.sum_mul]

theorem computeA1_spec (hw : WOk P W nT nP) {s : State K} {p : ℕ → ℕ → ℕ → K} (hp : s.Phi1 = T3 g.N W.nOut W.C p) :
    computeA1 P g s = some { s with A1 := T3 g.N W.M W.C (fun i lm k =>
      ∑ e ∈ Finset.range (W.nE (Nat.sqrt lm)), ∑ k' ∈ Finset.range W.C,
        p i (W.base (Nat.sqrt lm) + (lm - Nat.sqrt lm * Nat.sqrt lm) * W.nE (Nat.sqrt lm) + e) k'
          * W.mix1 (Nat.sqrt lm) e k' k) } := by
  unfold computeA1
  refine (bind_of_some hw.numE _).trans ?_
  refine (bind_of_some (a := T3 g.N W.M W.C (fun i lm k =>
      ∑ e ∈ Finset.range (W.nE (Nat.sqrt lm)), ∑ k' ∈ Finset.range W.C,
        p i (W.base (Nat.sqrt lm) + (lm - Nat.sqrt lm * Nat.sqrt lm) * W.nE (Nat.sqrt lm) + e) k'
          * W.mix1 (Nat.sqrt lm) e k' k)) ?_ _).trans rfl
  simp only [hw.C, hw.M, hw.lmax, hw.nOut']
  have key : loop g.N (fun i => loop (W.lmax + 1) (fun l A => ((tab (W.lmax + 1) W.nE)[l]?).bind (fun e => (P.A1w[l]?).bind (fun w =>
      gemm false false (2 * l + 1) W.C (e * W.C) 1 s.Phi1 (i * W.nOut * W.C + W.base l * W.C) (e * W.C) w 0 W.C 0
        ((i * W.M + l * l) * W.C) W.C A)))) (resize s.A1 (g.N * W.M * W.C)) = some (T3 g.N W.M W.C (fun i lm k =>
      ∑ e ∈ Finset.range (W.nE (Nat.sqrt lm)), ∑ k' ∈ Finset.range W.C,
        p i (W.base (Nat.sqrt lm) + (lm - Nat.sqrt lm * Nat.sqrt lm) * W.nE (Nat.sqrt lm) + e) k'
          * W.mix1 (Nat.sqrt lm) e k' k)) := by
    refine lmBlocks_full (L := W.lmax) (M := W.M) rfl (fun i hi l hl => ?_) (by simp)
    obtain ⟨w, h1, h2⟩ := hw.A1w l hl
    refine Writes.bindRead (getElem?_tab_lt hl) (Writes.bindRead h1 ?_)
    refine gemm_wr (A := fun mm q => p i (W.base l + mm * W.nE l + q / W.C) (q % W.C))
      (B := fun q k => W.mix1 l (q / W.C) (q % W.C) k) ?_ ?_ ?_ ?_
    · intro mm hmm q hq
      obtain ⟨e, k', he, hk', rfl⟩ := flat_decomp hq
      beta_reduce
      rw [flat_div hk', flat_mod hk', hp]
      have : mIdx false (i * W.nOut * W.C + W.base l * W.C) (W.nE l * W.C) mm (e * W.C + k')
          = (i * W.nOut + (W.base l + mm * W.nE l + e)) * W.C + k' := by
        simp only [mIdx]; simp; ring
      rw [this]
      exact T3_get p hi (out_lt W hl hmm he) hk'
    · intro q hq k hk
      obtain ⟨e, k', he, hk', rfl⟩ := flat_decomp hq
      beta_reduce
      rw [flat_div hk', flat_mod hk']
      simpa [mIdx] using h2 e he k' hk' k hk
    · have h5 : l * l + 2 * l < W.M := lm_lt hl (show 2 * l < 2 * l + 1 by omega)
      calc (i * W.M + l * l) * W.C + (2 * l + 1) * W.C = (i * W.M + (l * l + (2 * l + 1))) * W.C := by ring
        _ ≤ ((i + 1) * W.M) * W.C := Nat.mul_le_mul_right _ (by rw [Nat.succ_mul i]; omega)
        _ ≤ g.N * W.M * W.C := Nat.mul_le_mul_right _ (Nat.mul_le_mul_right _ hi)
    · intro mm hmm k hk
      have hlm : l * l + mm < W.M := lm_lt hl hmm
      have : (i * W.M + l * l) * W.C + (mm * W.C + k) = (i * W.M + (l * l + mm)) * W.C + k := by ring
      rw [this, dec3_flat _ hlm hk, sqrt_lm hmm, Nat.add_sub_cancel_left, sum_flat]
      refine Finset.sum_congr rfl (fun e _ => Finset.sum_congr rfl (fun k' hk' => ?_))
      rw [flat_div (Finset.mem_range.mp hk'), flat_mod (Finset.mem_range.mp hk')]
  rw [← key]
  refine loop_congr (fun i hi A => ?_) _
  have := loop_sim (n := W.lmax + 1) (σ := List K) (τ := ℕ × ℕ × List K)
    (fun l A => (i * W.nOut * W.C + ∑ l' ∈ Finset.range l, (2 * l' + 1) * W.nE l' * W.C,
      i * W.M * W.C + ∑ l' ∈ Finset.range l, (2 * l' + 1) * W.C, A))
    (body := fun l (q : ℕ × ℕ × List K) => ((tab (W.lmax + 1) W.nE)[l]?).bind (fun e => (P.A1w[l]?).bind (fun w =>
      (gemm false false (2 * l + 1) W.C (e * W.C) 1 s.Phi1 q.1 (e * W.C) w 0 W.C 0 q.2.1 W.C q.2.2).bind (fun A =>
        pure (q.1 + (2 * l + 1) * e * W.C, q.2.1 + (2 * l + 1) * W.C, A)))))
    (B := fun l A => ((tab (W.lmax + 1) W.nE)[l]?).bind (fun e => (P.A1w[l]?).bind (fun w =>
      gemm false false (2 * l + 1) W.C (e * W.C) 1 s.Phi1 (i * W.nOut * W.C + W.base l * W.C) (e * W.C) w 0 W.C 0
        ((i * W.M + l * l) * W.C) W.C A))) (fun l hl A => ?_) A
  · simp only [Finset.sum_range_zero, add_zero] at this
    refine (congrArg (fun o => Option.bind o _) this).trans ?_
    rw [Option.bind_map]
    exact Option.bind_fun_some _
  · obtain ⟨w, h1, h2⟩ := hw.A1w l hl
    beta_reduce
    rw [getElem?_tab_lt hl, Option.bind_some, Option.bind_some, h1, Option.bind_some, Option.bind_some]
    dsimp only
    rw [Finset.sum_range_succ, Finset.sum_range_succ, sum_sq, sum_base, ← add_assoc, ← add_assoc,
      show i * W.M * W.C + l * l * W.C = (i * W.M + l * l) * W.C by ring]
    cases gemm false false (2 * l + 1) W.C (W.nE l * W.C) 1 s.Phi1 (i * W.nOut * W.C + W.base l * W.C) (W.nE l * W.C) w 0 W.C 0
        ((i * W.M + l * l) * W.C) W.C A <;> rfl

theorem reverseA1_spec (hw : WOk P W nT nP) {s : State K} {p A : ℕ → ℕ → ℕ → K} (hp : s.Phi1 = T3 g.N W.nOut W.C p)
    (hA : s.A1a = T3 g.N W.M W.C A) :
    reverseA1 P g s = some { s with dPhi1 := T3 g.N W.nOut W.C (phi1a W A) } := by
  unfold reverseA1
  refine (bind_of_some hw.numE _).trans ?_
  refine (bind_of_some (a := T3 g.N W.nOut W.C (phi1a W A)) ?_ _).trans rfl
  simp only [hw.C, hw.M, hw.lmax, hw.nOut']
  have key : loop g.N (fun i => loop (W.lmax + 1) (fun l D => ((tab (W.lmax + 1) W.nE)[l]?).bind (fun e => (P.A1w[l]?).bind (fun w =>
      gemm false true (2 * l + 1) (e * W.C) W.C 1 s.A1a ((i * W.M + l * l) * W.C) W.C w 0 W.C 0
        (i * W.nOut * W.C + W.base l * W.C) (e * W.C) D)))) (resize s.dPhi1 s.Phi1.length)
      = some (T3 g.N W.nOut W.C (phi1a W A)) := by
    refine Wr.tab_of_all (L := g.N * W.nOut * W.C) (S := fun q => ∃ i < g.N, ∃ l < W.lmax + 1,
      i * W.nOut * W.C + W.base l * W.C ≤ q ∧ q < i * W.nOut * W.C + W.base l * W.C + (2 * l + 1) * (W.nE l * W.C))
      (Writes.loop (fun i hi => Writes.loop (fun l hl => ?_))) ?_ (by rw [hp]; simp)
    · obtain ⟨w, h1, h2⟩ := hw.A1w l hl
      refine Writes.bindRead (getElem?_tab_lt hl) (Writes.bindRead h1 ?_)
      refine gemm_wr (A := fun mm k => A i (l * l + mm) k) (B := fun k q => W.mix1 l (q / W.C) (q % W.C) k) ?_ ?_ ?_ ?_
      · intro mm hmm k hk
        have : mIdx false ((i * W.M + l * l) * W.C) W.C mm k = (i * W.M + (l * l + mm)) * W.C + k := by
          simp only [mIdx]; simp; ring
        rw [this, hA]
        exact T3_get A hi (lm_lt hl hmm) hk
      · intro k hk q hq
        obtain ⟨e, k', he, hk', rfl⟩ := flat_decomp hq
        beta_reduce
        rw [flat_div hk', flat_mod hk']
        simpa [mIdx] using h2 e he k' hk' k hk
      · have h1 : W.base (l + 1) ≤ W.nOut := base_mono W hl
        rw [base_succ] at h1
        calc i * W.nOut * W.C + W.base l * W.C + (2 * l + 1) * (W.nE l * W.C)
            = (i * W.nOut + (W.base l + (2 * l + 1) * W.nE l)) * W.C := by ring
          _ ≤ ((i + 1) * W.nOut) * W.C := Nat.mul_le_mul_right _ (by rw [Nat.succ_mul i]; omega)
          _ ≤ g.N * W.nOut * W.C := Nat.mul_le_mul_right _ (Nat.mul_le_mul_right _ hi)
      · intro mm hmm q hq
        obtain ⟨e, k', he, hk', rfl⟩ := flat_decomp hq
        have : i * W.nOut * W.C + W.base l * W.C + (mm * (W.nE l * W.C) + (e * W.C + k'))
            = (i * W.nOut + (W.base l + mm * W.nE l + e)) * W.C + k' := by ring
        rw [this, dec3_flat _ (out_lt W hl hmm he) hk', phi1a_eq W A hl hmm he]
        beta_reduce
        rw [flat_div hk', flat_mod hk']
    · intro q hq
      obtain ⟨i, o, k', hi, ho, hk', rfl⟩ := flat3_decomp hq
      obtain ⟨l, mm, e, hl, hmm, he, rfl⟩ := out_decomp W ho
      refine ⟨i, hi, l, hl, ?_⟩
      have h1 := flat_lt hmm (flat_lt he hk')
      have h2 : (i * W.nOut + (W.base l + mm * W.nE l + e)) * W.C + k'
          = i * W.nOut * W.C + W.base l * W.C + (mm * (W.nE l * W.C) + (e * W.C + k')) := by ring
      omega
  rw [← key]
  refine loop_congr (fun i hi D => ?_) _
  have := loop_sim (n := W.lmax + 1) (σ := List K) (τ := ℕ × ℕ × List K)
    (fun l A => (i * W.M * W.C + ∑ l' ∈ Finset.range l, (2 * l' + 1) * W.C,
      i * W.nOut * W.C + ∑ l' ∈ Finset.range l, (2 * l' + 1) * W.nE l' * W.C, A))
    (body := fun l (q : ℕ × ℕ × List K) => ((tab (W.lmax + 1) W.nE)[l]?).bind (fun e => (P.A1w[l]?).bind (fun w =>
      (gemm false true (2 * l + 1) (e * W.C) W.C 1 s.A1a q.1 W.C w 0 W.C 0 q.2.1 (e * W.C) q.2.2).bind (fun A =>
        pure (q.1 + (2 * l + 1) * W.C, q.2.1 + (2 * l + 1) * e * W.C, A)))))
    (B := fun l D => ((tab (W.lmax + 1) W.nE)[l]?).bind (fun e => (P.A1w[l]?).bind (fun w =>
      gemm false true (2 * l + 1) (e * W.C) W.C 1 s.A1a ((i * W.M + l * l) * W.C) W.C w 0 W.C 0
        (i * W.nOut * W.C + W.base l * W.C) (e * W.C) D))) (fun l hl A => ?_) D
  · simp only [Finset.sum_range_zero, add_zero] at this
    refine (congrArg (fun o => Option.bind o _) this).trans ?_
    rw [Option.bind_map]
    exact Option.bind_fun_some _
  · obtain ⟨w, h1, h2⟩ := hw.A1w l hl
    beta_reduce
    rw [getElem?_tab_lt hl, Option.bind_some, Option.bind_some, h1, Option.bind_some, Option.bind_some]
    dsimp only
    rw [Finset.sum_range_succ, Finset.sum_range_succ, sum_sq, sum_base, ← add_assoc, ← add_assoc,
      show i * W.M * W.C + l * l * W.C = (i * W.M + l * l) * W.C by ring]
    cases gemm false true (2 * l + 1) (W.nE l * W.C) W.C 1 s.A1a ((i * W.M + l * l) * W.C) W.C w 0 W.C 0
        (i * W.nOut * W.C + W.base l * W.C) (W.nE l * W.C) A <;> rfl

end Verif.MACE
