import Verif.Lemmas.MACE.Adjoint

/-! # Stage lemmas: `compute_H1`, `reverse_H1`, `reverse_M0`, `reverse_M1` -/

namespace Verif.MACE
open Verif.Spec Verif.Blas

variable {K : Type} [Field K] {P : Params K} {W : Net K} {g : Graph K} {nT nP NH : ℕ}

theorem computeH1_spec (hw : WOk P W nT nP) {s : State K} {m : ℕ → ℕ → ℕ → K} (hM : s.M0 = T3 g.N W.LM W.C m) :
    computeH1 P g s = some { s with H1 := T3 g.N W.LM W.C (fun i LM k =>
      ∑ k' ∈ Finset.range W.C, m i LM k' * W.lin1 (Nat.sqrt LM) k' k) } := by
  unfold computeH1
  refine (bind_of_some ?_ _).trans rfl
  rw [hw.C, hw.LM, hw.Lmax]
  refine lmBlocks_full (L := W.Lmax) (M := W.LM) rfl (fun i hi l hl => ?_) (by rw [hM]; simp)
  refine gemm_lm_wr (L := W.Lmax) rfl (A := m i) (B := W.lin1 l) hi hl ?_ ?_ ?_
  · intro mm hmm k' hk'
    have : (i * W.LM + l * l) * W.C + (mm * W.C + k') = (i * W.LM + (l * l + mm)) * W.C + k' := by ring
    rw [this, hM]
    exact T3_get m hi (lm_lt hl hmm) hk'
  · intro k' hk' k hk
    simpa [mIdx] using hw.H1w l hl k' hk' k hk
  · intro lm k hlm hk
    rw [hlm]

theorem reverseH1_spec (hw : WOk P W nT nP) {s : State K} {m Ha : ℕ → ℕ → ℕ → K} (hM : s.M0 = T3 g.N W.LM W.C m)
    (hH : s.H1a = T3 NH W.LM W.C Ha) (hN : g.N ≤ NH) :
    reverseH1 P g s = some { s with M0a := T3 g.N W.LM W.C (fun i LM k =>
      ∑ k' ∈ Finset.range W.C, Ha i LM k' * W.lin1 (Nat.sqrt LM) k k') } := by
  unfold reverseH1
  refine (bind_of_some ?_ _).trans rfl
  rw [hw.C, hw.LM, hw.Lmax]
  refine lmBlocks_full (L := W.Lmax) (M := W.LM) rfl (fun i hi l hl => ?_) (by rw [hM]; simp)
  refine gemm_lm_wr (L := W.Lmax) rfl (A := Ha i) (B := fun k' k => W.lin1 l k k') hi hl ?_ ?_ ?_
  · intro mm hmm k' hk'
    have : (i * W.LM + l * l) * W.C + (mm * W.C + k') = (i * W.LM + (l * l + mm)) * W.C + k' := by ring
    rw [this, hH]
    exact T3_get Ha (by omega) (lm_lt hl hmm) hk'
  · intro k' hk' k hk
    simpa [mIdx] using hw.H1w l hl k hk k' hk'
  · intro lm k hlm hk
    rw [hlm]

theorem reverseM0_spec (hw : WOk P W nT nP) {s : State K} {A Ma : ℕ → ℕ → ℕ → K} {G : ℕ → ℕ → ℕ → ℕ → K}
    (hA : s.A0 = T3 g.N W.M W.C A) (hM : s.M0a = T3 g.N W.LM W.C Ma)
    (hG : ∀ i < g.N, ∀ LM < W.LM, ∀ lm < W.M, ∀ k < W.C,
      s.M0g[((i * W.LM + LM) * W.M + lm) * W.C + k]? = some (G i LM lm k)) :
    reverseM0 P g s = some { s with A0a := T3 g.N W.M W.C (fun i lm k =>
      ∑ LM ∈ Finset.range W.LM, G i LM lm k * Ma i LM k) } := by
  unfold reverseM0
  refine (bind_of_some ?_ _).trans rfl
  rw [hw.C, hw.LM, hw.M, hA, length_T3]
  have h1 : Adds (g.N * W.M * W.C) (loop g.N (fun i => loop W.M (fun lm => loop W.LM (fun lmp => loop W.C (fun k A =>
      (s.M0g[i * W.LM * W.M * W.C + lmp * W.M * W.C + lm * W.C + k]?).bind (fun d =>
        (s.M0a[i * W.LM * W.C + lmp * W.C + k]?).bind (fun a =>
          ad A (i * W.M * W.C + lm * W.C + k) (d * a))))))))
      (fun p => ∑ i ∈ Finset.range g.N, ∑ lm ∈ Finset.range W.M, ∑ lmp ∈ Finset.range W.LM, ∑ k ∈ Finset.range W.C,
        if p = (i * W.M + lm) * W.C + k then G i lmp lm k * Ma i lmp k else 0) := by
    refine Adds.loop (fun i hi => Adds.loop (fun lm hlm => Adds.loop (fun lmp hlmp => Adds.loop (fun k hk => ?_))))
    have e1 : i * W.LM * W.M * W.C + lmp * W.M * W.C + lm * W.C + k = ((i * W.LM + lmp) * W.M + lm) * W.C + k := by ring
    have e2 : i * W.LM * W.C + lmp * W.C + k = (i * W.LM + lmp) * W.C + k := by ring
    have e3 : i * W.M * W.C + lm * W.C + k = (i * W.M + lm) * W.C + k := by ring
    refine Adds.bindRead (by rw [e1]; exact hG i hi lmp hlmp lm hlm k hk)
      (Adds.bindRead (by rw [e2, hM]; exact T3_get Ma hi hlmp hk) ?_)
    rw [e3]
    exact Adds.ad (flat3_lt hi hlm hk) _
  refine h1.zero.trans ?_
  congr 1
  apply tab_eq_T3
  intro i0 hi0 lm0 hlm0 k0 hk0
  rw [Finset.sum_eq_single i0, Finset.sum_eq_single lm0]
  · refine Finset.sum_congr rfl (fun lmp _ => ?_)
    rw [sum_row_single hlm0 hlm0 hk0]
    simp
  · intro lm hlm hne
    refine Finset.sum_eq_zero (fun lmp _ => ?_)
    rw [sum_row_single (Finset.mem_range.mp hlm) hlm0 hk0, if_neg (by rintro ⟨_, rfl⟩; exact hne rfl)]
  · intro h; exact absurd (Finset.mem_range.mpr hlm0) h
  · intro i hi hne
    refine Finset.sum_eq_zero (fun lm hlm => Finset.sum_eq_zero (fun lmp _ => ?_))
    rw [sum_row_single (Finset.mem_range.mp hlm) hlm0 hk0, if_neg (by rintro ⟨rfl, _⟩; exact hne rfl)]
  · intro h; exact absurd (Finset.mem_range.mpr hi0) h

theorem reverseM1_spec (hw : WOk P W nT nP) {s : State K} {A G : ℕ → ℕ → ℕ → K} {Ma : ℕ → ℕ → K}
    (hA : s.A1 = T3 g.N W.M W.C A) (hM : s.M1a = tab2 g.N W.C Ma)
    (hG : ∀ i < g.N, ∀ lm < W.M, ∀ k < W.C, s.M1g[(i * W.M + lm) * W.C + k]? = some (G i lm k)) :
    reverseM1 P g s = some { s with A1a := T3 g.N W.M W.C (fun i lm k => G i lm k * Ma i k) } := by
  unfold reverseM1
  refine (bind_of_some ?_ _).trans rfl
  rw [hw.C, hw.M]
  have h1 : Wr (g.N * W.M * W.C) (loop g.N (fun i => loop W.M (fun lm => loop W.C (fun k A =>
      (s.M1g[(i * W.M + lm) * W.C + k]?).bind (fun d => (s.M1a[i * W.C + k]?).bind (fun a =>
        wr A ((i * W.M + lm) * W.C + k) (d * a)))))))
      (fun p => ∃ i < g.N, ∃ lm < W.M, ∃ k < W.C, p = (i * W.M + lm) * W.C + k)
      (dec3 W.M W.C (fun i lm k => G i lm k * Ma i k)) := by
    refine Writes.loop (fun i hi => Writes.loop (fun lm hlm => Writes.loop (fun k hk => ?_)))
    refine Writes.bindRead (hG i hi lm hlm k hk) (Writes.bindRead (by rw [hM]; exact getElem?_tab2 hi hk) ?_)
    exact Wr.wr (flat3_lt hi hlm hk) (dec3_flat _ hlm hk)
  refine h1.tab_of_all ?_ (by rw [hA]; simp)
  intro p hp
  obtain ⟨i, j, k, hi, hj, hk, e⟩ := flat3_decomp hp
  exact ⟨i, hi, j, hj, k, hk, e⟩

end Verif.MACE
