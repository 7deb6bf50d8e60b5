import Verif.Lemmas.MACE.A1
import Verif.Lemmas.MACE.Phi1

/-! # Stage lemmas: `compute_H2`, `reverse_H2`, `compute_readouts` -/

namespace Verif

/-- A loop on a pair that runs two independent bodies. -/
theorem loop_pair {α β : Type*} {n : ℕ} {body : ℕ → α × β → Option (α × β)} {f : ℕ → α → Option α} {g : ℕ → β → Option β}
    (h : ∀ i < n, ∀ a b a' b', f i a = some a' → g i b = some b' → body i (a, b) = some (a', b'))
    {a a' : α} {b b' : β} (hf : loop n f a = some a') (hg : loop n g b = some b') :
    loop n body (a, b) = some (a', b') := by
  induction n generalizing a' b' with
  | zero =>
    simp only [loop_zero, Option.some.injEq] at hf hg ⊢
    rw [hf, hg]
  | succ n ih =>
    rw [loop_succ] at hf hg ⊢
    obtain ⟨a1, h1, h2⟩ := Option.bind_eq_some_iff.mp hf
    obtain ⟨b1, k1, k2⟩ := Option.bind_eq_some_iff.mp hg
    rw [ih (fun i hi => h i (Nat.lt_succ_of_lt hi)) h1 k1]
    exact h n (Nat.lt_succ_self n) _ _ _ _ h2 k2

end Verif

namespace Verif.MACE
open Verif.Spec Verif.Blas

variable {K : Type} [Field K] {P : Params K} {W : Net K} {g : Graph K} {nT nP NH : ℕ}
  {c : Conf K} {n : ℕ → ℕ} {X : ℕ → ℕ → K} {R : ℕ → K}

theorem T3_get0 {n1 n2 n3 i k : ℕ} (f : ℕ → ℕ → ℕ → K) (hi : i < n1) (h2 : 0 < n2) (hk : k < n3) :
    (T3 n1 n2 n3 f)[i * n2 * n3 + k]? = some (f i 0 k) := by
  have := T3_get f hi h2 hk
  rwa [add_zero] at this

theorem LM_pos (W : Net K) : 0 < W.LM := Nat.mul_pos (Nat.succ_pos _) (Nat.succ_pos _)

theorem computeH2_spec (hw : WOk P W nT nP) (hg : GOk g nT NH c n X R) (hN : g.N ≤ NH) {s : State K}
    {H : ℕ → ℕ → ℕ → K} {m : ℕ → ℕ → K} (hH : s.H1 = T3 NH W.LM W.C H) (hM : s.M1 = tab2 g.N W.C m) :
    computeH2 P g s = some { s with H2 := tab2 g.N W.C (fun i k =>
      (∑ k' ∈ Finset.range W.C, H i 0 k' * W.lin2h (c.typ i) k' k)
        + ∑ k' ∈ Finset.range W.C, m i k' * W.lin2m k' k) } := by
  unfold computeH2
  refine (bind_of_some ?_ _).trans rfl
  simp only [hw.C, hw.LM]
  refine Wr.tab_of_all (S := fun q => ∃ i < g.N, i * W.C ≤ q ∧ q < i * W.C + W.C) (Writes.loop (fun i hi => ?_)) ?_ (by simp)
  · obtain ⟨w, h1, h2⟩ := hw.H2wH1 _ (hg.typ_lt i hi)
    refine Writes.bindRead (hg.types i hi) (Writes.bindRead h1 ?_)
    have hL : i * W.C + W.C ≤ g.N * W.C := by
      rw [← Nat.succ_mul i]; exact Nat.mul_le_mul_right _ hi
    have r1 := gemv_acts (K := K) (r := W.C) (c := W.C) (tr := true) (m := W.C) (n := W.C) (alpha := 1) (a := w) (lda := W.C) (x := s.H1)
      (xoff := i * W.LM * W.C) (beta := 0) (yoff := i * W.C) (L := g.N * W.C) rfl rfl
      (A := fun k k' => W.lin2h (c.typ i) k' k) (X := fun k' => H i 0 k')
      (fun k hk k' hk' => by simpa [mIdx] using h2 k' hk' k hk)
      (fun k' hk' => by rw [hH]; exact T3_get0 H (by omega) (LM_pos W) hk') hL
    have r2 := gemv_acts (K := K) (r := W.C) (c := W.C) (tr := true) (m := W.C) (n := W.C) (alpha := 1) (a := P.H2wM1) (lda := W.C) (x := s.M1)
      (xoff := i * W.C) (beta := 1) (yoff := i * W.C) (L := g.N * W.C) rfl rfl
      (A := fun k k' => W.lin2m k' k) (X := fun k' => m i k')
      (fun k hk k' hk' => by simpa [mIdx] using hw.H2wM1 k' hk' k hk)
      (fun k' hk' => by rw [hM, getElem?_tab2 hi hk']) hL
    refine Wr.of_acts (r1.bind r2) (fun p hp => by omega) (fun p hp x => ?_) (fun p _ hp x => ?_)
    · obtain ⟨k, hk, rfl⟩ : ∃ k < W.C, p = i * W.C + k := ⟨p - i * W.C, by omega, by omega⟩
      rw [if_pos hp, if_pos hp, Nat.add_sub_cancel_left, flat_div hk, flat_mod hk]
      simp only [one_mul, zero_mul, add_zero]
      rw [add_comm]
      congr 1 <;> exact Finset.sum_congr rfl (fun k' _ => mul_comm _ _)
    · rw [if_neg hp, if_neg hp]
  · intro p hp
    obtain ⟨i, k, hi, hk, rfl⟩ := flat_decomp hp
    exact ⟨i, hi, by omega, by omega⟩

theorem reverseH2_spec (hw : WOk P W nT nP) (hg : GOk g nT NH c n X R) (hN : g.N ≤ NH) {s : State K}
    {H Ha : ℕ → ℕ → ℕ → K} {m Ga : ℕ → ℕ → K} (hH : s.H1 = T3 NH W.LM W.C H) (hM : s.M1 = tab2 g.N W.C m)
    (hG : s.H2a = tab2 g.N W.C Ga) (zh : Bool)
    (hHa : (zh = true ∧ Ha = fun _ _ _ => 0) ∨ (zh = false ∧ s.H1a = T3 NH W.LM W.C Ha)) :
    reverseH2 P g zh s = some { s with
      H1a := T3 NH W.LM W.C (fun v LM k => Ha v LM k + if v < g.N ∧ LM = 0 then
        ∑ k' ∈ Finset.range W.C, W.lin2h (c.typ v) k k' * Ga v k' else 0)
      M1a := tab2 g.N W.C (fun i k => ∑ k' ∈ Finset.range W.C, W.lin2m k k' * Ga i k') } := by
  unfold reverseH2
  have hH0 : (if zh = true then List.replicate (resize s.H1a s.H1.length).length 0
      else resize s.H1a s.H1.length) = T3 NH W.LM W.C Ha := by
    rcases hHa with ⟨rfl, rfl⟩ | ⟨rfl, h⟩
    · rw [if_pos rfl, length_resize, hH, length_T3, replicate_eq_tab]; rfl
    · rw [if_neg (by simp), h, resize_eq (by rw [hH]; simp)]
  dsimp only
  rw [hH0]
  simp only [hw.C, hw.LM]
  refine (bind_of_some (loop_pair
    (f := fun i b => (g.types[i]?).bind fun ti => (P.H2wH1[ti]?).bind fun w =>
      gemv false W.C W.C 1 w W.C s.H2a (i * W.C) 1 (i * W.LM * W.C) b)
    (g := fun i b => gemv false W.C W.C 1 P.H2wM1 W.C s.H2a (i * W.C) 0 (i * W.C) b) ?_ ?_ ?_) _).trans rfl
  · intro i hi a b a' b' h1 h2
    rw [hg.types i hi] at h1 ⊢
    simp only [Option.bind_some, Option.bind_eq_bind] at h1 ⊢
    obtain ⟨w, hw1, hw2⟩ := Option.bind_eq_some_iff.mp h1
    rw [hw1]
    simp only [Option.bind_some, hw2, h2]
    rfl
  · have hA : Acts1 (NH * W.LM * W.C) (loop g.N (fun i b => (g.types[i]?).bind fun ti => (P.H2wH1[ti]?).bind fun w =>
        gemv false W.C W.C 1 w W.C s.H2a (i * W.C) 1 (i * W.LM * W.C) b)) (fun q z => iter g.N (fun i z =>
        if i * W.LM * W.C ≤ q ∧ q < i * W.LM * W.C + W.C then
          1 * (∑ p ∈ Finset.range W.C, W.lin2h (c.typ i) (q - i * W.LM * W.C) p * Ga i p) + 1 * z else z) z) := by
      refine Acts1.loop (fun i hi => ?_)
      obtain ⟨w, h1, h2⟩ := hw.H2wH1 _ (hg.typ_lt i hi)
      refine (gemv_acts (r := W.C) (c := W.C) (tr := false) (m := W.C) (n := W.C) (alpha := 1) (a := w) (lda := W.C) (x := s.H2a)
        (xoff := i * W.C) (beta := 1) (yoff := i * W.LM * W.C) rfl rfl
        (A := fun k k' => W.lin2h (c.typ i) k k') (X := fun k' => Ga i k')
        (fun k hk k' hk' => by simpa [mIdx] using h2 k hk k' hk')
        (fun k' hk' => by rw [hG, getElem?_tab2 hi hk']) ?_).of_eq (fun b _ => ?_)
      · have : i * W.LM * W.C + W.C ≤ (i * W.LM + W.LM) * W.C := by
          rw [Nat.add_mul]; exact Nat.add_le_add_left (Nat.le_mul_of_pos_left _ (LM_pos W)) _
        refine this.trans (Nat.mul_le_mul_right _ ?_)
        rw [← Nat.succ_mul i]; exact Nat.mul_le_mul_right _ (by omega)
      · rw [hg.types i hi, Option.bind_some, h1, Option.bind_some]
    rw [hA _ (by simp)]
    congr 1
    refine eq_T3 (by simp) (fun v hv LM hLM k hk => ?_)
    rw [List.getElem?_mapIdx, T3_get Ha hv hLM hk, Option.map_some]
    congr 1
    have hiff : ∀ i, (i * W.LM * W.C ≤ (v * W.LM + LM) * W.C + k ∧ (v * W.LM + LM) * W.C + k < i * W.LM * W.C + W.C)
        ↔ v = i ∧ LM = 0 := by
      intro i
      constructor
      · rintro ⟨h1, h2⟩
        have h3 : (v * W.LM + LM) * W.C + k = (i * W.LM + 0) * W.C + ((v * W.LM + LM) * W.C + k - i * W.LM * W.C) := by
          rw [add_zero]; omega
        have := (flat3_inj hLM hk (LM_pos W) (show (v * W.LM + LM) * W.C + k - i * W.LM * W.C < W.C by omega)).mp h3
        exact ⟨this.1, this.2.1⟩
      · rintro ⟨rfl, rfl⟩
        rw [add_zero]; omega
    by_cases hv' : v < g.N ∧ LM = 0
    · obtain ⟨h1, rfl⟩ := hv'
      rw [if_pos ⟨h1, rfl⟩, iter_single v h1 (fun i _ hne x => if_neg (by rw [hiff]; rintro ⟨rfl, _⟩; exact hne rfl)),
        if_pos ((hiff v).mpr ⟨rfl, rfl⟩), add_zero, Nat.add_sub_cancel_left]
      ring
    · rw [if_neg hv', add_zero]
      exact iter_id (fun i hi x => if_neg (by rw [hiff]; rintro ⟨rfl, h⟩; exact hv' ⟨hi, h⟩)) _
  · refine Wr.tab_of_all (S := fun q => ∃ i < g.N, i * W.C ≤ q ∧ q < i * W.C + W.C) (Writes.loop (fun i hi => ?_)) ?_
      (by rw [hM]; simp)
    · have hL : i * W.C + W.C ≤ g.N * W.C := by
        rw [← Nat.succ_mul i]; exact Nat.mul_le_mul_right _ hi
      refine Wr.of_acts (gemv_acts (K := K) (r := W.C) (c := W.C) (tr := false) (m := W.C) (n := W.C) (alpha := 1) (a := P.H2wM1) (lda := W.C)
        (x := s.H2a) (xoff := i * W.C) (beta := 0) (yoff := i * W.C) (L := g.N * W.C) rfl rfl
        (A := fun k k' => W.lin2m k k') (X := fun k' => Ga i k')
        (fun k hk k' hk' => by simpa [mIdx] using hw.H2wM1 k hk k' hk')
        (fun k' hk' => by rw [hG, getElem?_tab2 hi hk']) hL) (fun p hp => by omega) (fun p hp x => ?_) (fun p _ hp x => ?_)
      · obtain ⟨k, hk, rfl⟩ : ∃ k < W.C, p = i * W.C + k := ⟨p - i * W.C, by omega, by omega⟩
        rw [if_pos hp, Nat.add_sub_cancel_left, flat_div hk, flat_mod hk]
        simp only [one_mul, zero_mul, add_zero]
      · rw [if_neg hp]
    · intro p hp
      obtain ⟨i, k, hi, hk, rfl⟩ := flat_decomp hp
      exact ⟨i, hi, by omega, by omega⟩

/-! ## Readouts -/

/-- What the readout network does: in every state satisfying `I`, `evaluate_gradient` returns `f x`, `G x`. -/
def ROk (ex : K → K) (C : ℕ) (f : (ℕ → K) → K) (G : (ℕ → K) → ℕ → K) (I : MLP.MLP K → Prop) : Prop :=
  ∀ M, I M → ∀ x : ℕ → K, ∃ o M', M.evaluateGradient ex (tab C x) = some (o, tab C (G x), M') ∧ o[0]? = some (f x) ∧ I M'

theorem row_tab2 {N C i : ℕ} (hi : i < N) (h : ℕ → ℕ → K) : ((tab2 N C h).drop (i * C)).take C = tab C (h i) := by
  rw [eq_tab_iff]
  have hle : i * C + C ≤ N * C := by rw [← Nat.succ_mul i]; exact Nat.mul_le_mul_right _ hi
  refine ⟨by simp; omega, fun k hk => ?_⟩
  rw [List.getElem?_take_of_lt hk, List.getElem?_drop, getElem?_tab2 hi hk]

theorem computeReadouts_spec (hw : WOk P W nT nP) (hg : GOk g nT NH c n X R) (hN : g.N ≤ NH) {s : State K}
    {H : ℕ → ℕ → ℕ → K} {h : ℕ → ℕ → K} {E : ℕ → K} {G : (ℕ → K) → ℕ → K} {I : MLP.MLP K → Prop}
    (hH : s.H1 = T3 NH W.LM W.C H) (hh : s.H2 = tab2 g.N W.C h) (hE : s.nodeEnergies = tab g.N E)
    (hro : ROk P.ex W.C W.read2 G I) (hI : I s.ro2) :
    ∃ ro, I ro ∧ computeReadouts P g s = some { s with
      nodeEnergies := tab g.N (fun i => E i + W.atomE (c.typ i) + (∑ k ∈ Finset.range W.C, W.read1 k * H i 0 k)
        + W.read2 (h i))
      H1a := T3 NH W.LM W.C (fun v LM k => if v < g.N ∧ LM = 0 then W.read1 k else 0)
      H2a := tab2 g.N W.C (fun i => G (h i))
      ro2 := ro } := by
  unfold computeReadouts
  simp only [hw.C, hw.LM]
  refine Exists.elim (loop_inv (n := g.N)
    (body := fun i (q : List K × List K × List K × MLP.MLP K) => (g.types[i]?).bind fun ti =>
      (P.atomicEnergies[ti]?).bind fun e => (ad q.1 i e).bind fun E =>
      (loop W.C (fun k (q : List K × List K) => (P.ro1[k]?).bind fun w => (s.H1[i * W.LM * W.C + k]?).bind fun h =>
        (ad q.1 i (w * h)).bind fun E => (wr q.2 (i * W.LM * W.C + k) w).bind fun Ha => pure (E, Ha)) (E, q.2.1)).bind fun q1 =>
      (if (i + 1) * W.C ≤ s.H2.length then some ((s.H2.drop (i * W.C)).take W.C) else none).bind fun x =>
      (q.2.2.2.evaluateGradient P.ex x).bind fun fg => (fg.1[0]?).bind fun f0 => (ad q1.1 i f0).bind fun E =>
      (loop W.C (fun k b => (fg.2.1[k]?).bind fun v => wr b (i * W.C + k) v) q.2.2.1).bind fun H2a =>
      pure (E, q1.2, H2a, fg.2.2))
    (fun i q => q.1 = tab g.N (fun j => if j < i then E j + W.atomE (c.typ j)
          + (∑ k ∈ Finset.range W.C, W.read1 k * H j 0 k) + W.read2 (h j) else E j)
      ∧ q.2.1 = T3 NH W.LM W.C (fun v LM k => if v < i ∧ LM = 0 then W.read1 k else 0)
      ∧ q.2.2.1.length = g.N * W.C ∧ (∀ j < i, ∀ k < W.C, q.2.2.1[j * W.C + k]? = some (G (h j) k)) ∧ I q.2.2.2)
    (s := (resize s.nodeEnergies g.N, List.replicate s.H1.length 0, resize s.H2a s.H2.length, s.ro2)) ?_ ?_) ?_
  · refine ⟨?_, ?_, ?_, by simp, hI⟩
    · show resize s.nodeEnergies g.N = _
      rw [hE, resize_eq (by simp)]
      exact tab_congr (fun i hi => by rw [if_neg (by omega)])
    · show List.replicate s.H1.length 0 = _
      rw [hH, length_T3, replicate_eq_tab]
      refine tab_eq_T3 (fun i hi j hj k hk => by rw [if_neg (by omega)])
    · show (resize s.H2a s.H2.length).length = _
      rw [hh]; simp
  · rintro i hi ⟨E0, Ha0, Ga0, ro0⟩ ⟨h1, h2, h3, h4, h5⟩
    dsimp only at h1 h2 h3 h4 h5
    obtain ⟨o, M', k1, k2, k3⟩ := hro ro0 h5 (h i)
    have hL : (i + 1) * W.C ≤ s.H2.length := by rw [hh]; simp; exact Nat.mul_le_mul_right _ hi
    have hx : (s.H2.drop (i * W.C)).take W.C = tab W.C (h i) := by rw [hh]; exact row_tab2 hi h
    -- the inner loop
    have hin : loop W.C (fun k (q : List K × List K) => (P.ro1[k]?).bind fun w => (s.H1[i * W.LM * W.C + k]?).bind fun h =>
        (ad q.1 i (w * h)).bind fun E => (wr q.2 (i * W.LM * W.C + k) w).bind fun Ha => pure (E, Ha))
        (tab g.N (fun j => if j < i then E j + W.atomE (c.typ j)
          + (∑ k ∈ Finset.range W.C, W.read1 k * H j 0 k) + W.read2 (h j) else if j = i then E j + W.atomE (c.typ j) else E j), Ha0)
        = some (tab g.N (fun j => if j < i then E j + W.atomE (c.typ j)
          + (∑ k ∈ Finset.range W.C, W.read1 k * H j 0 k) + W.read2 (h j) else if j = i then E j + W.atomE (c.typ j) +
            (∑ k ∈ Finset.range W.C, W.read1 k * H j 0 k) else E j),
          T3 NH W.LM W.C (fun v LM k => if v < i + 1 ∧ LM = 0 then W.read1 k else 0)) := by
      refine loop_pair (f := fun k b => ad b i (W.read1 k * H i 0 k))
        (g := fun k b => wr b (i * W.LM * W.C + k) (W.read1 k)) ?_ ?_ ?_
      · intro k hk a b a' b' q1 q2
        rw [hw.ro1 k hk, hH, T3_get0 H (by omega) (LM_pos W) hk]
        simp only [Option.bind_some, q1, q2]
        rfl
      · have := Adds.loop (L := g.N) (n := W.C) (body := fun k b => ad b i (W.read1 k * H i 0 k))
          (fun k _ => Adds.ad hi _)
        rw [this _ (by simp), tab_mapIdx]
        congr 1
        refine tab_congr (fun j hj => ?_)
        by_cases hji : j = i
        · subst hji; simp
        · simp [hji]
      · have := Writes.loop (I := fun b : List K => b.length = NH * W.LM * W.C) (rd := fun b p => b[p]?) (n := W.C)
          (body := fun k b => wr b (i * W.LM * W.C + k) (W.read1 k)) (S := fun k p => p = i * W.LM * W.C + k)
          (val := fun p => W.read1 (p - i * W.LM * W.C))
          (fun k hk => Wr.wr (by
            have := flat3_lt (show i < NH by omega) (LM_pos W) hk
            rwa [add_zero] at this) (by rw [Nat.add_sub_cancel_left]))
        obtain ⟨b', r1, r2, r3⟩ := this Ha0 (by rw [h2]; simp)
        beta_reduce at r1 r2 r3
        rw [r1]
        congr 1
        refine eq_T3 r2 (fun v hv LM hLM k hk => ?_)
        by_cases hcase : v = i ∧ LM = 0
        · obtain ⟨rfl, rfl⟩ := hcase
          rw [if_pos ⟨by omega, rfl⟩, (r3 _).1 ⟨k, hk, by rw [add_zero]⟩, add_zero, Nat.add_sub_cancel_left]
        · rw [(r3 _).2, h2, T3_get _ hv hLM hk]
          · congr 1
            by_cases hq : v < i ∧ LM = 0
            · rw [if_pos hq, if_pos ⟨by omega, hq.2⟩]
            · rw [if_neg hq, if_neg (by omega)]
          · rintro ⟨k', hk', he⟩
            have := (flat3_inj hLM hk (LM_pos W) hk').mp (by rw [add_zero]; exact he)
            exact hcase ⟨this.1, this.2.1⟩
    have hlast := Writes.loop (I := fun b : List K => b.length = g.N * W.C) (rd := fun b p => b[p]?) (n := W.C)
      (body := fun k b => wr b (i * W.C + k) (G (h i) k)) (S := fun k p => p = i * W.C + k)
      (val := fun p => G (h i) (p - i * W.C))
      (fun k hk => Wr.wr (flat_lt hi hk) (by rw [Nat.add_sub_cancel_left]))
    obtain ⟨b', r1, r2, r3⟩ := hlast Ga0 h3
    beta_reduce at r1 r2 r3
    have hadd : ∀ (v : K) (b : List K), b.length = g.N → ad b i v = some (b.mapIdx (fun p x => x + if p = i then v else 0)) :=
      fun v => Adds.ad hi v
    have hlast' : loop W.C (fun k b => ((tab W.C (G (h i)))[k]?).bind fun v => wr b (i * W.C + k) v) Ga0 = some b' := by
      rw [← r1]
      exact loop_congr (fun k hk b => by rw [getElem?_tab_lt hk, Option.bind_some]) _
    have had0 : ad E0 i (W.atomE (c.typ i)) = some (tab g.N (fun j => if j < i then E j + W.atomE (c.typ j)
          + (∑ k ∈ Finset.range W.C, W.read1 k * H j 0 k) + W.read2 (h j) else if j = i then E j + W.atomE (c.typ j) else E j)) := by
      rw [hadd _ E0 (by rw [h1]; simp), h1, tab_mapIdx]
      congr 1
      refine tab_congr (fun j hj => ?_)
      by_cases hji : j = i
      · subst hji; simp
      · simp [hji]
    refine ⟨_, by
      beta_reduce
      rw [hg.types i hi, Option.bind_some, hw.atomE _ (hg.typ_lt i hi), Option.bind_some, had0, Option.bind_some, hin,
        Option.bind_some, if_pos hL, Option.bind_some, hx, k1, Option.bind_some, k2, Option.bind_some,
        hadd _ _ (by simp), Option.bind_some, hlast', Option.bind_some]
      rfl, ?_, rfl, r2, ?_, k3⟩
    · dsimp only
      rw [tab_mapIdx]
      refine tab_congr (fun j hj => ?_)
      by_cases hji : j = i
      · subst hji; simp
      · by_cases hlt : j < i
        · rw [if_pos hlt, if_neg hji, if_pos (by omega), add_zero]
        · rw [if_neg hlt, if_neg hji, if_neg hji, if_neg (by omega), add_zero]
    · intro j hj k hk
      dsimp only
      by_cases hji : j = i
      · subst hji
        rw [(r3 _).1 ⟨k, hk, rfl⟩, Nat.add_sub_cancel_left]
      · rw [(r3 _).2, h4 j (by omega) k hk]
        rintro ⟨k', hk', he⟩
        exact hji ((flat_inj hk hk').mp he).1
  · rintro q ⟨h1, h2, h3, h4, h5, h6⟩
    refine ⟨q.2.2.2, h6, (bind_of_some h1 _).trans ?_⟩
    refine congrArg some ?_
    have e1 : q.1 = tab g.N (fun i => E i + W.atomE (c.typ i) + (∑ k ∈ Finset.range W.C, W.read1 k * H i 0 k)
        + W.read2 (h i)) := by
      rw [h2]; exact tab_congr (fun i hi => if_pos hi)
    have e3 : q.2.2.1 = tab2 g.N W.C (fun i => G (h i)) := eq_tab2_iff.mpr ⟨h4, h5⟩
    rw [e1, h3, e3]

end Verif.MACE
