import Verif.Lemmas.MACE.Adjoint

/-! # Stage lemmas: rescaling by the density -/

namespace Verif.MACE
open Verif.Spec Verif.Blas Verif.Spline

theorem T3_eq_tab2 {K : Type} (N M C : ℕ) (f : ℕ → ℕ → ℕ → K) :
    T3 N M C f = tab2 N (M * C) (fun i p => f i (p / C) (p % C)) := by
  symm
  unfold tab2
  rw [← mul_assoc]
  apply tab_eq_T3
  intro i hi j hj k hk
  have e : (i * M + j) * C + k = i * (M * C) + (j * C + k) := by ring
  rw [e, flat_div (flat_lt hj hk), flat_mod (flat_lt hj hk)]
  beta_reduce
  rw [flat_div hk, flat_mod hk]

variable {K : Type} [Field K]

/-- Dividing row `i` by `d` for all cells of the row. -/
theorem divRow {N len i : ℕ} (hi : i < N) (d : K) (f : ℕ → ℕ → K) :
    loop len (fun p A => md A (i * len + p) (fun x => x / d)) (tab2 N len f)
      = some (tab2 N len (fun i' p => if i' = i then f i' p / d else f i' p)) := by
  have h : Acts1 (N * len) (loop len (fun p A => md A (i * len + p) (fun x => x / d)))
      (fun q x => iter len (fun p x => if q = i * len + p then x / d else x) x) :=
    Acts1.loop (fun p hp => Acts1.md (flat_lt hi hp) _)
  rw [h _ (by simp)]
  congr 1
  unfold tab2
  rw [tab_mapIdx]
  apply tab_congr
  intro q hq
  obtain ⟨i', p', hi', hp', rfl⟩ := flat_decomp hq
  rw [flat_div hp', flat_mod hp', iter_flat hp' (fun _ x => x / d)]

variable [LinearOrder K] [IsStrictOrderedRing K] [FloorRing K]
  {g : Graph K} {nT NH : ℕ} {c : Conf K} {n : ℕ → ℕ} {X : ℕ → ℕ → K} {R : ℕ → K}

/-- The density splines give `v e`, with derivative `dv e`, on every edge. -/
def SOk (nE : ℕ) (spl : List (CubicSpline K)) (g : Graph K) (c : Conf K) (R v dv : ℕ → K) : Prop :=
  ∀ i < g.N, ∀ e ∈ edges g.nn i, ∃ sp, spl[pairIndex nE (c.typ i) (c.nty e)]? = some sp ∧
    sp.evaluate (R e) = .ret (v e) ∧ sp.evaluateDeriv (R e) = .ret (v e, dv e)

theorem scaleFactor_spec {nE : ℕ} {spl : List (CubicSpline K)} {v dv : ℕ → K} (hg : GOk g nT NH c n X R)
    (hs : SOk nE spl g c R v dv) {i : ℕ} (hi : i < g.N) :
    scaleFactor nE spl g (c.typ i) (n i) (off g.nn i) = some (off g.nn (i + 1), 1 + ∑ e ∈ edges g.nn i, v e) := by
  unfold scaleFactor
  rw [edgesFrom_eq, off_succ (hg.nn i hi)]
  have : loop (n i) (fun j acc => (g.ntypes[off g.nn i + j]?).bind (fun tj =>
      (spl[pairIndex nE (c.typ i) tj]?).bind (fun s => (g.r[off g.nn i + j]?).bind (fun r =>
        (ofOut (s.evaluate r)).bind (fun v => pure (acc + v)))))) (1 : K)
      = some (1 + ∑ j ∈ Finset.range (n i), v (off g.nn i + j)) := by
    have := loop_eq (n := n i) (fun j => 1 + ∑ j' ∈ Finset.range j, v (off g.nn i + j'))
      (body := fun j acc => (g.ntypes[off g.nn i + j]?).bind (fun tj =>
      (spl[pairIndex nE (c.typ i) tj]?).bind (fun s => (g.r[off g.nn i + j]?).bind (fun r =>
        (ofOut (s.evaluate r)).bind (fun v => pure (acc + v)))))) ?_
    · simpa using this
    · intro j hj
      have he := (mem_edges (hg.nn i hi)).mpr ⟨j, hj, rfl⟩
      obtain ⟨sp, h1, h2, -⟩ := hs i hi _ he
      beta_reduce
      rw [hg.ntypes _ (hg.lt hi he), Option.bind_some, h1, Option.bind_some, hg.r_get (hg.lt hi he), Option.bind_some, h2,
        Finset.sum_range_succ, ← add_assoc]
      rfl
  rw [← sum_edges (hg.nn i hi) v]
  refine (congrArg (Option.map _) this).trans rfl

theorem scaleForward_spec {nE M C : ℕ} {spl : List (CubicSpline K)} {v dv : ℕ → K} (hg : GOk g nT NH c n X R)
    (hs : SOk nE spl g c R v dv) (a : ℕ → ℕ → ℕ → K) {sc : ℕ → K} (hsc : ∀ i < g.N, sc i = 1 + ∑ e ∈ edges g.nn i, v e) :
    scaleForward nE spl (M * C) g (T3 g.N M C a) = some (T3 g.N M C (fun i lm k => a i lm k / sc i)) := by
  unfold scaleForward
  have h := loop_eq (n := g.N) (fun m => (off g.nn m, tab2 g.N (M * C) (fun i p =>
      if i < m then a i (p / C) (p % C) / sc i else a i (p / C) (p % C))))
    (body := fun i (q : ℕ × List K) => (g.types[i]?).bind (fun ti => (g.nn[i]?).bind (fun n =>
      (scaleFactor nE spl g ti n q.1).bind (fun f =>
        (loop (M * C) (fun p A => md A (i * (M * C) + p) (fun x => x / f.2)) q.2).bind (fun A => pure (f.1, A)))))) ?_
  · rw [off_zero] at h
    rw [T3_eq_tab2, T3_eq_tab2]
    have h0 : ∀ f : ℕ → ℕ → K, (fun i p => if i < 0 then f i p / sc i else f i p) = f := by
      intro f; funext i p; simp
    refine (bind_of_some (a := (off g.nn g.N, tab2 g.N (M * C) (fun i p => a i (p / C) (p % C) / sc i))) ?_ _).trans rfl
    refine Eq.trans ?_ (h.trans ?_)
    · rw [h0 (fun i p => a i (p / C) (p % C))]; rfl
    · simp only [Option.some.injEq, Prod.mk.injEq, true_and]
      exact tab2_congr (fun i hi p _ => if_pos hi)
  · intro i hi
    beta_reduce
    rw [hg.types i hi, Option.bind_some, hg.nn i hi, Option.bind_some, scaleFactor_spec hg hs hi, Option.bind_some,
      divRow hi, Option.bind_some]
    simp only [Option.pure_def, Option.some.injEq, Prod.mk.injEq, true_and]
    refine tab2_congr (fun i' _ p _ => ?_)
    by_cases h1 : i' = i
    · subst h1; simp [← hsc _ hi]
    · rw [if_neg h1]
      by_cases h2 : i' < i
      · rw [if_pos h2, if_pos (by omega)]
      · rw [if_neg h2, if_neg (by omega)]

/-- Force increment on edge `e` of node `i` in `reverse_A0_scaled`/`reverse_A1_scaled`. -/
def forceS (M C : ℕ) (d : DConf K) (sc : ℕ → K) (dv : ℕ → K) (A Aa : ℕ → ℕ → ℕ → K) (i e a : ℕ) : K :=
  (∑ lm ∈ Finset.range M, ∑ k ∈ Finset.range C, Aa i lm k * A i lm k) / sc i * dv e * d.X e a / d.R e

theorem scaleReverse_spec {nE M C : ℕ} {spl : List (CubicSpline K)} {v dv : ℕ → K} {d : DConf K}
    (hg : GOk g nT NH c n d.X d.R)
    (hs : SOk nE spl g c d.R v dv) (A Aa : ℕ → ℕ → ℕ → K) {sc : ℕ → K} (hsc : ∀ i < g.N, sc i = 1 + ∑ e ∈ edges g.nn i, v e)
    (F : ℕ → ℕ → K) :
    scaleReverse nE spl (M * C) g (T3 g.N M C A) (tab2 g.Ex 3 F, T3 g.N M C Aa)
      = some (tab2 g.Ex 3 (fun e a => F e a + onE g.nn g.N (forceS M C d sc dv A Aa) e a),
          T3 g.N M C (fun i lm k => Aa i lm k / sc i)) := by
  unfold scaleReverse
  have h := loop_eq (n := g.N) (fun m => (off g.nn m,
      tab2 g.Ex 3 (fun e a => if e < off g.nn m then F e a + forceS M C d sc dv A Aa (own g.nn g.N e) e a else F e a),
      tab2 g.N (M * C) (fun i p => if i < m then Aa i (p / C) (p % C) / sc i else Aa i (p / C) (p % C))))
    (body := fun i (q : ℕ × List K × List K) => (g.types[i]?).bind (fun ti => (g.nn[i]?).bind (fun n =>
      (scaleFactor nE spl g ti n q.1).bind (fun f =>
      (sumO (M * C) (fun p => (q.2.2[i * (M * C) + p]?).bind (fun x => ((T3 g.N M C A)[i * (M * C) + p]?).bind
        (fun y => pure (x * y))))).bind (fun dot =>
      (edgesFrom n (fun ij F => (g.ntypes[ij]?).bind (fun tj => (spl[pairIndex nE ti tj]?).bind (fun sp =>
        (g.r[ij]?).bind (fun r => (ofOut (sp.evaluateDeriv r)).bind (fun fd =>
          loop 3 (fun a F => (g.xyz[ij * 3 + a]?).bind (fun x =>
            ad F (ij * 3 + a) (dot / f.2 * fd.2 * x / r))) F))))) (f.1 - n, q.2.1)).bind (fun e =>
        (loop (M * C) (fun p A => md A (i * (M * C) + p) (fun x => x / f.2)) q.2.2).bind (fun A =>
          pure (e.1, e.2, A)))))))) ?_
  · rw [off_zero] at h
    have h0 : ∀ f : ℕ → ℕ → K, (fun i p => if i < 0 then f i p / sc i else f i p) = f := by
      intro f; funext i p; simp
    have h0' : (fun e a => if e < 0 then F e a + forceS M C d sc dv A Aa (own g.nn g.N e) e a else F e a) = F := by
      funext i p; simp
    refine (bind_of_some (a := (off g.nn g.N,
      tab2 g.Ex 3 (fun e a => F e a + onE g.nn g.N (forceS M C d sc dv A Aa) e a),
      T3 g.N M C (fun i lm k => Aa i lm k / sc i))) ?_ _).trans rfl
    refine Eq.trans ?_ (h.trans ?_)
    · rw [h0 (fun i p => Aa i (p / C) (p % C)), h0', ← T3_eq_tab2]; rfl
    · simp only [Option.some.injEq, Prod.mk.injEq, true_and]
      constructor
      · refine tab2_congr (fun e he p _ => ?_)
        unfold onE
        split <;> simp
      · rw [T3_eq_tab2]
        exact tab2_congr (fun i hi p _ => if_pos hi)
  · intro i hi
    beta_reduce
    rw [hg.types i hi, Option.bind_some, hg.nn i hi, Option.bind_some, scaleFactor_spec hg hs hi, Option.bind_some]
    rw [sumO_eq (g := fun p => Aa i (p / C) (p % C) * A i (p / C) (p % C)), Option.bind_some]
    swap
    · intro p hp
      rw [getElem?_tab2 hi hp, T3_eq_tab2, getElem?_tab2 hi hp, if_neg (by omega)]
      rfl
    have hoff : off g.nn (i + 1) - n i = off g.nn i := by rw [off_succ (hg.nn i hi)]; omega
    dsimp only
    rw [hoff, ← hsc i hi, sum_flat, edgesFrom_eq]
    have hadd : Adds (g.Ex * 3) (loop (n i) (fun j F => (g.ntypes[off g.nn i + j]?).bind (fun tj =>
        (spl[pairIndex nE (c.typ i) tj]?).bind (fun sp =>
        (g.r[off g.nn i + j]?).bind (fun r => (ofOut (sp.evaluateDeriv r)).bind (fun fd =>
          loop 3 (fun a F => (g.xyz[(off g.nn i + j) * 3 + a]?).bind (fun x =>
            ad F ((off g.nn i + j) * 3 + a) ((∑ a ∈ Finset.range M, ∑ b ∈ Finset.range C, Aa i ((a * C + b) / C) ((a * C + b) % C)
              * A i ((a * C + b) / C) ((a * C + b) % C)) / sc i * fd.2 * x / r))) F))))))
        (fun p => ∑ e ∈ edges g.nn i, ∑ a ∈ Finset.range 3, if p = e * 3 + a then forceS M C d sc dv A Aa i e a else 0) := by
      refine Adds.congr (Adds.loop (d := fun j p => ∑ a ∈ Finset.range 3, if p = (off g.nn i + j) * 3 + a then
        forceS M C d sc dv A Aa i (off g.nn i + j) a else 0) (fun j hj => ?_)) ?_
      · have he := (mem_edges (hg.nn i hi)).mpr ⟨j, hj, rfl⟩
        obtain ⟨sp, h1, -, h2⟩ := hs i hi _ he
        refine Adds.bindRead (hg.ntypes _ (hg.lt hi he)) (Adds.bindRead h1 (Adds.bindRead (hg.r_get (hg.lt hi he))
          (Adds.bindRead (a := (v (off g.nn i + j), dv (off g.nn i + j))) (by rw [h2]; rfl) (Adds.loop (fun a ha => ?_)))))
        refine Adds.bindRead (hg.xyz_get (hg.lt hi he) ha) ?_
        have e : ∑ lm ∈ Finset.range M, ∑ k ∈ Finset.range C, Aa i ((lm * C + k) / C) ((lm * C + k) % C)
            * A i ((lm * C + k) / C) ((lm * C + k) % C) = ∑ lm ∈ Finset.range M, ∑ k ∈ Finset.range C, Aa i lm k * A i lm k := by
          refine Finset.sum_congr rfl (fun lm _ => Finset.sum_congr rfl (fun k hk => ?_))
          rw [flat_div (Finset.mem_range.mp hk), flat_mod (Finset.mem_range.mp hk)]
        rw [e]
        exact Adds.ad (flat_lt (hg.ltx (hg.lt hi he)) ha) _
      · intro p _
        exact sum_edges (hg.nn i hi) (fun e => ∑ a ∈ Finset.range 3, if p = e * 3 + a then forceS M C d sc dv A Aa i e a else 0)
    have hrun := hadd (tab2 g.Ex 3 (fun e a => if e < off g.nn i then
      F e a + forceS M C d sc dv A Aa (own g.nn g.N e) e a else F e a)) (by simp)
    refine (bind_of_some (congrArg (Option.map _) hrun) _).trans ?_
    rw [divRow hi]
    simp only [Option.bind_some, Option.pure_def, Option.some.injEq, Prod.mk.injEq]
    refine ⟨(off_succ (hg.nn i hi)).symm, ?_, ?_⟩
    · unfold tab2
      rw [tab_mapIdx]
      apply tab_congr
      intro q hq
      obtain ⟨e0, a0, he0, ha0, rfl⟩ := flat_decomp hq
      rw [flat_div ha0, flat_mod ha0]
      have hin : ∀ e, ∑ a ∈ Finset.range 3, (if e0 * 3 + a0 = e * 3 + a then forceS M C d sc dv A Aa i e a else 0)
          = if e0 = e then forceS M C d sc dv A Aa i e a0 else 0 := by
        intro e
        rw [Finset.sum_eq_single a0]
        · by_cases h : e0 = e <;> simp [h]
        · intro b hb hne; have := Finset.mem_range.mp hb; rw [if_neg (by omega)]
        · intro h'; exact absurd (Finset.mem_range.mpr ha0) h'
      simp only [hin, Finset.sum_ite_eq]
      have hm := off_mono g.nn (Nat.le_succ i)
      by_cases hmem : e0 ∈ edges g.nn i
      · have := Finset.mem_Ico.mp hmem
        rw [if_pos hmem, if_neg (by omega), if_pos this.2, own_eq hi hmem]
      · have : ¬ (off g.nn i ≤ e0 ∧ e0 < off g.nn (i + 1)) := fun h => hmem (Finset.mem_Ico.mpr h)
        rw [if_neg hmem, add_zero]
        by_cases h2 : e0 < off g.nn i
        · rw [if_pos h2, if_pos (by omega)]
        · rw [if_neg h2, if_neg (by omega)]
    · refine tab2_congr (fun i' _ p _ => ?_)
      by_cases h1 : i' = i
      · subst h1; simp
      · rw [if_neg h1]
        by_cases h2 : i' < i
        · rw [if_pos h2, if_pos (by omega)]
        · rw [if_neg h2, if_neg (by omega)]

end Verif.MACE
