import Verif.Lemmas.MACE.StageTab
import Verif.Lemmas.MACE.Part

/-! # Each reverse stage is the transposed derivative of its forward stage: stages between buffers -/

namespace Verif.MACE
open Verif.Spec

variable {f : File} {T : Sys} {X : ℕ → ℕ → ℝ} {NH : ℕ} {sph : ℝ → ℝ → ℝ → ℕ → ℝ} {dsph : ℝ → ℝ → ℝ → ℕ → ℕ → ℝ}
  {P : Params ℝ} {s : State ℝ}

theorem tr_H1 (hP : Loaded f sph dsph P) (s : State ℝ) :
    Transposed (computeH1 P (T.graph X)) (reverseH1 P (T.graph X)) (fun x s => { s with M0 := x }) (·.H1)
      (fun w s => { s with H1a := w }) (·.M0a) (T.N * (netOf f).LM * (netOf f).C) (T.N * (netOf f).LM * (netOf f).C) s := by
  intro x w hx hw
  obtain ⟨m, rfl⟩ := ex_T3 hx
  obtain ⟨w, rfl⟩ := ex_T3 hw
  have e1 := fun m => computeH1_spec (g := T.graph X) hP.wok (s := { s with M0 := T3 T.N (netOf f).LM (netOf f).C m }) (m := m) rfl
  refine ⟨_, _, e1 m, reverseH1_spec (g := T.graph X) hP.wok (m := m) (Ha := w) (NH := T.N) rfl rfl le_rfl, ?_⟩
  refine isGrad_T3 (fun d => ⟨_, fun τ => ⟨by rw [e1]; rfl, by rw [length_T3, length_T3]; rfl⟩, ?_⟩)
  refine dot_T3_deriv (fun i hi LM hLM k hk =>
    HasDerivAt.fun_sum (fun k' hk' => (lin_deriv (m i LM k') (d i LM k')).mul_const _)) ?_
  exact Finset.sum_congr rfl (fun i _ => Finset.sum_congr rfl (fun LM _ => sum_transpose _ _ _ _ _))

theorem tr_M0 (hf : FileOk f) (hT : SysIn f T NH) (hP : Loaded f sph dsph P) (hs : StOk f s) :
    Transposed (computeM0 P (T.graph X)) (reverseM0 P (T.graph X)) (fun x s => { s with A0 := x }) (·.M0)
      (fun w s => { s with M0a := w }) (·.A0a) (T.N * (netOf f).M * (netOf f).C) (T.N * (netOf f).LM * (netOf f).C) s := by
  intro x w hx hw
  obtain ⟨a, rfl⟩ := ex_T3 hx
  obtain ⟨w, rfl⟩ := ex_T3 hw
  have hg : GOk (T.graph X) f.nT NH (confOf f sph T X) (nthN T.nn) X (fun e => len (X e)) := graph_ok hT le_rfl
  have e1 := fun a => computeM0_spec hP.wok hg (s := { s with A0 := T3 T.N (netOf f).M (netOf f).C a }) (a := a) rfl hs.P0
  obtain ⟨G, P0', h1, h2, h3⟩ := e1 a
  refine ⟨_, _, h1, reverseM0_spec (g := T.graph X) hP.wok (A := a) (Ma := w) (G := g0 (netOf f) (confOf f sph T X) a) rfl rfl h3, ?_⟩
  refine isGrad_T3 (fun d => ⟨fun τ => T3 T.N (netOf f).LM (netOf f).C (fun i LM k =>
      polynomial ((netOf f).coef0 ((confOf f sph T X).typ i) LM k) ((netOf f).mono0 LM) (fun lm => a i lm k + τ * d i lm k)),
      fun τ => ⟨?_, by rw [length_T3, length_T3]⟩, ?_⟩)
  · obtain ⟨G', P', k1, _, _⟩ := e1 (fun i lm k => a i lm k + τ * d i lm k)
    dsimp only
    rw [k1]; rfl
  · refine dot_T3_deriv (y' := fun i LM k => ∑ lm ∈ Finset.range (netOf f).M,
      g0 (netOf f) (confOf f sph T X) a i LM lm k * d i lm k) (fun i hi LM hLM k hk => ?_) ?_
    · obtain ⟨p, hp⟩ := hs.P0.get (hT.typ i hi) hLM hk
      have := deriv_poly (x := 0) hp ((netOk hf).mono0 LM hLM) (f := fun τ lm => a i lm k + τ * d i lm k) (d := fun lm => d i lm k)
        (fun v _ => lin_deriv _ _)
      simp only [zero_mul, add_zero] at this
      exact this
    · refine Finset.sum_congr rfl (fun i _ => ?_)
      simp only [Finset.mul_sum, Finset.sum_mul]
      rw [Finset.sum_comm]
      conv_rhs => rw [Finset.sum_comm]
      refine Finset.sum_congr rfl (fun k _ => ?_)
      rw [Finset.sum_comm]
      exact Finset.sum_congr rfl (fun _ _ => Finset.sum_congr rfl (fun _ _ => by ring))

theorem tr_A1 (hP : Loaded f sph dsph P) (s : State ℝ) :
    Transposed (computeA1 P (T.graph X)) (reverseA1 P (T.graph X)) (fun x s => { s with Phi1 := x }) (·.A1)
      (fun w s => { s with A1a := w }) (·.dPhi1) (T.N * (netOf f).nOut * (netOf f).C) (T.N * (netOf f).M * (netOf f).C) s := by
  intro x w hx hw
  obtain ⟨p, rfl⟩ := ex_T3 hx
  obtain ⟨w, rfl⟩ := ex_T3 hw
  have e1 := fun p => computeA1_spec (g := T.graph X) hP.wok (s := { s with Phi1 := T3 T.N (netOf f).nOut (netOf f).C p }) (p := p) rfl
  refine ⟨_, _, e1 p, reverseA1_spec (g := T.graph X) hP.wok (p := p) (A := w) rfl rfl, ?_⟩
  refine isGrad_T3 (fun d => ⟨_, fun τ => ⟨by rw [e1]; rfl, by rw [length_T3, length_T3]; rfl⟩, ?_⟩)
  refine dot_T3_deriv (fun i hi lm hlm k hk => HasDerivAt.fun_sum (fun e _ =>
    HasDerivAt.fun_sum (fun k' hk' => (lin_deriv _ (d i _ k')).mul_const _))) ?_
  exact Finset.sum_congr rfl (fun i _ => pair_a1 (W := netOf f) w d i)

theorem tr_M1 (hf : FileOk f) (hT : SysIn f T NH) (hP : Loaded f sph dsph P) (hs : StOk f s) :
    Transposed (computeM1 P (T.graph X)) (reverseM1 P (T.graph X)) (fun x s => { s with A1 := x }) (·.M1)
      (fun w s => { s with M1a := w }) (·.A1a) (T.N * (netOf f).M * (netOf f).C) (T.N * (netOf f).C) s := by
  intro x w hx hw
  obtain ⟨a, rfl⟩ := ex_T3 hx
  obtain ⟨w, rfl⟩ := ex_tab2 hw
  have hg : GOk (T.graph X) f.nT NH (confOf f sph T X) (nthN T.nn) X (fun e => len (X e)) := graph_ok hT le_rfl
  have e1 := fun a => computeM1_spec hP.wok hg (s := { s with A1 := T3 T.N (netOf f).M (netOf f).C a }) (a := a) rfl hs.P1
  obtain ⟨G, P1', h1, h2, h3⟩ := e1 a
  refine ⟨_, _, h1, reverseM1_spec (g := T.graph X) hP.wok (A := a) (Ma := w) (G := g1 (netOf f) (confOf f sph T X) a) rfl rfl h3, ?_⟩
  refine isGrad_T3 (fun d => ⟨fun τ => tab2 T.N (netOf f).C (fun i k =>
      polynomial ((netOf f).coef1 ((confOf f sph T X).typ i) k) (netOf f).mono1 (fun lm => a i lm k + τ * d i lm k)),
      fun τ => ⟨?_, by rw [length_tab2, length_tab2]⟩, ?_⟩)
  · obtain ⟨G', P', k1, _, _⟩ := e1 (fun i lm k => a i lm k + τ * d i lm k)
    dsimp only
    rw [k1]; rfl
  · refine dot_tab2_deriv (y' := fun i k => ∑ lm ∈ Finset.range (netOf f).M,
      g1 (netOf f) (confOf f sph T X) a i lm k * d i lm k) (fun i hi k hk => ?_) ?_
    · obtain ⟨p, hp⟩ := hs.P1.get (hT.typ i hi) hk
      have := deriv_poly (x := 0) hp (netOk hf).mono1 (f := fun τ lm => a i lm k + τ * d i lm k) (d := fun lm => d i lm k)
        (fun v _ => lin_deriv _ _)
      simp only [zero_mul, add_zero] at this
      exact this
    · refine Finset.sum_congr rfl (fun i _ => ?_)
      simp only [Finset.mul_sum]
      rw [Finset.sum_comm]
      exact Finset.sum_congr rfl (fun _ _ => Finset.sum_congr rfl (fun _ _ => by ring))

theorem tr_H2 (hT : SysIn f T NH) (hN : T.N ≤ NH) (hP : Loaded f sph dsph P) (s : State ℝ) (z : Bool) {H m w old : List ℝ}
    (hH : H.length = NH * (netOf f).LM * (netOf f).C) (hm : m.length = T.N * (netOf f).C) (hw : w.length = T.N * (netOf f).C)
    (ho : z = false → old.length = NH * (netOf f).LM * (netOf f).C) :
    ∃ s1 s2 G, computeH2 P (T.graph X) { s with H1 := H, M1 := m } = some s1 ∧
      reverseH2 P (T.graph X) z { s1 with H2a := w, H1a := old } = some s2 ∧
      s2.H1a = plus (startOf z old H.length) G ∧
      IsGrad (fun x => (computeH2 P (T.graph X) { s with H1 := x, M1 := m }).map (·.H2)) H w G ∧
      IsGrad (fun x => (computeH2 P (T.graph X) { s with H1 := H, M1 := x }).map (·.H2)) m w s2.M1a := by
  obtain ⟨H, rfl⟩ := ex_T3 hH
  obtain ⟨m, rfl⟩ := ex_tab2 hm
  obtain ⟨w, rfl⟩ := ex_tab2 hw
  have hg : GOk (T.graph X) f.nT NH (confOf f sph T X) (nthN T.nn) X (fun e => len (X e)) := graph_ok hT le_rfl
  have e1 := fun H m => computeH2_spec hP.wok hg hN (s := { s with H1 := T3 NH (netOf f).LM (netOf f).C H, M1 := tab2 T.N (netOf f).C m })
    (H := H) (m := m) rfl rfl
  obtain ⟨Ha, hHa, hst⟩ : ∃ Ha : ℕ → ℕ → ℕ → ℝ, ((z = true ∧ Ha = fun _ _ _ => 0) ∨
      (z = false ∧ old = T3 NH (netOf f).LM (netOf f).C Ha)) ∧
      startOf z old (T3 NH (netOf f).LM (netOf f).C H).length = T3 NH (netOf f).LM (netOf f).C Ha := by
    cases z with
    | true => exact ⟨_, Or.inl ⟨rfl, rfl⟩, by rw [zeros_T3, length_T3]; rfl⟩
    | false =>
      obtain ⟨o, rfl⟩ := ex_T3 (ho rfl)
      exact ⟨o, Or.inr ⟨rfl, rfl⟩, rfl⟩
  refine ⟨_, _, T3 NH (netOf f).LM (netOf f).C (fun v LM k => if v < T.N ∧ LM = 0 then
        ∑ k' ∈ Finset.range (netOf f).C, (netOf f).lin2h ((confOf f sph T X).typ v) k k' * w v k' else 0), e1 H m,
    reverseH2_spec hP.wok hg hN (H := H) (m := m) (Ga := w) (Ha := Ha) rfl rfl rfl z hHa, ?_, ?_, ?_⟩
  · rw [hst, plus_T3]; rfl
  · refine isGrad_T3 (fun d => ⟨fun τ => tab2 T.N (netOf f).C (fun i k =>
      (∑ k' ∈ Finset.range (netOf f).C, (H i 0 k' + τ * d i 0 k') * (netOf f).lin2h ((confOf f sph T X).typ i) k' k)
        + ∑ k' ∈ Finset.range (netOf f).C, m i k' * (netOf f).lin2m k' k), fun τ => ⟨by rw [e1]; rfl, by rw [length_tab2, length_tab2]⟩, ?_⟩)
    refine dot_tab2_deriv (fun i hi k hk => (HasDerivAt.fun_sum (fun k' hk' =>
      (lin_deriv (H i 0 k') (d i 0 k')).mul_const _)).add_const _) ?_
    have hL : 0 < (netOf f).LM := LM_pos _
    have e3 : ∀ v, ∑ LM ∈ Finset.range (netOf f).LM, ∑ k ∈ Finset.range (netOf f).C,
        (if v < T.N ∧ LM = 0 then ∑ k' ∈ Finset.range (netOf f).C, (netOf f).lin2h ((confOf f sph T X).typ v) k k' * w v k' else 0)
          * d v LM k = if v < T.N then ∑ k ∈ Finset.range (netOf f).C,
            (∑ k' ∈ Finset.range (netOf f).C, (netOf f).lin2h ((confOf f sph T X).typ v) k k' * w v k') * d v 0 k else 0 := by
      intro v
      rw [Finset.sum_eq_single 0]
      · by_cases hv : v < T.N <;> simp [hv]
      · intro b _ hb; simp [hb]
      · intro h; exact absurd (Finset.mem_range.mpr hL) h
    rw [Finset.sum_congr rfl (fun v _ => e3 v), ← Finset.sum_filter]
    have e4 : (Finset.range NH).filter (fun v => v < T.N) = Finset.range T.N := by
      ext v; simp only [Finset.mem_filter, Finset.mem_range]; omega
    rw [e4]
    refine Finset.sum_congr rfl (fun i _ => ?_)
    rw [sum_transpose]
    exact Finset.sum_congr rfl (fun _ _ => by congr 1; exact Finset.sum_congr rfl (fun _ _ => mul_comm _ _))
  · refine isGrad_tab2 (n := T.N) (m := (netOf f).C) (a := m) (g := fun i k => ∑ k' ∈ Finset.range (netOf f).C, (netOf f).lin2m k k' * w i k')
      (fun d => ⟨fun τ => tab2 T.N (netOf f).C (fun i k =>
      (∑ k' ∈ Finset.range (netOf f).C, H i 0 k' * (netOf f).lin2h ((confOf f sph T X).typ i) k' k)
        + ∑ k' ∈ Finset.range (netOf f).C, (m i k' + τ * d i k') * (netOf f).lin2m k' k), fun τ => ⟨by rw [e1]; rfl, by rw [length_tab2, length_tab2]⟩, ?_⟩)
    refine dot_tab2_deriv (fun i hi k hk => (HasDerivAt.fun_sum (fun k' hk' =>
      (lin_deriv (m i k') (d i k')).mul_const _)).const_add _) ?_
    refine Finset.sum_congr rfl (fun i _ => ?_)
    rw [sum_transpose]
    exact Finset.sum_congr rfl (fun _ _ => by congr 1; exact Finset.sum_congr rfl (fun _ _ => mul_comm _ _))

theorem ones_tab (n : ℕ) : List.replicate n (1 : ℝ) = tab n (fun _ => 1) := replicate_eq_tab _ _

theorem tr_readouts (hT : SysIn f T NH) (hN : T.N ≤ NH) (hP : Loaded f sph dsph P) (hs : StOk f s) {H h E : List ℝ}
    (hH : H.length = NH * (netOf f).LM * (netOf f).C) (hh : h.length = T.N * (netOf f).C) (hE : E.length = T.N) :
    ∃ s1, computeReadouts P (T.graph X) { s with H1 := H, H2 := h, nodeEnergies := E } = some s1 ∧
      IsGrad (fun x => (computeReadouts P (T.graph X) { s with H1 := x, H2 := h, nodeEnergies := E }).map (·.nodeEnergies)) H
        (List.replicate T.N 1) s1.H1a ∧
      IsGrad (fun x => (computeReadouts P (T.graph X) { s with H1 := H, H2 := x, nodeEnergies := E }).map (·.nodeEnergies)) h
        (List.replicate T.N 1) s1.H2a := by
  obtain ⟨H, rfl⟩ := ex_T3 hH
  obtain ⟨h, rfl⟩ := ex_tab2 hh
  obtain ⟨E, rfl⟩ := ex_tab hE
  have hg : GOk (T.graph X) f.nT NH (confOf f sph T X) (nthN T.nn) X (fun e => len (X e)) := graph_ok hT le_rfl
  have e1 := fun (H : ℕ → ℕ → ℕ → ℝ) (h : ℕ → ℕ → ℝ) => computeReadouts_spec hP.wok hg hN
    (s := { s with H1 := T3 NH (netOf f).LM (netOf f).C H, H2 := tab2 T.N (netOf f).C h, nodeEnergies := tab T.N E })
    (H := H) (h := h) (E := E) (G := roGrad f) (I := RoIs f) rfl rfl rfl (by rw [hP.ex]; exact ro_ok f) hs.ro2
  obtain ⟨ro, _, h1⟩ := e1 H h
  refine ⟨_, h1, ?_, ?_⟩
  · refine isGrad_T3 (fun d => ⟨fun τ => tab T.N (fun i => E i + (netOf f).atomE ((confOf f sph T X).typ i)
        + (∑ k ∈ Finset.range (netOf f).C, (netOf f).read1 k * (H i 0 k + τ * d i 0 k)) + (netOf f).read2 (h i)),
        fun τ => ⟨?_, by simp⟩, ?_⟩)
    · obtain ⟨ro', _, k1⟩ := e1 (fun i LM k => H i LM k + τ * d i LM k) h
      dsimp only
      rw [k1]; rfl
    · rw [ones_tab]
      simp only [dot_tab, one_mul]
      have : HasDerivAt (fun τ => ∑ i ∈ Finset.range T.N, (E i + (netOf f).atomE ((confOf f sph T X).typ i)
          + (∑ k ∈ Finset.range (netOf f).C, (netOf f).read1 k * (H i 0 k + τ * d i 0 k)) + (netOf f).read2 (h i)))
          (∑ i ∈ Finset.range T.N, ∑ k ∈ Finset.range (netOf f).C, (netOf f).read1 k * d i 0 k) 0 :=
        HasDerivAt.fun_sum (fun i _ => ((HasDerivAt.fun_sum (fun k _ => (lin_deriv _ _).const_mul _)).const_add _).add_const _)
      refine this.congr_deriv ?_
      have hL : 0 < (netOf f).LM := LM_pos _
      have e3 : ∀ v, ∑ LM ∈ Finset.range (netOf f).LM, ∑ k ∈ Finset.range (netOf f).C,
          (if v < (T.graph X).N ∧ LM = 0 then (netOf f).read1 k else 0) * d v LM k
          = if v < T.N then ∑ k ∈ Finset.range (netOf f).C, (netOf f).read1 k * d v 0 k else 0 := by
        intro v
        rw [Finset.sum_eq_single 0]
        · show ∑ k ∈ Finset.range (netOf f).C, (if v < T.N ∧ 0 = 0 then (netOf f).read1 k else 0) * d v 0 k = _
          by_cases hv : v < T.N <;> simp [hv]
        · intro b _ hb; simp [hb]
        · intro h; exact absurd (Finset.mem_range.mpr hL) h
      rw [Finset.sum_congr rfl (fun v _ => e3 v), ← Finset.sum_filter]
      have e4 : (Finset.range NH).filter (fun v => v < T.N) = Finset.range T.N := by
        ext v; simp only [Finset.mem_filter, Finset.mem_range]; omega
      rw [e4]
  · refine isGrad_tab2 (n := T.N) (m := (netOf f).C) (a := h) (g := fun i => roGrad f (h i)) (w := List.replicate T.N 1)
      (fun d => ⟨fun τ => tab T.N (fun i => E i + (netOf f).atomE ((confOf f sph T X).typ i)
        + (∑ k ∈ Finset.range (netOf f).C, (netOf f).read1 k * H i 0 k) + (netOf f).read2 (fun k => h i k + τ * d i k)),
        fun τ => ⟨?_, by simp⟩, ?_⟩)
    · obtain ⟨ro', _, k1⟩ := e1 H (fun i k => h i k + τ * d i k)
      dsimp only
      rw [k1]; rfl
    · rw [ones_tab]
      simp only [dot_tab, one_mul]
      refine HasDerivAt.fun_sum (fun i _ => ?_)
      have := read2_ok f (fun τ k => h i k + τ * d i k) (d i) 0 (fun k _ => lin_deriv _ _)
      simp only [zero_mul, add_zero] at this
      exact this.const_add _

end Verif.MACE
