import Verif.Lemmas.MACE.Rotation
import Verif.Props.Kokkos
import Verif.Props.MACEExample

/-! # Property theorems: rotations (C56)

`rotate Q X` are the bond vectors `X` rotated by `Q`; `D` are the matrices by which the external harmonics `sph` change under this
rotation; `Intertwines` are the relations between `D` and the weights in the file. -/

namespace Verif.Props
open Verif.MACE Verif.Spec

/-- The harmonics of a rotated (nonzero) vector are the harmonics of the vector multiplied by `D`; the argument order
`(v 2, v 0, v 1)` is the one with which the code calls them. -/
def SphRotates (sph : ℝ → ℝ → ℝ → ℕ → ℝ) (Q D : ℕ → ℕ → ℝ) (M : ℕ) : Prop :=
  ∀ v : ℕ → ℝ, len v ≠ 0 → ∀ lm < M,
    sph (∑ b ∈ Finset.range 3, Q 2 b * v b) (∑ b ∈ Finset.range 3, Q 0 b * v b) (∑ b ∈ Finset.range 3, Q 1 b * v b) lm
      = ∑ lm' ∈ Finset.range M, D lm lm' * sph (v 2) (v 0) (v 1) lm'

variable (f : File) (sph : ℝ → ℝ → ℝ → ℕ → ℝ) (dsph : ℝ → ℝ → ℝ → ℕ → ℕ → ℝ)

section lemmas
variable {f sph dsph} {Q D : ℕ → ℕ → ℝ} {T : Sys} {X : ℕ → ℕ → ℝ}

theorem energy_rotate (hf : FileOk f) (hQ : Orthonormal3 Q) (hY : SphRotates sph Q D ((f.lmax + 1) * (f.lmax + 1)))
    (hD : Intertwines (netOf f) f.nT D) (hT : SysOk f T) (hX : Inside f T X) {i : ℕ} (hi : i < T.N) :
    energy (netOf f) (confOf f sph T (rotate Q X)) i = energy (netOf f) (confOf f sph T X) i := by
  rw [conf_rotate hQ]
  refine rot_energy (N := T.N) hD (netOk hf) (fun i hi => hT.typ i hi) (fun i hi e he lm hlm => ?_)
    (fun i hi e he => hT.nbr e (edg_lt hi he)) hi
  have h := hY (X e) (hX e (edg_lt hi he)).1.ne' lm hlm
  show sph (rotate Q X e 2) (rotate Q X e 0) (rotate Q X e 1) lm * (2 * Real.sqrt Real.pi)
    = ∑ lm' ∈ Finset.range ((f.lmax + 1) * (f.lmax + 1)), D lm lm' * (sph (X e 2) (X e 0) (X e 1) lm' * (2 * Real.sqrt Real.pi))
  unfold rotate
  rw [h, Finset.sum_mul]
  refine Finset.sum_congr rfl (fun b _ => ?_)
  ring

theorem force_rotate (hf : FileOk f) (hsph : IsSphGrad sph dsph ((f.lmax + 1) * (f.lmax + 1))) (hQ : Orthonormal3 Q)
    (hY : SphRotates sph Q D ((f.lmax + 1) * (f.lmax + 1)))
    (hD : Intertwines (netOf f) f.nT D) (hT : SysOk f T) (hX : Inside f T X) (hn : ScalesNonzero f sph T X)
    {s : State ℝ} (hs : StOk f s) {e a : ℕ} (he : e < T.E) (ha : a < 3) :
    forceOf f sph dsph T (rotate Q X) e a = ∑ b ∈ Finset.range 3, Q a b * forceOf f sph dsph T X e b := by
  have hn' : ScalesNonzero f sph T (rotate Q X) := by
    intro i hi
    rw [conf_rotate hQ]
    exact hn i hi
  let V : ℕ → ℕ → ℝ := fun x y => if x = e then Q a y else 0
  have d1 := total_hasDerivAt hf hT hX hsph hs (fun i hi => (hn i hi).1) (fun i hi => (hn i hi).2) V
  have d2 := total_hasDerivAt hf hT (inside_rotate hQ hX) hsph hs (fun i hi => (hn' i hi).1) (fun i hi => (hn' i hi).2)
    (rotate Q V)
  have d3 := d2.congr_of_eventuallyEq (f₁ := fun τ : ℝ => ∑ i ∈ Finset.range T.N,
      energy (netOf f) (confOf f sph T (fun e a => X e a + τ * V e a)) i) (by
    filter_upwards [inside_open hX V] with τ hτ
    refine Finset.sum_congr rfl (fun i hi => ?_)
    rw [rotate_add, energy_rotate hf hQ hY hD hT hτ (Finset.mem_range.mp hi)])
  have h := neg_injective (d1.unique d3)
  have e1 : ∑ x ∈ Finset.range T.E, ∑ y ∈ Finset.range 3, forceOf f sph dsph T X x y * V x y
      = ∑ b ∈ Finset.range 3, Q a b * forceOf f sph dsph T X e b := by
    rw [Finset.sum_eq_single e]
    · refine Finset.sum_congr rfl (fun b _ => ?_)
      simp [V, mul_comm]
    · intro x _ hx
      refine Finset.sum_eq_zero (fun b _ => ?_)
      simp [V, hx]
    · intro hx
      exact absurd (Finset.mem_range.mpr he) hx
  have e2 : ∑ x ∈ Finset.range T.E, ∑ y ∈ Finset.range 3, forceOf f sph dsph T (rotate Q X) x y * rotate Q V x y
      = forceOf f sph dsph T (rotate Q X) e a := by
    rw [Finset.sum_eq_single e]
    · have : ∀ y ∈ Finset.range 3, forceOf f sph dsph T (rotate Q X) e y * rotate Q V e y
          = if y = a then forceOf f sph dsph T (rotate Q X) e y else 0 := by
        intro y hy
        have := orthonormal_rows hQ (Finset.mem_range.mp hy) ha
        simp only [rotate, V, if_true]
        rw [this]
        by_cases h : y = a <;> simp [h]
      rw [Finset.sum_congr rfl this, Finset.sum_ite_eq' (Finset.range 3) a, if_pos (Finset.mem_range.mpr ha)]
    · intro x _ hx
      refine Finset.sum_eq_zero (fun b _ => ?_)
      simp [V, hx, rotate]
    · intro hx
      exact absurd (Finset.mem_range.mpr he) hx
  rw [← e1, h, e2]

end lemmas

section props
variable {srt : List (List (List ℕ)) → List (List (List ℕ))}

/-- C56: when all bond vectors are rotated (or reflected), every node energy and their sum stay the same and every edge force is
rotated in the same way; on any two objects loaded from the file, with any histories. -/
theorem C56_rotation_invariance (hf : FileOk f) (hsrt : Poly.SortFn srt)
    (hsph : IsSphGrad sph dsph ((f.lmax + 1) * (f.lmax + 1))) :
    ∃ P s0, load srt sph dsph f = some (P, s0) ∧ ∀ Q D, Orthonormal3 Q → SphRotates sph Q D ((f.lmax + 1) * (f.lmax + 1)) →
      Intertwines (netOf f) f.nT D → ∀ s1 s2, Hist f P s0 s1 → Hist f P s0 s2 → ∀ T X, SysOk f T → Inside f T X →
      ∃ t1 t2, computeNodeEnergiesForces f.zbl P (T.graph X) s1 = some t1 ∧
        computeNodeEnergiesForces f.zbl P (T.graph (rotate Q X)) s2 = some t2 ∧
        t2.nodeEnergies = t1.nodeEnergies ∧
        (ScalesNonzero f sph T X → ∃ F : ℕ → ℕ → ℝ, ∀ e < T.E, ∀ a < 3, t1.nodeForces[3 * e + a]? = some (F e a) ∧
          t2.nodeForces[3 * e + a]? = some (∑ b ∈ Finset.range 3, Q a b * F e b)) := by
  obtain ⟨P, s0, h1, h2, h3⟩ := load_spec hf hsrt sph dsph
  refine ⟨P, s0, h1, fun Q D hQ hY hD s1 s2 hs1 hs2 T X hT hX => ?_⟩
  obtain ⟨t1, e1, e2, e3, e4⟩ := compute_spec hf hT h2 hX (hs1.ok hf h2 h3)
  obtain ⟨t2, k1, k2, k3, k4⟩ := compute_spec hf hT h2 (inside_rotate hQ hX) (hs2.ok hf h2 h3)
  refine ⟨t1, t2, e1, k1, ?_, fun hn => ⟨forceOf f sph dsph T X, fun e he a ha => ⟨?_, ?_⟩⟩⟩
  · rw [e2, k2]
    exact tab_congr (fun i hi => energy_rotate hf hQ hY hD hT hX hi)
  · rw [e3, mul_comm 3, getElem?_tab2 he ha]
  · rw [k3, mul_comm 3, getElem?_tab2 he ha, force_rotate hf hsph hQ hY hD hT hX hn e4 he ha]

/-- C56 for the Kokkos evaluator: the same in any environments (schedules, memory spaces, recycled memory). -/
theorem C56_rotation_invariance_kokkos {junk : ℕ → ℕ → ℝ} {ne : ℕ} (hf : FileOk f) (hk : FileOkK f ne)
    (hsrt : Poly.SortFn srt) (hsph : IsSphGrad sph dsph ((f.lmax + 1) * (f.lmax + 1))) :
    ∃ P, Kokkos.load srt sph dsph junk ne f = some (P, Kokkos.State.init ℝ) ∧ ∀ Q D, Orthonormal3 Q →
      SphRotates sph Q D ((f.lmax + 1) * (f.lmax + 1)) → Intertwines (netOf f) f.nT D → ∀ s1 s2, HistK f P s1 → HistK f P s2 →
      ∀ (V1 V2 : Kokkos.Env ℝ) (T : Sys) X, SysOk f T → Inside f T X →
      ∃ t1 t2, Kokkos.compute V1 P f.zbl (T.graph X) s1 = some t1 ∧ Kokkos.compute V2 P f.zbl (T.graph (rotate Q X)) s2 = some t2 ∧
        (∃ E : List ℝ, E.length = T.N ∧ ZeroPadded t1.energies E ∧ ZeroPadded t2.energies E) ∧
        (ScalesNonzero f sph T X → ∃ F : ℕ → ℕ → ℝ, ∀ e < T.E, ∀ a < 3, t1.forces.data[3 * e + a]? = some (F e a) ∧
          t2.forces.data[3 * e + a]? = some (∑ b ∈ Finset.range 3, Q a b * F e b)) := by
  obtain ⟨P, s0, P', h1, h2, h⟩ := C62_kokkos_equals_cpu (f := f) (sph := sph) (dsph := dsph) (junk := junk) hf hk hsrt
  obtain ⟨P'', s0', h1', hr⟩ := C56_rotation_invariance f sph dsph hf hsrt hsph
  rw [h1] at h1'
  cases h1'
  refine ⟨P', h2, fun Q D hQ hY hD s1 s2 hs1 hs2 V1 V2 T X hT hX => ?_⟩
  obtain ⟨c1, c2, a1, a2, a3, a4⟩ := hr Q D hQ hY hD s0 s0 Hist.init Hist.init T X hT hX
  obtain ⟨c1', t1, b1, b2, b3, b4, b5, b6⟩ := h T X hT hX s0 Hist.init s1 hs1 V1
  obtain ⟨c2', t2, d1, d2, d3, d4, d5, d6⟩ := h T (rotate Q X) hT (inside_rotate hQ hX) s0 Hist.init s2 hs2 V2
  rw [a1] at b1
  rw [a2] at d1
  cases b1
  cases d1
  refine ⟨t1, t2, b2, d2, ⟨c1.nodeEnergies, b3, b5, by rw [← a3]; exact d5⟩, fun hn => ?_⟩
  obtain ⟨F, hF⟩ := a4 hn
  refine ⟨F, fun e he a ha => ?_⟩
  have hp : ∀ (v : View ℝ) (l : List ℝ), ZeroPadded v l → l.length = 3 * T.E → v.data[3 * e + a]? = l[3 * e + a]? := by
    intro v l hv hl
    rw [hv.2.2 _ (by have := hv.2.1; omega), if_pos (by omega)]
  rw [hp _ _ b6 b4, hp _ _ d6 d4]
  exact hF e he a ha

end props

/-! ## A file and rotations meeting the hypotheses

Two elements, two channels, `l_max = L_max = 1`, four message paths (scalar times scalar, scalar product, vector times scalar, scalar
times vector); the harmonics are those of `exSph`, so that `D` is `Q` with its coordinates permuted. -/

noncomputable def rotFile : File :=
  { exFile with
    vals1 := List.replicate 3 (List.replicate 8 [1, 2, 3])
    ders1 := List.replicate 3 (List.replicate 8 [1, 0, -1])
    M0w := fun a LM k => if LM = 0 then [a + 1, k, k, k] else [a + 1, k]
    M0mon := fun LM => if LM = 0 then [[0], [1, 1], [2, 2], [3, 3]] else [[LM], [0, LM]]
    phil := [0, 0, 1, 1]
    phil1 := [0, 1, 1, 0]
    phil2 := [0, 1, 0, 1]
    philme := [0, 1, 1, 1, 2, 4, 6, 3, 5, 7]
    cg := [1, 3, 3, 3, 1 / 2, 1 / 2, 1 / 2, 2, 2, 2]
    philelm := [0, 1, 5, 9, 10, 11, 12, 13, 14, 15]
    A1w := [[1, 2, 3, 4, 5, 6, 7, 8], [1, 2, 3, 4, 5, 6, 7, 8]]
    M1w := fun a k => [a + 1, k, k, k]
    M1mon := [[0], [1, 1], [2, 2], [3, 3]] }

theorem rotFile_couplings : rotFile.couplings = [(0, 0, 0), (1, 1, 1), (1, 1, 2), (1, 1, 3), (1, 2, 1), (1, 2, 2), (1, 2, 3),
    (1, 3, 1), (1, 3, 2), (1, 3, 3), (2, 1, 0), (2, 2, 0), (2, 3, 0), (3, 0, 1), (3, 0, 2), (3, 0, 3)] := rfl

theorem rotFile_ok : FileOk rotFile where
  nT := exFile_ok.nT
  C := exFile_ok.C
  nP := by decide
  energies := exFile_ok.energies
  zbl := exFile_ok.zbl
  h := exFile_ok.h
  vals0 := rfl
  ders0 := rfl
  rows0 := exFile_ok.rows0
  nodes0 := exFile_ok.nodes0
  vals1 := rfl
  ders1 := rfl
  rows1 := by
    intro i hi
    have : i < 3 := hi
    interval_cases i <;> refine ⟨rfl, rfl, ?_, ?_⟩ <;> intro w hw <;> rw [List.eq_of_mem_replicate hw] <;> rfl
  nodes1 := by show 0 < 3; omega
  H0w := exFile_ok.H0w
  A0w := exFile_ok.A0w
  A0s := exFile_ok.A0s
  M0w := by
    intro a _ LM _ k _
    show (if LM = 0 then _ else _ : List ℝ).length = (if LM = 0 then _ else _ : List (List ℕ)).length
    split_ifs <;> rfl
  M0mon := by
    intro LM hLM
    have : LM < 4 := hLM
    have e : rotFile.M0mon LM = if LM = 0 then [[0], [1, 1], [2, 2], [3, 3]] else [[LM], [0, LM]] := rfl
    have h4 : (rotFile.lmax + 1) * (rotFile.lmax + 1) = 4 := rfl
    rw [e, h4]
    interval_cases LM <;> decide
  H1w := exFile_ok.H1w
  phil := by decide
  phil1 := by decide
  phil2 := by decide
  philme := by decide
  philelm := by
    rw [rotFile_couplings]
    decide
  A1w := by
    refine ⟨by decide, fun l hl => ?_⟩
    have : l ≤ 1 := hl
    interval_cases l <;> decide
  A1s := by intro h; exact absurd h (by decide)
  M1w := by intros; rfl
  M1mon := by decide
  H2wH1 := exFile_ok.H2wH1
  H2wM1 := exFile_ok.H2wM1
  ro1 := exFile_ok.ro1
  ro2w1 := rfl
  ro2w2 := rfl

/-- The matrices of `exSph`: the scalar is unchanged, the components `1, 2, 3` are the coordinates `2, 0, 1` of the vector. -/
def rotD (Q : ℕ → ℕ → ℝ) (lm lm' : ℕ) : ℝ :=
  if lm = 0 ∧ lm' = 0 then 1 else if 0 < lm ∧ lm < 4 ∧ 0 < lm' ∧ lm' < 4 then Q ((lm + 1) % 3) ((lm' + 1) % 3) else 0

theorem rotD_sph (Q : ℕ → ℕ → ℝ) : SphRotates exSph Q (rotD Q) ((rotFile.lmax + 1) * (rotFile.lmax + 1)) := by
  intro v _ lm hlm
  have : lm < 4 := hlm
  have e4 : (rotFile.lmax + 1) * (rotFile.lmax + 1) = 4 := rfl
  rw [e4]
  interval_cases lm <;> simp [Finset.sum_range_succ, exSph, rotD] <;> ring

theorem act4 (Q : ℕ → ℕ → ℝ) (x : ℕ → ℝ) : act (rotD Q) 4 x 0 = x 0 ∧ act (rotD Q) 4 x 1 = Q 2 2 * x 1 + Q 2 0 * x 2 + Q 2 1 * x 3 ∧
    act (rotD Q) 4 x 2 = Q 0 2 * x 1 + Q 0 0 * x 2 + Q 0 1 * x 3 ∧ act (rotD Q) 4 x 3 = Q 1 2 * x 1 + Q 1 0 * x 2 + Q 1 1 * x 3 := by
  refine ⟨?_, ?_, ?_, ?_⟩ <;> simp [act, Finset.sum_range_succ, rotD]

theorem rot_coupled (r y h : ℕ → ℝ) : coupled (netOf rotFile) r y h 0 = r 0 * y 0 * h 0 ∧
    coupled (netOf rotFile) r y h 1 = 3 * (r 1 * (y 1 * h 1 + y 2 * h 2 + y 3 * h 3)) ∧
    (∀ m < 3, coupled (netOf rotFile) r y h (2 + m * 2) = 1 / 2 * (r 2 * y (1 + m) * h 0)) ∧
    ∀ m < 3, coupled (netOf rotFile) r y h (2 + m * 2 + 1) = 2 * (r 3 * y 0 * h (1 + m)) := by
  have key : ∀ o, coupled (netOf rotFile) r y h o = (if 0 = o then 1 * (r 0 * y 0 * h 0) else 0)
      + (if 1 = o then 3 * (r 1 * y 1 * h 1) else 0) + (if 1 = o then 3 * (r 1 * y 2 * h 2) else 0)
      + (if 1 = o then 3 * (r 1 * y 3 * h 3) else 0)
      + (if 2 = o then 1 / 2 * (r 2 * y 1 * h 0) else 0) + (if 4 = o then 1 / 2 * (r 2 * y 2 * h 0) else 0)
      + (if 6 = o then 1 / 2 * (r 2 * y 3 * h 0) else 0)
      + (if 3 = o then 2 * (r 3 * y 0 * h 1) else 0) + (if 5 = o then 2 * (r 3 * y 0 * h 2) else 0)
      + (if 7 = o then 2 * (r 3 * y 0 * h 3) else 0) := by
    intro o
    have e10 : (netOf rotFile).nCG = 10 := rfl
    unfold coupled
    rw [e10]
    simp only [Finset.sum_range_succ, Finset.sum_range_zero, zero_add]
    rfl
  refine ⟨?_, ?_, fun m hm => ?_, fun m hm => ?_⟩
  · rw [key]; simp
  · rw [key]; simp; ring
  · rw [key]; interval_cases m <;> simp
  · rw [key]; interval_cases m <;> simp

theorem rot_squares {Q : ℕ → ℕ → ℝ} (hQ : Orthonormal3 Q) (x y : ℕ → ℝ) :
    act (rotD Q) 4 x 1 * act (rotD Q) 4 y 1 + act (rotD Q) 4 x 2 * act (rotD Q) 4 y 2 + act (rotD Q) 4 x 3 * act (rotD Q) 4 y 3
      = x 1 * y 1 + x 2 * y 2 + x 3 * y 3 := by
  obtain ⟨-, a1, a2, a3⟩ := act4 Q x
  obtain ⟨-, b1, b2, b3⟩ := act4 Q y
  rw [a1, a2, a3, b1, b2, b3]
  have h : ∀ b c, b < 3 → c < 3 → Q 0 b * Q 0 c + Q 1 b * Q 1 c + Q 2 b * Q 2 c = if b = c then 1 else 0 := by
    intro b c hb hc
    have := hQ b hb c hc
    rw [← this]
    simp only [Finset.sum_range_succ, Finset.sum_range_zero, zero_add]
  have h00 := h 0 0 (by omega) (by omega)
  have h11 := h 1 1 (by omega) (by omega)
  have h22 := h 2 2 (by omega) (by omega)
  have h01 := h 0 1 (by omega) (by omega)
  have h02 := h 0 2 (by omega) (by omega)
  have h12 := h 1 2 (by omega) (by omega)
  norm_num at h00 h11 h22 h01 h02 h12
  linear_combination x 2 * y 2 * h00 + x 3 * y 3 * h11 + x 1 * y 1 * h22 + (x 2 * y 3 + x 3 * y 2) * h01
    + (x 2 * y 1 + x 1 * y 2) * h02 + (x 1 * y 3 + x 3 * y 1) * h12

theorem rot_intertwines {Q : ℕ → ℕ → ℝ} (hQ : Orthonormal3 Q) : Intertwines (netOf rotFile) rotFile.nT (rotD Q) where
  block := by
    intro a b hab
    unfold rotD
    have hs : ∀ c, 0 < c → c < 4 → Nat.sqrt c = 1 := by
      intro c h0 h4
      have := sqrt_block (l := 1) (m := c - 1) (by omega)
      rwa [show 1 * 1 + (c - 1) = c by omega] at this
    split_ifs with h1 h2
    · rw [h1.1, h1.2] at hab
      exact absurd rfl hab
    · rw [hs a h2.1 h2.2.1, hs b h2.2.2.1 h2.2.2.2] at hab
      exact absurd rfl hab
    · rfl
  one := by simp [rotD]
  prod0 := by
    intro t _ LM hLM k _ x
    have h4 : LM < 4 := hLM
    have eM : (netOf rotFile).M = 4 := rfl
    have eLM : (netOf rotFile).LM = 4 := rfl
    rw [eM, eLM]
    have hp0 : ∀ z, polynomial ((netOf rotFile).coef0 t 0 k) ((netOf rotFile).mono0 0) z
        = (t + 1) * z 0 + k * (z 1 * z 1 + z 2 * z 2 + z 3 * z 3) := by
      intro z
      show polynomial [(t : ℝ) + 1, k, k, k] [[0], [1, 1], [2, 2], [3, 3]] z = _
      simp [polynomial, monomial]
      ring
    have hp : ∀ z m, m < 3 → polynomial ((netOf rotFile).coef0 t (m + 1) k) ((netOf rotFile).mono0 (m + 1)) z
        = (t + 1) * z (m + 1) + k * (z 0 * z (m + 1)) := by
      intro z m _
      show polynomial [(t : ℝ) + 1, k] [[m + 1], [0, m + 1]] z = _
      simp [polynomial, monomial]
    obtain ⟨a0, a1, a2, a3⟩ := act4 Q x
    obtain ⟨b0, b1, b2, b3⟩ := act4 Q (fun LM' => polynomial ((netOf rotFile).coef0 t LM' k) ((netOf rotFile).mono0 LM') x)
    have q1 := hp x 0 (by omega)
    have q2 := hp x 1 (by omega)
    have q3 := hp x 2 (by omega)
    interval_cases LM
    · rw [b0, hp0, hp0, a0]
      rw [rot_squares hQ x x]
    · rw [b1, hp _ 0 (by omega)]
      simp only [zero_add, Nat.reduceAdd] at q1 q2 q3 ⊢
      rw [q1, q2, q3, a0, a1]
      ring
    · rw [b2, hp _ 1 (by omega)]
      simp only [zero_add, Nat.reduceAdd] at q1 q2 q3 ⊢
      rw [q1, q2, q3, a0, a2]
      ring
    · rw [b3, hp _ 2 (by omega)]
      simp only [zero_add, Nat.reduceAdd] at q1 q2 q3 ⊢
      rw [q1, q2, q3, a0, a3]
      ring
  couple := by
    intro l hl m hm e he r y h
    have hl1 : l ≤ 1 := hl
    have eM : (netOf rotFile).M = 4 := rfl
    have eLM : (netOf rotFile).LM = 4 := rfl
    obtain ⟨y0, y1, y2, y3⟩ := act4 Q y
    obtain ⟨h0, h1, h2, h3⟩ := act4 Q h
    obtain ⟨c0, c1, c2, c3⟩ := rot_coupled r y h
    obtain ⟨d0, d1, d2, d3⟩ := rot_coupled r (act (rotD Q) 4 y) (act (rotD Q) 4 h)
    rw [eM, eLM]
    have n0 : (netOf rotFile).nE 0 = 2 := rfl
    have n1 : (netOf rotFile).nE 1 = 2 := rfl
    have z0 : (netOf rotFile).base 0 = 0 := rfl
    have z1 : (netOf rotFile).base 1 = 2 := rfl
    interval_cases l
    · rw [n0] at he ⊢
      rw [z0]
      have : m = 0 := by omega
      subst this
      interval_cases e
      · simp only [Finset.sum_range_succ, Finset.sum_range_zero, zero_add, mul_zero, zero_mul, add_zero]
        rw [d0, c0, y0, h0]
        simp [rotD]
      · simp only [Finset.sum_range_succ, Finset.sum_range_zero, zero_add, mul_zero, zero_mul, add_zero]
        rw [d1, c1, rot_squares hQ y h]
        simp [rotD]
    · rw [n1] at he ⊢
      rw [z1]
      have hm3 : m < 3 := hm
      have e3 : 2 * 1 + 1 = 3 := rfl
      rw [e3]
      have hy : act (rotD Q) 4 y (1 + m) = ∑ m' ∈ Finset.range 3, rotD Q (1 * 1 + m) (1 * 1 + m') * y (1 + m') := by
        interval_cases m
        · rw [y1]; simp [Finset.sum_range_succ, rotD]
        · rw [y2]; simp [Finset.sum_range_succ, rotD]
        · rw [y3]; simp [Finset.sum_range_succ, rotD]
      have hh : act (rotD Q) 4 h (1 + m) = ∑ m' ∈ Finset.range 3, rotD Q (1 * 1 + m) (1 * 1 + m') * h (1 + m') := by
        interval_cases m
        · rw [h1]; simp [Finset.sum_range_succ, rotD]
        · rw [h2]; simp [Finset.sum_range_succ, rotD]
        · rw [h3]; simp [Finset.sum_range_succ, rotD]
      interval_cases e
      · rw [Finset.sum_congr rfl (fun m' hm' => by rw [add_zero, c2 m' (Finset.mem_range.mp hm')])]
        rw [add_zero, d2 m hm3, hy, h0, Finset.mul_sum, Finset.sum_mul, Finset.mul_sum]
        refine Finset.sum_congr rfl (fun m' _ => ?_)
        ring
      · rw [Finset.sum_congr rfl (fun m' hm' => by rw [c3 m' (Finset.mem_range.mp hm')])]
        rw [d3 m hm3, hh, y0, Finset.mul_sum, Finset.mul_sum]
        refine Finset.sum_congr rfl (fun m' _ => ?_)
        ring
  prod1 := by
    intro t _ k _ x
    have eM : (netOf rotFile).M = 4 := rfl
    rw [eM]
    have hp : ∀ z, polynomial ((netOf rotFile).coef1 t k) (netOf rotFile).mono1 z
        = (t + 1) * z 0 + k * (z 1 * z 1 + z 2 * z 2 + z 3 * z 3) := by
      intro z
      show polynomial [(t : ℝ) + 1, k, k, k] [[0], [1, 1], [2, 2], [3, 3]] z = _
      simp [polynomial, monomial]
      ring
    rw [hp, hp, (act4 Q x).1, rot_squares hQ x x]

/-- The rotation by a quarter turn about the third axis. -/
def quarterTurn (a b : ℕ) : ℝ := if a = 0 ∧ b = 1 then -1 else if a = 1 ∧ b = 0 then 1 else if a = 2 ∧ b = 2 then 1 else 0

theorem quarterTurn_orthonormal : Orthonormal3 quarterTurn := by
  intro b hb c hc
  interval_cases b <;> interval_cases c <;> norm_num [Finset.sum_range_succ, quarterTurn]

theorem rotScales : ScalesNonzero rotFile exSph exSys exX := exScales

theorem rotInside : Inside rotFile exSys exX := exInside

theorem rotFile_okK : FileOkK rotFile 2 where
  elements := by decide
  mono0 := by
    intro LM _ m hm
    have e : rotFile.M0mon LM = if LM = 0 then [[0], [1, 1], [2, 2], [3, 3]] else [[LM], [0, LM]] := rfl
    rw [e] at hm
    split_ifs at hm
    · simp only [List.mem_cons, List.not_mem_nil, or_false] at hm
      rcases hm with rfl | rfl | rfl | rfl <;> simp
    · simp only [List.mem_cons, List.not_mem_nil, or_false] at hm
      rcases hm with rfl | rfl <;> simp
  mono1 := by decide
  A0s := exFile_okK.A0s
  A1s := exFile_okK.A1s

/-- The hypotheses of C56 hold for this file, for every rotation and reflection `Q`, and `Q` need not be trivial. -/
example : FileOk rotFile ∧ FileOkK rotFile 2 ∧ IsSphGrad exSph exDsph ((rotFile.lmax + 1) * (rotFile.lmax + 1)) ∧ SysOk rotFile exSys ∧
    Inside rotFile exSys exX ∧ ScalesNonzero rotFile exSph exSys exX ∧
    (∀ Q, Orthonormal3 Q → SphRotates exSph Q (rotD Q) ((rotFile.lmax + 1) * (rotFile.lmax + 1)) ∧
      Intertwines (netOf rotFile) rotFile.nT (rotD Q)) ∧ Orthonormal3 quarterTurn ∧ rotate quarterTurn exX 0 1 = 1 := by
  refine ⟨rotFile_ok, rotFile_okK, exSph_ok, ?_, rotInside, rotScales, fun Q hQ => ⟨rotD_sph Q, rot_intertwines hQ⟩, quarterTurn_orthonormal, ?_⟩
  · exact ⟨by decide, by decide, by decide, by decide, by decide, by decide, by decide⟩
  · simp [rotate, Finset.sum_range_succ, quarterTurn, exX]

end Verif.Props
