import Verif.Lemmas.Extract.Limit
import Verif.Props.SplineError
import Verif.Props.ExtractExample
import Mathlib.Analysis.SpecificLimits.Basic
import Mathlib.Analysis.SpecialFunctions.Trigonometric.DerivHyp

/-! # Property theorems: refining the tables (C96) -/

namespace Verif.Props
open Verif.MACE Verif.Spec Verif.Extract Filter Topology

/-- A radial function that can be tabulated: four derivatives up to the cutoff, zero slope there. -/
def Tabulable (rcut : ℝ) (R : ℝ → ℝ) : Prop := ∃ R' B, Smooth4 R R' 1e-12 rcut B ∧ R' rcut = 0

/-- All radial functions and edge densities of the PyTorch model can be tabulated. -/
structure RadialsOk (M : Torch) : Prop where
  R0 : ∀ a < M.zs.length, ∀ b < M.zs.length, ∀ c < (M.lmax + 1) * M.C, Tabulable M.rcut (M.R0 a b c)
  R1 : ∀ a < M.zs.length, ∀ b < M.zs.length, ∀ c < M.phil.length * M.C, Tabulable M.rcut (M.R1 a b c)
  dens0 : ∀ d, M.dens0 = some d → ∀ a < M.zs.length, ∀ b < M.zs.length, Tabulable M.rcut (fun r => Real.tanh (d a b r ^ 2))
  dens1 : ∀ d, M.dens1 = some d → ∀ a < M.zs.length, ∀ b < M.zs.length, Tabulable M.rcut (fun r => Real.tanh (d a b r ^ 2))

/-- The radial functions seen by the evaluators in the limit: the script's grid begins at 1e-12, the evaluators' at 0. -/
noncomputable def Torch.shifted (M : Torch) : Radials := M.radials.map (fun R r => R (r + 1e-12))

theorem gridStep_tendsto (rcut : ℝ) : Tendsto (gridStep rcut) atTop (𝓝 0) := by
  have h1 : Tendsto (fun n : ℕ => ((n - 1 : ℕ) : ℝ)) atTop atTop :=
    tendsto_natCast_atTop_atTop.comp (tendsto_sub_atTop_nat 1)
  exact h1.const_div_atTop _

theorem getD_mem {an : List ℕ} {k : ℕ} (hk : k < an.length) : nthN an k ∈ an := by
  have : nthN an k = an[k] := by simp [nthN, hk]
  rw [this]
  exact List.getElem_mem hk

section
variable {M : Torch} {cg : ℕ → ℕ → ℕ → ℕ → ℝ} {der : ℕ → List ℝ → List ℝ}

theorem spline_tendsto {rcut : ℝ} (hr : 1e-12 < rcut)
    (hs : ∀ n, 3 ≤ n → ∀ v : List ℝ, v.length = n → ScipySlopes (gridStep rcut n) n (nth v) (nth (der n v))) {R : ℝ → ℝ}
    (hR : Tabulable rcut R) {r : ℝ} (h0 : 0 ≤ r) (h1 : r < rcut - 1e-12) :
    Tendsto (fun n => splineOf rcut n (der n) R r) atTop (𝓝 (R (r + 1e-12))) := by
  obtain ⟨R', B, hR, he⟩ := hR
  rw [tendsto_iff_norm_sub_tendsto_zero]
  have hz : Tendsto (fun n => 29 / 384 * B * gridStep rcut n ^ 4) atTop (𝓝 0) := by
    have := ((gridStep_tendsto rcut).pow 4).const_mul (29 / 384 * B)
    simpa using this
  refine squeeze_zero' (Eventually.of_forall fun n => norm_nonneg _) ?_ hz
  filter_upwards [eventually_ge_atTop 3] with n hn
  exact (C95_extracted hr hn (hs n hn _ (tableOf_length _ _ _)) hR he h0 h1).1

theorem radials_tendsto (hr : 1e-12 < M.rcut) (hR : RadialsOk M)
    (hs : ∀ n, 3 ≤ n → ∀ v : List ℝ, v.length = n → ScipySlopes (gridStep M.rcut n) n (nth v) (nth (der n v))) :
    RadialsTo M {r | 0 ≤ r ∧ r < M.rcut - 1e-12} (fun n => M.radials.map (splineOf M.rcut n (der n))) (Torch.shifted M) where
  R0 a ha b hb c hc r h := spline_tendsto hr hs (hR.R0 a ha b hb c hc) h.1 h.2
  R1 a ha b hb c hc r h := spline_tendsto hr hs (hR.R1 a ha b hb c hc) h.1 h.2
  d0 := by
    simp only [Torch.shifted, Radials.map, Torch.radials]
    cases hd : M.dens0 with
    | none => exact fun n => rfl
    | some d =>
      refine ⟨fun n a b => splineOf M.rcut n (der n) (fun r => Real.tanh (d a b r ^ 2)), fun n => rfl, fun a b r => ?_,
        fun a ha b hb r h => spline_tendsto hr hs (hR.dens0 d hd a ha b hb) h.1 h.2⟩
      change 0 ≤ Real.tanh _
      rw [Real.tanh_eq_sinh_div_cosh]
      exact div_nonneg (Real.sinh_nonneg_iff.mpr (sq_nonneg _)) (Real.cosh_pos _).le
  d1 := by
    simp only [Torch.shifted, Radials.map, Torch.radials]
    cases hd : M.dens1 with
    | none => exact fun n => rfl
    | some d =>
      refine ⟨fun n a b => splineOf M.rcut n (der n) (fun r => Real.tanh (d a b r ^ 2)), fun n => rfl, fun a b r => ?_,
        fun a ha b hb r h => spline_tendsto hr hs (hR.dens1 d hd a ha b hb) h.1 h.2⟩
      change 0 ≤ Real.tanh _
      rw [Real.tanh_eq_sinh_div_cosh]
      exact div_nonneg (Real.sinh_nonneg_iff.mpr (sq_nonneg _)) (Real.cosh_pos _).le

theorem inside_of (h : TorchOk M cg) {an : List ℕ} (ha : ElemOk M an) {n : ℕ} (hn : 2 ≤ n) {der : List ℝ → List ℝ} {us : List (ℕ → ℕ → ℕ → Dict)}
    {u1 : ℕ → ℕ → ℕ → Dict} {inv1 : ℕ → ℕ → ℝ} {T : Sys} {X : ℕ → ℕ → ℝ} (hX : ∀ e < T.E, 0 < len (X e) ∧ len (X e) < M.rcut - 1e-12) :
    Inside (fileOf n der M an us u1 inv1) T X := by
  intro e he
  have hE : gridStep M.rcut n * (n - 1 : ℕ) = M.rcut - 1e-12 := by rw [mul_comm]; exact gridStep_end hn
  have e0 : (fileOf n der M an us u1 inv1).nodes0 = n := nodes_eq ha M.rcut (Nat.mul_pos (by omega) h.C)
    (fun p => M.R0 (index M.zs p.1) (index M.zs p.2))
  have e1 : (fileOf n der M an us u1 inv1).nodes1 = n := nodes_eq ha M.rcut (Nat.mul_pos (List.length_pos_iff.mpr h.paths) h.C)
    (fun p => M.R1 (index M.zs p.1) (index M.zs p.2))
  refine ⟨(hX e he).1, ?_, ?_, fun _ w hw => ?_, fun _ w hw => ?_⟩
  · rw [e0]; exact hE ▸ (hX e he).2
  · rw [e1]; exact hE ▸ (hX e he).2
  · have hl : w.length = n := by
      simp only [fileOf] at hw
      cases hd : M.dens0 with
      | none => simp [hd] at hw
      | some d =>
        simp only [hd] at hw
        obtain ⟨p, -, rfl⟩ := List.mem_map.mp hw
        exact tableOf_length _ _ _
    rw [hl]; exact hE ▸ (hX e he).2
  · have hl : w.length = n := by
      simp only [fileOf] at hw
      cases hd : M.dens1 with
      | none => simp [hd] at hw
      | some d =>
        simp only [hd] at hw
        obtain ⟨p, -, rfl⟩ := List.mem_map.mp hw
        exact tableOf_length _ _ _
    rw [hl]; exact hE ▸ (hX e he).2

theorem scene_in {an : List ℕ} (ha : ElemOk M an) {n : ℕ} {der : List ℝ → List ℝ} {us : List (ℕ → ℕ → ℕ → Dict)}
    {u1 : ℕ → ℕ → ℕ → Dict} {inv1 : ℕ → ℕ → ℝ} {T : Sys} (hT : SysOk (fileOf n der M an us u1 inv1) T) {X : ℕ → ℕ → ℝ}
    (hX : ∀ e < T.E, 0 < len (X e) ∧ len (X e) < M.rcut - 1e-12) (sph : ℝ → ℝ → ℝ → ℕ → ℝ) :
    SceneIn M {r | 0 ≤ r ∧ r < M.rcut - 1e-12} T.N (sceneOf M an sph T X) where
  z i hi := by
    have ht : nthN T.types i < an.length := hT.typ i hi
    refine List.idxOf_lt_length_iff.mpr (ha.mem _ ?_)
    exact getD_mem ht
  nz i hi e he := by
    have ht : nthN T.ntypes e < an.length := hT.nty e (edg_lt hi he)
    refine List.idxOf_lt_length_iff.mpr (ha.mem _ ?_)
    exact getD_mem ht
  nbr i hi e he := hT.nbr e (edg_lt hi he)
  len i hi e he := ⟨(hX e (edg_lt hi he)).1.le, (hX e (edg_lt hi he)).2⟩

/-- C96: as the tables are refined, the energies of the evaluator made of the extracted file tend to those of the PyTorch network (with
distances shifted by 1e-12), whatever the evaluator computed before; and no normalisation is zero. -/
theorem C96_energies (h : TorchOk M cg) (hR : RadialsOk M) {inv : ℕ → (ℕ → ℕ → ℝ) → Option (ℕ → ℕ → ℝ)} {species : List ℕ}
    (hd : ∀ n v, (der n v).length = v.length)
    (hsl : ∀ n, 3 ≤ n → ∀ v : List ℝ, v.length = n → ScipySlopes (gridStep M.rcut n) n (nth v) (nth (der n v)))
    (hsp : species.Nodup) (hi : InvOk inv) {f : ℕ → File} (hf : ∀ n, 3 ≤ n → extract n (der n) inv species M = some (f n))
    {srt : List (List (List ℕ)) → List (List (List ℕ))} (hs : Poly.SortFn srt) (sph : ℝ → ℝ → ℝ → ℕ → ℝ) (dsph : ℝ → ℝ → ℝ → ℕ → ℕ → ℝ)
    {T : Sys} (hT : SysOk (f 3) T) {X : ℕ → ℕ → ℝ} (hX : ∀ e < T.E, 0 < len (X e) ∧ len (X e) < M.rcut - 1e-12) :
    ∀ ε > 0, ∃ n0, 3 ≤ n0 ∧ ∀ n, n0 ≤ n → ScalesNonzero (f n) sph T X ∧ ∃ P s0, load srt sph dsph (f n) = some (P, s0) ∧
      ∀ s, Hist (f n) P s0 s → ∃ t, computeNodeEnergiesForces (f n).zbl P (T.graph X) s = some t ∧
        ∀ i < T.N, ∃ v, t.nodeEnergies[i]? = some v ∧ |v - torchEnergy M (Torch.shifted M) cg (sceneOf M (f n).atomicNumbers sph T X) i| ≤ ε := by
  intro ε hε
  set an := elems M species
  have hne : an.length = (f 3).nT := by
    obtain ⟨-, -, us, u1, inv1, e, -⟩ := extract_some (hf 3 le_rfl)
    rw [e]; rfl
  have hTn : ∀ n, 3 ≤ n → SysOk (f n) T := fun n hn => by
    have e : (f n).nT = (f 3).nT := by
      obtain ⟨-, -, us, u1, inv1, e, -⟩ := extract_some (hf n hn)
      rw [← hne, e]; rfl
    exact ⟨hT.types, by rw [e]; exact hT.typ, hT.nn, hT.idx, hT.nbr, hT.ntypes, by rw [e]; exact hT.nty⟩
  have ha : ElemOk M an := by
    obtain ⟨-, ha, -⟩ := extract_some (hf 3 le_rfl)
    exact elems_ok h hsp ha
  have hS : SceneIn M {r | 0 ≤ r ∧ r < M.rcut - 1e-12} T.N (sceneOf M an sph T X) := by
    obtain ⟨-, -, us, u1, inv1, e, -⟩ := extract_some (hf 3 le_rfl)
    rw [e] at hT
    exact scene_in ha hT hX sph
  have hto := radials_tendsto (M := M) h.rcut hR hsl
  have ev1 : ∀ᶠ n in atTop, ∀ i ∈ Finset.range T.N, |torchEnergy M (M.radials.map (splineOf M.rcut n (der n))) cg (sceneOf M an sph T X) i
      - torchEnergy M (Torch.shifted M) cg (sceneOf M an sph T X) i| < ε := by
    rw [Filter.eventually_all_finset]
    intro i hiN
    exact Metric.tendsto_nhds.mp (torchEnergy_tendsto hto h.avg hS (Finset.mem_range.mp hiN)) ε hε
  have ev2 : ∀ᶠ n in atTop, ∀ i ∈ Finset.range T.N, tNorm0 M (M.radials.map (splineOf M.rcut n (der n))) (sceneOf M an sph T X) i ≠ 0
      ∧ tNorm1 M (M.radials.map (splineOf M.rcut n (der n))) (sceneOf M an sph T X) i ≠ 0 := by
    rw [Filter.eventually_all_finset]
    intro i hiN
    have t0 := tNorm0_tendsto hto h.avg.1 hS (Finset.mem_range.mp hiN)
    have t1 := tNorm1_tendsto hto h.avg.2 hS (Finset.mem_range.mp hiN)
    exact (t0.1.eventually_ne t0.2).and (t1.1.eventually_ne t1.2)
  obtain ⟨n1, hn1⟩ := eventually_atTop.mp (ev1.and ev2)
  refine ⟨max n1 3, le_max_right _ _, fun n hn => ?_⟩
  have hn3 : 3 ≤ n := (le_max_right _ _).trans hn
  obtain ⟨c1, c2⟩ := hn1 n ((le_max_left _ _).trans hn)
  have hTn' := hTn n hn3
  have hok := ((C78_file_shape (inv := inv) h (by omega : 2 ≤ n) (hd n) hsp).2 _ (hf n hn3)).1
  obtain ⟨-, -, us, u1, inv1, e, hsu, hsu1, hinv⟩ := extract_some (hf n hn3)
  have hXn : Inside (f n) T X := by rw [e]; exact inside_of h ha (by omega) hX
  have hat : (f n).atomicNumbers = an := by rw [e]; rfl
  refine ⟨fun i hiN => ?_, ?_⟩
  · rw [e] at hTn' ⊢
    have b := c2 i (Finset.mem_range.mpr hiN)
    constructor
    · intro hz
      have := s0_eq (n := n) (der := der n) (us := us) (u1 := u1) (inv1 := inv1) (sph := sph) (X := X) h ha hTn' hiN
      rw [hz, zero_mul] at this
      exact b.1 this.symm
    · intro hz
      have := s1_eq (n := n) (der := der n) (us := us) (u1 := u1) (inv1 := inv1) (sph := sph) (X := X) h ha hTn' hiN
      rw [hz, zero_mul] at this
      exact b.2 this.symm
  · obtain ⟨P, s0, h1, h2, h3⟩ := load_spec hok hs sph dsph
    refine ⟨P, s0, h1, fun s hh => ?_⟩
    obtain ⟨t, a1, a2, -, -⟩ := compute_spec hok hTn' h2 hXn (hh.ok hok h2 h3)
    refine ⟨t, a1, fun i hiN => ⟨_, by rw [a2]; exact getElem?_tab_lt hiN, ?_⟩⟩
    rw [hat]
    have : energy (netOf (f n)) (confOf (f n) sph T X) i
        = torchEnergy M (M.radials.map (splineOf M.rcut n (der n))) cg (sceneOf M an sph T X) i := by
      rw [e] at hTn' ⊢
      exact energy_eq h ha hTn' hsu hsu1 (fun a ha b hb => hi _ _ _ hinv a ha b hb) hiN
    rw [this]
    exact (c1 i (Finset.mem_range.mpr hiN)).le

end
end Verif.Props
