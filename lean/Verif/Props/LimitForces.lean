import Verif.Lemmas.Extract.LimitForce
import Verif.Props.Limit
import Verif.Props.Elements
import Mathlib.Analysis.Calculus.Deriv.Prod

/-! # Property theorems: forces as the tables are refined (C96) -/

namespace Verif.Props
open Verif.MACE Verif.Spec Verif.Spline Verif.Extract Filter Topology

section
variable (M : Torch)

/-- Number of entries per edge: radial functions of the two layers, densities of the two layers, harmonics. -/
def bnd : Fin 5 → ℕ
  | 0 => (M.lmax + 1) * M.C
  | 1 => M.phil.length * M.C
  | 2 => if M.dens0.isSome then 1 else 0
  | 3 => if M.dens1.isSome then 1 else 0
  | 4 => (M.lmax + 1) * (M.lmax + 1)

/-- The functions tabulated. -/
noncomputable def fn (t : Fin 5) (a b c : ℕ) : ℝ → ℝ :=
  match t with
  | 0 => M.R0 a b c
  | 1 => M.R1 a b c
  | 2 => match M.dens0 with
    | some d => fun r => Real.tanh (d a b r ^ 2)
    | none => 0
  | 3 => match M.dens1 with
    | some d => fun r => Real.tanh (d a b r ^ 2)
    | none => 0
  | 4 => 0

def bndK : ℕ := bnd M 0 + bnd M 1 + 2 + bnd M 4

noncomputable def inpOf (F : (ℝ → ℝ) → ℝ → ℝ) (S : Scene) (own : ℕ → ℕ) (E : ℕ) : Inp E (bndK M) := fun p =>
  if (p.2.2 : ℕ) < bnd M p.1 then
    (if p.1 = 4 then S.Y p.2.1 p.2.2 else F (fn M p.1 (S.z (own p.2.1)) (S.nz p.2.1) p.2.2) (S.len p.2.1)) else 0

variable {M}

theorem bnd_le (t : Fin 5) : bnd M t ≤ bndK M := by
  unfold bndK
  match t with
  | 0 => omega
  | 1 => omega
  | 2 => simp only [bnd]; split_ifs <;> omega
  | 3 => simp only [bnd]; split_ifs <;> omega
  | 4 => omega

theorem get_inpOf {F : (ℝ → ℝ) → ℝ → ℝ} {S : Scene} {own : ℕ → ℕ} {E : ℕ} {t : Fin 5} {e c : ℕ} (he : e < E) (hc : c < bnd M t) :
    Extract.get (inpOf M F S own E) t e c = if t = 4 then S.Y e c else F (fn M t (S.z (own e)) (S.nz e) c) (S.len e) := by
  unfold Extract.get
  rw [dif_pos ⟨he, hc.trans_le (bnd_le t)⟩]
  simp only [inpOf]
  rw [if_pos hc]

theorem inpOf_holds {F : (ℝ → ℝ) → ℝ → ℝ} {S : Scene} {own : ℕ → ℕ} {N E : ℕ} (hS : ∀ i < N, ∀ e ∈ S.edg i, e < E ∧ own e = i) :
    Holds M N (M.radials.map F) S (inpOf M F S own E) where
  R0 i hi e he c hc := by
    rw [get_inpOf (hS i hi e he).1 (t := 0) hc, if_neg (by decide), (hS i hi e he).2]; rfl
  R1 i hi e he c hc := by
    rw [get_inpOf (hS i hi e he).1 (t := 1) hc, if_neg (by decide), (hS i hi e he).2]; rfl
  d0 d hd i hi e he := by
    simp only [Radials.map, Torch.radials] at hd
    cases hm : M.dens0 with
    | none => simp [hm] at hd
    | some d' =>
      simp only [hm, Option.map_some, Option.some.injEq] at hd
      subst hd
      rw [get_inpOf (hS i hi e he).1 (t := 2) (by simp [bnd, hm]), if_neg (by decide), (hS i hi e he).2]
      simp only [fn, hm]
  d1 d hd i hi e he := by
    simp only [Radials.map, Torch.radials] at hd
    cases hm : M.dens1 with
    | none => simp [hm] at hd
    | some d' =>
      simp only [hm, Option.map_some, Option.some.injEq] at hd
      subst hd
      rw [get_inpOf (hS i hi e he).1 (t := 3) (by simp [bnd, hm]), if_neg (by decide), (hS i hi e he).2]
      simp only [fn, hm]
  Y i hi e he lm hlm := by
    rw [get_inpOf (hS i hi e he).1 (t := 4) hlm, if_pos rfl]

theorem fn_tabulable (hR : RadialsOk M) {t : Fin 5} (ht : t ≠ 4) {a b c : ℕ} (ha : a < M.zs.length) (hb : b < M.zs.length) (hc : c < bnd M t) :
    Tabulable M.rcut (fn M t a b c) := by
  match t, ht with
  | 0, _ => exact hR.R0 a ha b hb c hc
  | 1, _ => exact hR.R1 a ha b hb c hc
  | 2, _ =>
    cases hm : M.dens0 with
    | none => simp [bnd, hm] at hc
    | some d => simp only [fn, hm]; exact hR.dens0 d hm a ha b hb
  | 3, _ =>
    cases hm : M.dens1 with
    | none => simp [bnd, hm] at hc
    | some d => simp only [fn, hm]; exact hR.dens1 d hm a ha b hb
  | 4, h => exact absurd rfl h

/-- Derivative of the entries when the bond vectors move with velocity `D`. -/
noncomputable def dinpOf (M : Torch) (F' : (ℝ → ℝ) → ℝ → ℝ) (dsph : ℝ → ℝ → ℝ → ℕ → ℕ → ℝ) (S : Scene) (own : ℕ → ℕ) (E : ℕ) (X D : ℕ → ℕ → ℝ) :
    Inp E (bndK M) := fun p =>
  if (p.2.2 : ℕ) < bnd M p.1 then
    (if p.1 = 4 then (dsph (X p.2.1 2) (X p.2.1 0) (X p.2.1 1) 0 p.2.2 * D p.2.1 2 + dsph (X p.2.1 2) (X p.2.1 0) (X p.2.1 1) 1 p.2.2 * D p.2.1 0
        + dsph (X p.2.1 2) (X p.2.1 0) (X p.2.1 1) 2 p.2.2 * D p.2.1 1) * (2 * Real.sqrt Real.pi)
      else F' (fn M p.1 (S.z (own p.2.1)) (S.nz p.2.1) p.2.2) (S.len p.2.1) * ((∑ a ∈ Finset.range 3, X p.2.1 a * D p.2.1 a) / len (X p.2.1)))
  else 0

/-- `F'` gives the derivatives of `F`. -/
def DerOf (rcut : ℝ) (F F' : (ℝ → ℝ) → ℝ → ℝ) : Prop :=
  ∀ R, Tabulable rcut R → ∀ r, 0 < r → r < rcut - 1e-12 → HasDerivAt (F R) (F' R r) r

variable {an : List ℕ} {sph : ℝ → ℝ → ℝ → ℕ → ℝ} {dsph : ℝ → ℝ → ℝ → ℕ → ℕ → ℝ} {T : Sys} {X : ℕ → ℕ → ℝ}

theorem inpOf_hasDerivAt (hR : RadialsOk M) {F F' : (ℝ → ℝ) → ℝ → ℝ} (hF : DerOf M.rcut F F') (hsph : IsSphGrad sph dsph ((M.lmax + 1) * (M.lmax + 1)))
    (hS : SceneIn M {r | 0 ≤ r ∧ r < M.rcut - 1e-12} T.N (sceneOf M an sph T X)) (hX : ∀ e < T.E, 0 < len (X e) ∧ len (X e) < M.rcut - 1e-12)
    (D : ℕ → ℕ → ℝ) :
    HasDerivAt (fun τ : ℝ => inpOf M F (sceneOf M an sph T (fun e a => X e a + τ * D e a)) T.owner T.E)
      (dinpOf M F' dsph (sceneOf M an sph T X) T.owner T.E X D) 0 := by
  rw [hasDerivAt_pi]
  rintro ⟨t, ⟨e, he⟩, ⟨c, hc⟩⟩
  simp only [inpOf, dinpOf]
  obtain ⟨o1, o2⟩ := owner_spec he
  split_ifs with h1 h2
  · subst h2
    have := (hsph (X e 2) (X e 0) (X e 1) (D e 2) (D e 0) (D e 1) c h1 (len_ne _ (hX e he).1)).mul_const (2 * Real.sqrt Real.pi)
    exact this
  · exact comp_len (hX e he).1 (hF _ (fn_tabulable hR h2 (hS.z _ o1) (hS.nz _ o1 e o2) h1) _ (hX e he).1 (hX e he).2)
  · exact hasDerivAt_const _ _

theorem inpOf_tendsto (hR : RadialsOk M) {F : ℕ → (ℝ → ℝ) → ℝ → ℝ} {G : (ℝ → ℝ) → ℝ → ℝ}
    (hF : ∀ R, Tabulable M.rcut R → ∀ r, 0 ≤ r → r < M.rcut - 1e-12 → Tendsto (fun n => F n R r) atTop (𝓝 (G R r)))
    (hS : SceneIn M {r | 0 ≤ r ∧ r < M.rcut - 1e-12} T.N (sceneOf M an sph T X)) (hX : ∀ e < T.E, 0 < len (X e) ∧ len (X e) < M.rcut - 1e-12) :
    Tendsto (fun n => inpOf M (F n) (sceneOf M an sph T X) T.owner T.E) atTop (𝓝 (inpOf M G (sceneOf M an sph T X) T.owner T.E)) := by
  rw [tendsto_pi_nhds]
  rintro ⟨t, ⟨e, he⟩, ⟨c, hc⟩⟩
  simp only [inpOf]
  obtain ⟨o1, o2⟩ := owner_spec he
  split_ifs with h1 h2
  · exact tendsto_const_nhds
  · exact hF _ (fn_tabulable hR h2 (hS.z _ o1) (hS.nz _ o1 e o2) h1) _ (hX e he).1.le (hX e he).2
  · exact tendsto_const_nhds

theorem dinpOf_tendsto (hR : RadialsOk M) {F : ℕ → (ℝ → ℝ) → ℝ → ℝ} {G : (ℝ → ℝ) → ℝ → ℝ}
    (hF : ∀ R, Tabulable M.rcut R → ∀ r, 0 ≤ r → r < M.rcut - 1e-12 → Tendsto (fun n => F n R r) atTop (𝓝 (G R r)))
    (hS : SceneIn M {r | 0 ≤ r ∧ r < M.rcut - 1e-12} T.N (sceneOf M an sph T X)) (hX : ∀ e < T.E, 0 < len (X e) ∧ len (X e) < M.rcut - 1e-12)
    (D : ℕ → ℕ → ℝ) :
    Tendsto (fun n => dinpOf M (F n) dsph (sceneOf M an sph T X) T.owner T.E X D) atTop
      (𝓝 (dinpOf M G dsph (sceneOf M an sph T X) T.owner T.E X D)) := by
  rw [tendsto_pi_nhds]
  rintro ⟨t, ⟨e, he⟩, ⟨c, hc⟩⟩
  simp only [dinpOf]
  obtain ⟨o1, o2⟩ := owner_spec he
  split_ifs with h1 h2
  · exact tendsto_const_nhds
  · exact (hF _ (fn_tabulable hR h2 (hS.z _ o1) (hS.nz _ o1 e o2) h1) _ (hX e he).1.le (hX e he).2).mul_const _
  · exact tendsto_const_nhds

/-- Derivative of the splines. -/
noncomputable def splineOf' (rcut : ℝ) (n : ℕ) (der : List ℝ → List ℝ) (R : ℝ → ℝ) (r : ℝ) : ℝ :=
  hermite' (gridStep rcut n) (nth (tableOf rcut n R)) (nth (der (tableOf rcut n R))) r

theorem splineOf_der {rcut : ℝ} (hr : 1e-12 < rcut) {n : ℕ} (hn : 2 ≤ n) (der : List ℝ → List ℝ) : DerOf rcut (splineOf rcut n der) (splineOf' rcut n der) :=
  fun _ _ _ h0 _ => hermite_hasDerivAt (step_pos hr hn) _ _ h0

theorem shifted_der (rcut : ℝ) : DerOf rcut (fun R r => R (r + 1e-12)) (fun R r => deriv R (r + 1e-12)) := by
  rintro R ⟨R', B, ⟨f2, f3, f4, hR⟩, he⟩ r h0 h1
  have := (hR (r + 1e-12) (by linarith) (by linarith)).1
  have h2 : HasDerivAt R (deriv R (r + 1e-12)) (r + 1e-12) := this.differentiableAt.hasDerivAt
  have := h2.comp r ((hasDerivAt_id' r).add_const (1e-12 : ℝ))
  rw [mul_one] at this
  exact this

variable {der : ℕ → List ℝ → List ℝ}

theorem spline'_tendsto {rcut : ℝ} (hr : 1e-12 < rcut)
    (hs : ∀ n, 3 ≤ n → ∀ v : List ℝ, v.length = n → ScipySlopes (gridStep rcut n) n (nth v) (nth (der n v))) {R : ℝ → ℝ}
    (hR : Tabulable rcut R) {r : ℝ} (h0 : 0 ≤ r) (h1 : r < rcut - 1e-12) :
    Tendsto (fun n => splineOf' rcut n (der n) R r) atTop (𝓝 (deriv R (r + 1e-12))) := by
  obtain ⟨R', B, hR, he⟩ := hR
  have hd : deriv R (r + 1e-12) = R' (r + 1e-12) := by
    obtain ⟨f2, f3, f4, hR⟩ := hR
    exact (hR (r + 1e-12) (by linarith) (by linarith)).1.deriv
  rw [hd, tendsto_iff_norm_sub_tendsto_zero]
  have hz : Tendsto (fun n => B * gridStep rcut n ^ 3 / 3) atTop (𝓝 0) := by
    have := (((gridStep_tendsto rcut).pow 3).const_mul B).div_const 3
    simpa using this
  refine squeeze_zero' (Eventually.of_forall fun n => norm_nonneg _) ?_ hz
  filter_upwards [eventually_ge_atTop 3] with n hn
  exact (C95_extracted hr hn (hs n hn _ (tableOf_length _ _ _)) hR he h0 h1).2

end

section
variable {M : Torch} {cg : ℕ → ℕ → ℕ → ℕ → ℝ} {der : ℕ → List ℝ → List ℝ} {an : List ℕ} {sph : ℝ → ℝ → ℝ → ℕ → ℝ} {dsph : ℝ → ℝ → ℝ → ℕ → ℕ → ℝ}
  {T : Sys} {X : ℕ → ℕ → ℝ}

/-- The derivative of the PyTorch network's total energy with tabulated radial functions tends to that with the functions themselves. -/
theorem deriv_tendsto (h : TorchOk M cg) (hR : RadialsOk M)
    (hsl : ∀ n, 3 ≤ n → ∀ v : List ℝ, v.length = n → ScipySlopes (gridStep M.rcut n) n (nth v) (nth (der n v)))
    (hsph : IsSphGrad sph dsph ((M.lmax + 1) * (M.lmax + 1)))
    (hS : SceneIn M {r | 0 ≤ r ∧ r < M.rcut - 1e-12} T.N (sceneOf M an sph T X)) (hX : ∀ e < T.E, 0 < len (X e) ∧ len (X e) < M.rcut - 1e-12)
    (D : ℕ → ℕ → ℝ) {w : ℕ → ℝ}
    (hw : ∀ᶠ n in atTop, HasDerivAt (fun τ : ℝ => ∑ i ∈ Finset.range T.N, torchEnergy M (M.radials.map (splineOf M.rcut n (der n))) cg
      (sceneOf M an sph T (fun e a => X e a + τ * D e a)) i) (w n) 0) :
    ∃ δ, Tendsto w atTop (𝓝 δ) ∧ HasDerivAt (fun τ : ℝ => ∑ i ∈ Finset.range T.N, torchEnergy M (Torch.shifted M) cg
      (sceneOf M an sph T (fun e a => X e a + τ * D e a)) i) δ 0 := by
  have hx0 : (fun e a => X e a + 0 * D e a) = X := by funext e a; ring
  set S := sceneOf M an sph T X with hSdef
  set b0 := M.dens0.isSome with hb0
  set b1 := M.dens1.isSome with hb1
  let Φ : Inp T.E (bndK M) → ℝ := fun v => ∑ i ∈ Finset.range T.N, torchEnergy M (qV b0 b1 v) cg (scV S v) i
  have hown : ∀ τ : ℝ, ∀ i < T.N, ∀ e ∈ (sceneOf M an sph T (fun e a => X e a + τ * D e a)).edg i, e < T.E ∧ T.owner e = i :=
    fun τ i hi e he => ⟨edg_lt hi he, owner_eq hi he⟩
  have hph : ∀ le < M.phil.length, nthN M.phil1 le ≤ M.lmax := fun le hle => h.phil1.2 _ (getD_mem (by rw [h.phil1.1]; exact hle))
  have hE : ∀ (F : (ℝ → ℝ) → ℝ → ℝ) (τ : ℝ), ∑ i ∈ Finset.range T.N, torchEnergy M (M.radials.map F) cg
      (sceneOf M an sph T (fun e a => X e a + τ * D e a)) i
      = Φ (inpOf M F (sceneOf M an sph T (fun e a => X e a + τ * D e a)) T.owner T.E)
        + ∑ i ∈ Finset.range T.N, M.scale * (sceneOf M an sph T (fun e a => X e a + τ * D e a)).pair i := by
    intro F τ
    rw [← Finset.sum_add_distrib]
    refine Finset.sum_congr rfl fun i hi => ?_
    have := energy_holds (cg := cg) (inpOf_holds (M := M) (F := F) (hown τ)) (fun i hi e he => hS.nbr i hi e he) hph (Finset.mem_range.mp hi)
    rw [this]
    have e0 : (M.radials.map F).d0.isSome = b0 := by simp [Radials.map, Torch.radials, hb0]
    have e1 : (M.radials.map F).d1.isSome = b1 := by simp [Radials.map, Torch.radials, hb1]
    rw [e0, e1]
    rfl
  have hto := radials_tendsto (M := M) h.rcut hR hsl
  have hH := inpOf_holds (M := M) (F := fun R r => R (r + 1e-12)) (hown 0)
  rw [hx0] at hH
  have e0 : (M.radials.map (fun R r => R (r + 1e-12))).d0.isSome = b0 := by simp [Radials.map, Torch.radials, hb0]
  have e1 : (M.radials.map (fun R r => R (r + 1e-12))).d1.isSome = b1 := by simp [Radials.map, Torch.radials, hb1]
  have hΦ : ContDiffAt ℝ 1 Φ (inpOf M (fun R r => R (r + 1e-12)) S T.owner T.E) := by
    refine ContDiffAt.sum fun i hi => ?_
    refine energy_contDiff (N := T.N) (fun j hj => ?_) (fun j hj => ?_) (fun i hi e he => hS.nbr i hi e he) (Finset.mem_range.mp hi)
    · have := norm0_holds hH hj
      rw [e0, e1] at this
      rw [this]
      exact (tNorm0_tendsto hto h.avg.1 hS hj).2
    · have := norm1_holds hH hj
      rw [e0, e1] at this
      rw [this]
      exact (tNorm1_tendsto hto h.avg.2 hS hj).2
  have hγ := inpOf_hasDerivAt (F := fun R r => R (r + 1e-12)) (F' := fun R r => deriv R (r + 1e-12)) hR (shifted_der M.rcut) hsph hS hX D
  have hg : ∀ᶠ n in atTop, HasDerivAt (fun τ : ℝ => inpOf M (splineOf M.rcut n (der n)) (sceneOf M an sph T (fun e a => X e a + τ * D e a)) T.owner T.E)
      (dinpOf M (splineOf' M.rcut n (der n)) dsph S T.owner T.E X D) 0 := by
    filter_upwards [eventually_ge_atTop 2] with n hn
    exact inpOf_hasDerivAt hR (splineOf_der h.rcut hn (der n)) hsph hS hX D
  have t0 := inpOf_tendsto (F := fun n => splineOf M.rcut n (der n)) (G := fun R r => R (r + 1e-12)) hR
    (fun R hR r h0 h1 => spline_tendsto h.rcut hsl hR h0 h1) hS hX
  have t1 := dinpOf_tendsto (dsph := dsph) (F := fun n => splineOf' M.rcut n (der n)) (G := fun R r => deriv R (r + 1e-12)) hR
    (fun R hR r h0 h1 => spline'_tendsto h.rcut hsl hR h0 h1) hS hX D
  obtain ⟨d, δ, c1, c2, c3⟩ := curve_limit (Φ := Φ)
    (g := fun n τ => inpOf M (splineOf M.rcut n (der n)) (sceneOf M an sph T (fun e a => X e a + τ * D e a)) T.owner T.E)
    (γ := fun τ => inpOf M (fun R r => R (r + 1e-12)) (sceneOf M an sph T (fun e a => X e a + τ * D e a)) T.owner T.E)
    (by rw [hx0]; exact hΦ) hg hγ (by simp only [hx0]; exact t0) t1
  have hpair : ∀ᶠ n in atTop, HasDerivAt (fun τ : ℝ => ∑ i ∈ Finset.range T.N, M.scale * (sceneOf M an sph T (fun e a => X e a + τ * D e a)).pair i)
      (w n - d n) 0 := by
    filter_upwards [hw, c1] with n h1 h2
    refine (h1.sub h2).congr_of_eventuallyEq (Eventually.of_forall fun τ => ?_)
    have := hE (splineOf M.rcut n (der n)) τ
    simp only [Pi.sub_apply]
    rw [this]
    ring
  obtain ⟨n1, hn1⟩ := eventually_atTop.mp hpair
  have hp := hn1 n1 le_rfl
  set π := w n1 - d n1
  refine ⟨δ + π, ?_, ?_⟩
  · refine (c3.add_const π).congr' ?_
    filter_upwards [eventually_ge_atTop n1] with n hn
    have := (hn1 n hn).unique hp
    linarith
  · refine (c2.add hp).congr_of_eventuallyEq (Eventually.of_forall fun τ => ?_)
    exact hE _ τ

theorem sum_single {E : ℕ} (F : ℕ → ℕ → ℝ) {e a : ℕ} (he : e < E) (ha : a < 3) :
    ∑ e' ∈ Finset.range E, ∑ a' ∈ Finset.range 3, F e' a' * (if e' = e ∧ a' = a then 1 else 0) = F e a := by
  rw [Finset.sum_eq_single e, Finset.sum_eq_single a]
  · simp
  · intro a' _ hne
    simp [hne]
  · intro hne
    exact absurd (Finset.mem_range.mpr ha) hne
  · intro e' _ hne
    exact Finset.sum_eq_zero fun a' _ => by simp [hne]
  · intro hne
    exact absurd (Finset.mem_range.mpr he) hne

end

/-- C96: as the tables are refined, the forces of the evaluator made of the extracted file tend to minus the gradient of the PyTorch network's
total energy with respect to the bond vectors. -/
theorem C96_forces {M : Torch} {cg : ℕ → ℕ → ℕ → ℕ → ℝ} {der : ℕ → List ℝ → List ℝ} (h : TorchOk M cg) (hR : RadialsOk M)
    {inv : ℕ → (ℕ → ℕ → ℝ) → Option (ℕ → ℕ → ℝ)} {species : List ℕ} (hd : ∀ n v, (der n v).length = v.length)
    (hsl : ∀ n, 3 ≤ n → ∀ v : List ℝ, v.length = n → ScipySlopes (gridStep M.rcut n) n (nth v) (nth (der n v)))
    (hsp : species.Nodup) (hi : InvOk inv) {f : ℕ → File} (hf : ∀ n, 3 ≤ n → extract n (der n) inv species M = some (f n))
    {srt : List (List (List ℕ)) → List (List (List ℕ))} (hs : Poly.SortFn srt) {sph : ℝ → ℝ → ℝ → ℕ → ℝ} {dsph : ℝ → ℝ → ℝ → ℕ → ℕ → ℝ}
    (hsph : IsSphGrad sph dsph 16) {T : Sys} (hT : SysOk (f 3) T) {X : ℕ → ℕ → ℝ} (hX : ∀ e < T.E, 0 < len (X e) ∧ len (X e) < M.rcut - 1e-12) :
    ∃ G : ℕ → ℕ → ℝ,
      (∀ D : ℕ → ℕ → ℝ, HasDerivAt (fun τ : ℝ => ∑ i ∈ Finset.range T.N, torchEnergy M (Torch.shifted M) cg
        (sceneOf M (f 3).atomicNumbers sph T (fun e a => X e a + τ * D e a)) i) (- ∑ e ∈ Finset.range T.E, ∑ a ∈ Finset.range 3, G e a * D e a) 0) ∧
      ∀ ε > 0, ∃ n0, 3 ≤ n0 ∧ ∀ n, n0 ≤ n → ∃ P s0, load srt sph dsph (f n) = some (P, s0) ∧
        ∀ s, Hist (f n) P s0 s → ∃ t, computeNodeEnergiesForces (f n).zbl P (T.graph X) s = some t ∧
          ∀ e < T.E, ∀ a < 3, ∃ v, t.nodeForces[e * 3 + a]? = some v ∧ |v - G e a| ≤ ε := by
  have hle : M.lmax = 3 := h.lmax
  set an := elems M species with han
  have hat : ∀ n, 3 ≤ n → (f n).atomicNumbers = an := fun n hn => by
    obtain ⟨-, -, us, u1, inv1, e, -⟩ := extract_some (hf n hn)
    rw [e]; rfl
  have hTn : ∀ n, 3 ≤ n → SysOk (f n) T := fun n hn => by
    have e : (f n).nT = (f 3).nT := by
      unfold File.nT
      rw [hat n hn, hat 3 le_rfl]
    exact ⟨hT.types, by rw [e]; exact hT.typ, hT.nn, hT.idx, hT.nbr, hT.ntypes, by rw [e]; exact hT.nty⟩
  have ha : ElemOk M an := by
    obtain ⟨-, ha, -⟩ := extract_some (hf 3 le_rfl)
    exact elems_ok h hsp ha
  have hS : SceneIn M {r | 0 ≤ r ∧ r < M.rcut - 1e-12} T.N (sceneOf M an sph T X) := by
    obtain ⟨-, -, us, u1, inv1, e, -⟩ := extract_some (hf 3 le_rfl)
    rw [e] at hT
    exact scene_in ha hT hX sph
  have hXn : ∀ n, 3 ≤ n → Inside (f n) T X := fun n hn => by
    obtain ⟨-, -, us, u1, inv1, e, -⟩ := extract_some (hf n hn)
    rw [e]; exact inside_of h ha (by omega) hX
  have hok : ∀ n, 3 ≤ n → FileOk (f n) := fun n hn => ((C78_file_shape (inv := inv) h (by omega : 2 ≤ n) (hd n) hsp).2 _ (hf n hn)).1
  obtain ⟨n1, hn1, hen⟩ := C96_energies h hR hd hsl hsp hi hf hs sph dsph hT hX 1 one_pos
  have hlm : ∀ n, 3 ≤ n → (f n).lmax = M.lmax := fun n hn => by
    obtain ⟨-, -, us, u1, inv1, e, -⟩ := extract_some (hf n hn)
    rw [e]; rfl
  have hsph' : IsSphGrad sph dsph ((M.lmax + 1) * (M.lmax + 1)) := by rw [hle]; exact hsph
  have hF : ∀ n, n1 ≤ n → ∀ D : ℕ → ℕ → ℝ, HasDerivAt (fun τ : ℝ => ∑ i ∈ Finset.range T.N, torchEnergy M (M.radials.map (splineOf M.rcut n (der n))) cg
      (sceneOf M an sph T (fun e a => X e a + τ * D e a)) i)
      (- ∑ e ∈ Finset.range T.E, ∑ a ∈ Finset.range 3, forceOf (f n) sph dsph T X e a * D e a) 0 := by
    intro n hn D
    have hn3 : 3 ≤ n := by omega
    obtain ⟨P, s0, g1, g2, g3⟩ := load_spec (hok n hn3) hs sph dsph
    have sc := (hen n hn).1
    obtain ⟨t, a1, a2, a3, a4⟩ := compute_spec (hok n hn3) (hTn n hn3) g2 (hXn n hn3) ((Hist.init (f := f n) (P := P) (s0 := s0)).ok (hok n hn3) g2 g3)
    have := total_hasDerivAt (hok n hn3) (hTn n hn3) (hXn n hn3) (by rw [hlm n hn3]; exact hsph') a4 (fun i hi => (sc i hi).1) (fun i hi => (sc i hi).2) D
    refine this.congr_of_eventuallyEq (Eventually.of_forall fun τ => Finset.sum_congr rfl fun i hiN => ?_)
    have hTn' := hTn n hn3
    obtain ⟨-, -, us, u1, inv1, e, hsu, hsu1, hinv⟩ := extract_some (hf n hn3)
    rw [e] at hTn' ⊢
    exact (energy_eq h ha hTn' hsu hsu1 (fun a ha b hb => hi _ _ _ hinv a ha b hb) (Finset.mem_range.mp hiN)).symm
  have key : ∀ D : ℕ → ℕ → ℝ, ∃ δ, Tendsto (fun n => - ∑ e ∈ Finset.range T.E, ∑ a ∈ Finset.range 3, forceOf (f n) sph dsph T X e a * D e a) atTop (𝓝 δ) ∧
      HasDerivAt (fun τ : ℝ => ∑ i ∈ Finset.range T.N, torchEnergy M (Torch.shifted M) cg
      (sceneOf M an sph T (fun e a => X e a + τ * D e a)) i) δ 0 := fun D =>
    deriv_tendsto h hR hsl hsph' hS hX D (eventually_atTop.mpr ⟨n1, fun n hn => hF n hn D⟩)
  have hG : ∀ e a, ∃ g, e < T.E → a < 3 → Tendsto (fun n => forceOf (f n) sph dsph T X e a) atTop (𝓝 g) := by
    intro e a
    by_cases he : e < T.E
    · by_cases ha3 : a < 3
      · obtain ⟨δ, hδ, -⟩ := key (fun e' a' => if e' = e ∧ a' = a then 1 else 0)
        refine ⟨-δ, fun _ _ => ?_⟩
        have := hδ.neg
        simpa only [neg_neg, sum_single _ he ha3] using this
      · exact ⟨0, fun _ h => absurd h ha3⟩
    · exact ⟨0, fun h => absurd h he⟩
  choose G hG using hG
  refine ⟨G, fun D => ?_, fun ε hε => ?_⟩
  · obtain ⟨δ, hδ, hD⟩ := key D
    rw [hat 3 le_rfl]
    refine hD.congr_deriv (tendsto_nhds_unique hδ ?_)
    refine Tendsto.neg (tendsto_finsetSum _ fun e he => tendsto_finsetSum _ fun a ha => ?_)
    exact (hG e a (Finset.mem_range.mp he) (Finset.mem_range.mp ha)).mul_const _
  · have ev : ∀ᶠ n in atTop, ∀ e ∈ Finset.range T.E, ∀ a ∈ Finset.range 3, |forceOf (f n) sph dsph T X e a - G e a| < ε := by
      rw [Filter.eventually_all_finset]
      intro e he
      rw [Filter.eventually_all_finset]
      intro a ha
      exact Metric.tendsto_nhds.mp (hG e a (Finset.mem_range.mp he) (Finset.mem_range.mp ha)) ε hε
    obtain ⟨n2, hn2⟩ := eventually_atTop.mp ev
    refine ⟨max n1 n2, hn1.trans (le_max_left _ _), fun n hn => ?_⟩
    have hn3 : 3 ≤ n := hn1.trans ((le_max_left _ _).trans hn)
    obtain ⟨P, s0, g1, g2, g3⟩ := load_spec (hok n hn3) hs sph dsph
    refine ⟨P, s0, g1, fun s hh => ?_⟩
    obtain ⟨t, a1, a2, a3, a4⟩ := compute_spec (hok n hn3) (hTn n hn3) g2 (hXn n hn3) (hh.ok (hok n hn3) g2 g3)
    refine ⟨t, a1, fun e he a ha => ⟨forceOf (f n) sph dsph T X e a, ?_, ?_⟩⟩
    · rw [a3]
      exact getElem?_tab2 he ha
    · exact (hn2 n ((le_max_right _ _).trans hn) e (Finset.mem_range.mpr he) a (Finset.mem_range.mpr ha)).le

/-! ## Example: radial functions `(5 - r)⁴` -/

noncomputable def torchEx3 : Torch :=
  { torchEx2 with R0 := fun a b c r => (a + b + c + 1) * (5 - r) ^ 4, R1 := fun a b c r => (a * b + c + 1) * (5 - r) ^ 4 }

theorem torchEx3_ok : TorchOk torchEx3 cgEx := ⟨torchEx_ok.lmax, torchEx_ok.C, torchEx_ok.zs, torchEx_ok.rcut, torchEx_ok.zbl, torchEx_ok.avg,
  fun a b => by funext c r; simp only [torchEx3]; ring, fun a b => by funext c r; simp only [torchEx3]; ring, torchEx_ok.dens0,
  fun _ hd => (by simp [torchEx3, torchEx2] at hd), torchEx_ok.U0, torchEx_ok.U1, torchEx_ok.paths, torchEx_ok.phil,
  torchEx_ok.phil1, torchEx_ok.phil2, torchEx_ok.thr, torchEx_ok.tp⟩

theorem quartic_tabulable (s : ℝ) : Tabulable 5 (fun r => s * (5 - r) ^ 4) := by
  obtain ⟨f2, f3, f4, h⟩ := quartic_smooth 5 1e-12 5
  refine ⟨fun r => s * (-4 * (5 - r) ^ 3), |s| * 24, ⟨fun r => s * f2 r, fun r => s * f3 r, fun r => s * f4 r, fun t h0 h1 => ?_⟩, by norm_num⟩
  obtain ⟨a1, a2, a3, a4, a5⟩ := h t h0 h1
  refine ⟨a1.const_mul s, a2.const_mul s, a3.const_mul s, a4.const_mul s, ?_⟩
  rw [abs_mul]
  gcongr

theorem torchEx3_radials : RadialsOk torchEx3 :=
  ⟨fun _ _ _ _ _ _ => quartic_tabulable _, fun _ _ _ _ _ _ => quartic_tabulable _, fun _ hd => (by cases hd), fun _ hd => (by simp [torchEx3, torchEx2] at hd)⟩

/-- The hypotheses of C96 for two carbon atoms at distance 1. -/
example : ∃ f : ℕ → File, (∀ n, 3 ≤ n → extract n (scipyDer (gridStep 5 n) n) invEx [6] torchEx3 = some (f n)) ∧ SysOk (f 3) (pairSys 0) ∧
    (∀ n v, (scipyDer (gridStep 5 n) n v).length = v.length) ∧
    (∀ n, 3 ≤ n → ∀ v : List ℝ, v.length = n → ScipySlopes (gridStep 5 n) n (nth v) (nth (scipyDer (gridStep 5 n) n v))) ∧
    ∃ X : ℕ → ℕ → ℝ, ∀ e < (pairSys 0).E, 0 < len (X e) ∧ len (X e) < 5 - 1e-12 := by
  have run : ∀ n, ∃ f, extract n (scipyDer (gridStep 5 n) n) invEx [6] torchEx3 = some f := by
    intro n
    obtain ⟨B, hB⟩ := invEx_one
    refine extract_runs rfl (fun a ha => ?_) hB
    rw [mem_elems] at ha
    rw [if_neg (by simp)] at ha
    obtain rfl : a = 6 := by simpa using ha
    show 6 ∈ [1, 6]
    decide
  choose f hf using run
  have hX : len (fun a => if a = 0 then (1 : ℝ) else 0) = 1 := by simp [len, Finset.sum_range_succ]
  refine ⟨f, fun n _ => hf n, ?_, fun n v => scipyDer_length _ _ _,
    fun n hn v hv => scipyDer_ok (step_pos (by norm_num) (by omega)) hn hv, fun _ a => if a = 0 then 1 else 0, fun e _ => ?_⟩
  · have e2 : elems torchEx3 [6] = [6] := by decide
    obtain ⟨-, -, us, u1, inv1, e, -⟩ := extract_some (hf 3)
    rw [e]
    refine ⟨by decide, ?_, by decide, by decide, by decide, by decide, ?_⟩
    · rw [e2]; change ∀ i < 2, nthN [0, 0] i < 1; decide
    · rw [e2]; change ∀ i < 2, nthN [0, 0] i < 1; decide
  · rw [hX]; norm_num

end Verif.Props
