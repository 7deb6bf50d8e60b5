import Verif.Model.ZBL
import Verif.Spec.ZBL
import Verif.Lemmas.CubicSpline
import Mathlib.Analysis.SpecialFunctions.ExpDeriv
import Mathlib.Analysis.Calculus.Deriv.Inv
import Mathlib.Analysis.Calculus.Deriv.MeanValue
import Mathlib.Tactic.Positivity

/-! # Helper lemmas: ZBL (C14 - C18) -/

namespace Verif.ZBLModel
open Verif.Spec

/-- Derivative of the envelope, factorised. -/
noncomputable def envD (R : ℝ) (p : ℕ) (r : ℝ) : ℝ :=
  if r < R then -(p * (p + 1) * (p + 2) / 2) * (r / R) ^ (p - 1) * (1 - r / R) ^ 2 / R else 0

/-- The polynomial part of the envelope as a function of `x = r/R`. -/
noncomputable def envPoly (p : ℕ) (x : ℝ) : ℝ :=
  1 - ((p + 1) * (p + 2) / 2) * x ^ p + p * (p + 2) * x ^ (p + 1) - (p * (p + 1) / 2) * x ^ (p + 2)

theorem envPoly_one (p : ℕ) : envPoly p 1 = 0 := by
  simp only [envPoly, one_pow]; ring

theorem envPoly_hasDerivAt {p : ℕ} (hp : 1 ≤ p) (x : ℝ) :
    HasDerivAt (envPoly p) (-(p * (p + 1) * (p + 2) / 2) * x ^ (p - 1) * (1 - x) ^ 2) x := by
  have h1 := (hasDerivAt_pow p x).const_mul (((p : ℝ) + 1) * (p + 2) / 2)
  have h2 := (hasDerivAt_pow (p + 1) x).const_mul ((p : ℝ) * (p + 2))
  have h3 := (hasDerivAt_pow (p + 2) x).const_mul ((p : ℝ) * (p + 1) / 2)
  have := (((hasDerivAt_const x (1 : ℝ)).sub h1).add h2).sub h3
  refine this.congr_deriv ?_
  obtain ⟨q, rfl⟩ : ∃ q, p = q + 1 := ⟨p - 1, by omega⟩
  simp only [Nat.add_sub_cancel]
  push_cast
  simp only [pow_succ, show q + 1 + 2 - 1 = q + 2 by omega]
  ring

theorem envelope_eq (R : ℝ) (p : ℕ) (r : ℝ) :
    envelope R p r = if r < R then envPoly p (r / R) else 0 := rfl

theorem envelope_hasDerivAt {R : ℝ} (hR : 0 < R) {p : ℕ} (hp : 1 ≤ p) (r : ℝ) :
    HasDerivAt (envelope R p) (envD R p r) r := by
  have hpoly : ∀ x, HasDerivAt (fun r => envPoly p (r / R))
      (-(p * (p + 1) * (p + 2) / 2) * (x / R) ^ (p - 1) * (1 - x / R) ^ 2 / R) x := by
    intro x
    have h1 : HasDerivAt (fun r : ℝ => r / R) (1 / R) x := (hasDerivAt_id x).div_const R
    have := HasDerivAt.comp x (envPoly_hasDerivAt hp (x / R)) h1
    refine this.congr_deriv ?_
    ring
  rcases lt_trichotomy r R with h | rfl | h
  · have he : envelope R p =ᶠ[nhds r] fun r => envPoly p (r / R) := by
      filter_upwards [Iio_mem_nhds h] with x hx
      rw [envelope_eq, if_pos (Set.mem_Iio.mp hx)]
    have := (hpoly r).congr_of_eventuallyEq he
    rw [envD, if_pos h]; exact this
  · rw [envD, if_neg (lt_irrefl r)]
    have hd : HasDerivAt (fun x => envPoly p (x / r)) 0 r := by
      refine (hpoly r).congr_deriv ?_
      rw [div_self hR.ne']; ring
    have h1 : HasDerivWithinAt (envelope r p) 0 (Set.Iic r) r := by
      refine (hd.hasDerivWithinAt).congr ?_ ?_
      · intro x hx
        rcases lt_or_eq_of_le (Set.mem_Iic.mp hx) with h | rfl
        · rw [envelope_eq, if_pos h]
        · rw [envelope_eq, if_neg (lt_irrefl _), div_self hR.ne', envPoly_one]
      · rw [envelope_eq, if_neg (lt_irrefl _), div_self hR.ne', envPoly_one]
    have h2 : HasDerivWithinAt (envelope r p) 0 (Set.Ici r) r := by
      refine (hasDerivWithinAt_const r (Set.Ici r) (0 : ℝ)).congr ?_ ?_
      · intro x hx; rw [envelope_eq, if_neg (not_lt.mpr (Set.mem_Ici.mp hx))]
      · rw [envelope_eq, if_neg (lt_irrefl _)]
    have := h1.union h2
    rwa [Set.Iic_union_Ici, hasDerivWithinAt_univ] at this
  · have he : envelope R p =ᶠ[nhds r] fun _ => 0 := by
      filter_upwards [Ioi_mem_nhds h] with x hx
      rw [envelope_eq, if_neg (not_lt.mpr (le_of_lt (Set.mem_Ioi.mp hx)))]
    rw [envD, if_neg (not_lt.mpr h.le)]
    exact (hasDerivAt_const r (0 : ℝ)).congr_of_eventuallyEq he

theorem computeEnvelope_eq (r R : ℝ) (p : ℕ) : computeEnvelope r R p = envelope R p r := by
  unfold computeEnvelope envelope
  by_cases h : r < R
  · rw [if_neg (not_le.mpr h), if_pos h]
    have e1 : ((p : ℤ) + 1) = ((p + 1 : ℕ) : ℤ) := by push_cast; ring
    have e2 : ((p : ℤ) + 2) = ((p + 2 : ℕ) : ℤ) := by push_cast; ring
    simp only [e1, e2, zpow_natCast]
    push_cast
    ring
  · rw [if_pos (not_lt.mp h), if_neg h]

theorem computeEnvelopeGradient_eq (r R : ℝ) {p : ℕ} (hp : 1 ≤ p) :
    computeEnvelopeGradient r R p = envD R p r := by
  unfold computeEnvelopeGradient envD
  by_cases h : r < R
  · rw [if_neg (not_le.mpr h), if_pos h]
    obtain ⟨q, rfl⟩ : ∃ q, p = q + 1 := ⟨p - 1, by omega⟩
    have e0 : (((q + 1 : ℕ) : ℤ) - 1) = (q : ℤ) := by push_cast; ring
    have e1 : (((q + 1 : ℕ) : ℤ) + 1) = ((q + 2 : ℕ) : ℤ) := by push_cast; ring
    simp only [e0, e1, zpow_natCast, Nat.add_sub_cancel]
    push_cast
    ring
  · rw [if_pos (not_lt.mp h), if_neg h]

theorem envD_nonpos {R : ℝ} {p : ℕ} {r : ℝ} (hr : 0 ≤ r) : envD R p r ≤ 0 := by
  unfold envD
  split
  · rename_i h
    have hR : 0 < R := lt_of_le_of_lt hr h
    have : 0 ≤ ((p : ℝ) * (p + 1) * (p + 2) / 2) * (r / R) ^ (p - 1) * (1 - r / R) ^ 2 / R := by positivity
    have e : -((p : ℝ) * (p + 1) * (p + 2) / 2) * (r / R) ^ (p - 1) * (1 - r / R) ^ 2 / R
      = -(((p : ℝ) * (p + 1) * (p + 2) / 2) * (r / R) ^ (p - 1) * (1 - r / R) ^ 2 / R) := by ring
    rw [e]; linarith
  · exact le_rfl

theorem envelope_antitone {R : ℝ} (hR : 0 < R) {p : ℕ} (hp : 1 ≤ p) :
    AntitoneOn (envelope R p) (Set.Ici 0) := by
  apply antitoneOn_of_hasDerivWithinAt_nonpos (convex_Ici 0)
  · intro x _
    exact (envelope_hasDerivAt hR hp x).continuousAt.continuousWithinAt
  · intro x hx
    exact (envelope_hasDerivAt hR hp x).hasDerivWithinAt
  · intro x hx
    rw [interior_Ici] at hx
    exact envD_nonpos (le_of_lt hx)

theorem envelope_zero {R : ℝ} (hR : 0 < R) {p : ℕ} (hp : 1 ≤ p) : envelope R p 0 = 1 := by
  rw [envelope_eq, if_pos hR, envPoly]
  obtain ⟨q, rfl⟩ : ∃ q, p = q + 1 := ⟨p - 1, by omega⟩
  simp

theorem envelope_nonneg {R : ℝ} {p : ℕ} (hp : 1 ≤ p) {r : ℝ} (hr : 0 ≤ r) : 0 ≤ envelope R p r := by
  by_cases h : r < R
  · have hR : 0 < R := lt_of_le_of_lt hr h
    have h1 := envelope_antitone hR hp (Set.mem_Ici.mpr hr) (Set.mem_Ici.mpr hR.le) h.le
    rw [envelope_eq R p R, if_neg (lt_irrefl R)] at h1
    exact h1
  · rw [envelope_eq, if_neg h]

theorem envelope_of_nonpos {R : ℝ} {p : ℕ} {r : ℝ} (h : R ≤ r) : envelope R p r = 0 := by
  rw [envelope_eq, if_neg (not_lt.mpr h)]

/-- Derivative of the screening function. -/
noncomputable def phiD (c : Fin 4 → ℝ) (x : ℝ) : ℝ :=
  -3.2 * (c 0 * Real.exp (-3.2 * x)) + -0.9423 * (c 1 * Real.exp (-0.9423 * x))
    + -0.4028 * (c 2 * Real.exp (-0.4028 * x)) + -0.2016 * (c 3 * Real.exp (-0.2016 * x))

theorem phi_hasDerivAt (c : Fin 4 → ℝ) (x : ℝ) : HasDerivAt (zblPhi c) (phiD c x) x := by
  have h : ∀ b k : ℝ, HasDerivAt (fun x => b * Real.exp (k * x)) (k * (b * Real.exp (k * x))) x := by
    intro b k
    have h1 : HasDerivAt (fun x : ℝ => k * x) k x := by simpa using (hasDerivAt_id x).const_mul k
    have := (h1.exp).const_mul b
    refine this.congr_deriv ?_
    ring
  exact ((((h _ _).add (h _ _)).add (h _ _)).add (h _ _))

/-- The gradient formula of the code. -/
noncomputable def zblGrad (aExp aPre : ℝ) (c : Fin 4 → ℝ) (R : ℝ) (p : ℕ) (Zu Zv : ℕ) (r : ℝ) : ℝ :=
  let a := zblA aExp aPre Zu Zv
  1 / 2 * ((14.3996 * Zu * Zv / r * zblPhi c (r / a)) * envD R p r
    + (14.3996 * Zu * Zv * (r * (phiD c (r / a) / a) - zblPhi c (r / a)) / (r * r)) * envelope R p r)

theorem zblEnergy_hasDerivAt {aExp aPre : ℝ} (c : Fin 4 → ℝ) {R : ℝ} {p : ℕ} (hp : 1 ≤ p)
    (Zu Zv : ℕ) {r : ℝ} (hr : 0 < r) :
    HasDerivAt (zblEnergy aExp aPre c R p Zu Zv) (zblGrad aExp aPre c R p Zu Zv r) r := by
  by_cases hR : 0 < R
  · set a := zblA aExp aPre Zu Zv with ha
    have h1 : HasDerivAt (fun r : ℝ => r / a) (1 / a) r := (hasDerivAt_id r).div_const a
    have h2 := HasDerivAt.comp r (phi_hasDerivAt c (r / a)) h1
    have h3 : HasDerivAt (fun r : ℝ => 14.3996 * (Zu : ℝ) * Zv / r) (-(14.3996 * (Zu : ℝ) * Zv) / (r ^ 2)) r := by
      have := (hasDerivAt_inv hr.ne').const_mul (14.3996 * (Zu : ℝ) * Zv)
      refine (this.congr_deriv ?_).congr_of_eventuallyEq (Filter.Eventually.of_forall fun x => ?_)
      · ring
      · simp [div_eq_mul_inv]
    have h4 := ((h3.mul h2).const_mul (1 / 2 : ℝ)).mul (envelope_hasDerivAt hR hp r)
    refine h4.congr_deriv ?_
    simp only [zblGrad, ← ha, Function.comp_apply, Pi.mul_apply]
    have hr' := hr.ne'
    by_cases haz : a = 0
    · rw [haz]; simp; field_simp; ring
    · field_simp; ring
  · have hz : zblEnergy aExp aPre c R p Zu Zv =ᶠ[nhds r] fun _ => 0 := by
      filter_upwards [Ioi_mem_nhds hr] with x hx
      have : R ≤ x := le_trans (not_lt.mp hR) (le_of_lt hx)
      simp [zblEnergy, envelope_of_nonpos this]
    have hRr : R ≤ r := le_trans (not_lt.mp hR) hr.le
    have : zblGrad aExp aPre c R p Zu Zv r = 0 := by
      simp [zblGrad, envelope_of_nonpos hRr, envD, not_lt.mpr hRr]
    rw [this]
    exact (hasDerivAt_const r (0 : ℝ)).congr_of_eventuallyEq hz

/-- What a well-formed `ZBL` object computes. -/
structure ZBL.WF (z : ZBL) (c : Fin 4 → ℝ) (p : ℕ) : Prop where
  hc : ∀ k : Fin 4, z.c[k.val]? = some (c k)
  hp : z.p = p
  hp1 : 1 ≤ p

theorem compute_eq {z : ZBL} {c : Fin 4 → ℝ} {p : ℕ} (hz : z.WF c p) {Zu Zv : ℕ} {ru rv : ℝ}
    (hu : z.rad[Zu]? = some ru) (hv : z.rad[Zv]? = some rv) (r : ℝ) :
    z.compute Zu Zv r = some (zblEnergy z.aExp z.aPre c (ru + rv) p Zu Zv r) := by
  have h0 : z.c[0]? = some (c 0) := hz.hc 0
  have h1 : z.c[1]? = some (c 1) := hz.hc 1
  have h2 : z.c[2]? = some (c 2) := hz.hc 2
  have h3 : z.c[3]? = some (c 3) := hz.hc 3
  simp only [ZBL.compute, hu, hv, h0, h1, h2, h3, Option.bind_eq_bind, Option.bind_some, hz.hp,
    computeEnvelope_eq, Option.pure_def, zblEnergy, zblPhi, zblA]
  congr 1
  ring

theorem computeGradient_eq {z : ZBL} {c : Fin 4 → ℝ} {p : ℕ} (hz : z.WF c p) {Zu Zv : ℕ} {ru rv : ℝ}
    (hu : z.rad[Zu]? = some ru) (hv : z.rad[Zv]? = some rv) (r : ℝ) :
    z.computeGradient Zu Zv r = some (zblGrad z.aExp z.aPre c (ru + rv) p Zu Zv r) := by
  have h0 : z.c[0]? = some (c 0) := hz.hc 0
  have h1 : z.c[1]? = some (c 1) := hz.hc 1
  have h2 : z.c[2]? = some (c 2) := hz.hc 2
  have h3 : z.c[3]? = some (c 3) := hz.hc 3
  simp only [ZBL.computeGradient, hu, hv, h0, h1, h2, h3, Option.bind_eq_bind, Option.bind_some, hz.hp,
    computeEnvelope_eq, computeEnvelopeGradient_eq _ _ hz.hp1, Option.pure_def, zblGrad, zblPhi, zblA, phiD]
  congr 1
  ring

theorem zblA_comm (aExp aPre : ℝ) (Zu Zv : ℕ) : zblA aExp aPre Zu Zv = zblA aExp aPre Zv Zu := by
  unfold zblA; rw [add_comm]

theorem phi_nonneg {c : Fin 4 → ℝ} (hc : ∀ k, 0 ≤ c k) (x : ℝ) : 0 ≤ zblPhi c x := by
  have := hc 0; have := hc 1; have := hc 2; have := hc 3
  unfold zblPhi; positivity

theorem phiD_nonpos {c : Fin 4 → ℝ} (hc : ∀ k, 0 ≤ c k) (x : ℝ) : phiD c x ≤ 0 := by
  have := mul_nonneg (hc 0) (Real.exp_pos (-3.2 * x)).le
  have := mul_nonneg (hc 1) (Real.exp_pos (-0.9423 * x)).le
  have := mul_nonneg (hc 2) (Real.exp_pos (-0.4028 * x)).le
  have := mul_nonneg (hc 3) (Real.exp_pos (-0.2016 * x)).le
  unfold phiD; linarith

theorem zblA_pos {aExp aPre : ℝ} (ha : 0 < aPre) {Zu Zv : ℕ} (hu : 0 < Zu) (hv : 0 < Zv) :
    0 < zblA aExp aPre Zu Zv := by
  have h1 : 0 < (Zu : ℝ) ^ aExp := Real.rpow_pos_of_pos (by exact_mod_cast hu) _
  have h2 : 0 < (Zv : ℝ) ^ aExp := Real.rpow_pos_of_pos (by exact_mod_cast hv) _
  unfold zblA; positivity

theorem zblGrad_nonpos {aExp aPre : ℝ} {c : Fin 4 → ℝ} (hc : ∀ k, 0 ≤ c k) (R : ℝ) {p : ℕ} (hp : 1 ≤ p)
    {Zu Zv : ℕ} (ha : 0 < aPre) (hu : 0 < Zu) (hv : 0 < Zv) {r : ℝ} (hr : 0 < r) :
    zblGrad aExp aPre c R p Zu Zv r ≤ 0 := by
  have ha' := zblA_pos (aExp := aExp) ha hu hv
  unfold zblGrad
  set a := zblA aExp aPre Zu Zv
  have h1 := phi_nonneg hc (r / a)
  have h2 := phiD_nonpos hc (r / a)
  have h3 := envD_nonpos (R := R) (p := p) hr.le
  have h4 := envelope_nonneg (R := R) hp hr.le
  have h5 : phiD c (r / a) / a ≤ 0 := div_nonpos_of_nonpos_of_nonneg h2 ha'.le
  have h6 : r * (phiD c (r / a) / a) - zblPhi c (r / a) ≤ 0 := by nlinarith
  have h7 : (0 : ℝ) ≤ 14.3996 * Zu * Zv := by positivity
  have h8 : 14.3996 * (Zu : ℝ) * Zv * (r * (phiD c (r / a) / a) - zblPhi c (r / a)) / (r * r) ≤ 0 :=
    div_nonpos_of_nonpos_of_nonneg (mul_nonpos_of_nonneg_of_nonpos h7 h6) (by positivity)
  have h9 : 0 ≤ 14.3996 * (Zu : ℝ) * Zv / r * zblPhi c (r / a) := by positivity
  have := mul_nonpos_of_nonneg_of_nonpos h9 h3
  have := mul_nonpos_of_nonpos_of_nonneg h8 h4
  simp only
  linarith

end Verif.ZBLModel
