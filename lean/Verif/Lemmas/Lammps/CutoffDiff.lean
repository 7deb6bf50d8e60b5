import Verif.Lemmas.Lammps.Cutoff
import Verif.Lemmas.MACE.Limit
import Verif.Spec.Cutoff

/-! # Continuity and derivative of the energy when pairs cross the cutoff -/

namespace Verif.Lammps
open Verif.MACE Verif.Spec Filter Topology

/-! ## Cut-off functions -/

open Classical in
noncomputable def step (rc r : ℝ) : ℝ := if r < rc then 1 else 0

theorem step_continuousAt {rc r : ℝ} {φ : ℝ → ℝ} (h : ContinuousAt φ r) (hz : φ rc = 0) : ContinuousAt (fun r => step rc r * φ r) r := by
  rcases lt_trichotomy r rc with hr | hr | hr
  · refine h.congr ?_
    filter_upwards [gt_mem_nhds hr] with x hx
    rw [step, if_pos hx, one_mul]
  · subst hr
    have h0 : step r r * φ r = 0 := by rw [hz, mul_zero]
    unfold ContinuousAt at h ⊢
    change Tendsto _ _ (𝓝 (step r r * φ r))
    rw [h0]
    rw [hz] at h
    refine squeeze_zero_norm (a := fun x => ‖φ x‖) (fun x => ?_) (by have := h.norm; rwa [norm_zero] at this)
    rw [norm_mul]
    have : ‖step r x‖ ≤ 1 := by unfold step; split <;> simp
    exact mul_le_of_le_one_left (norm_nonneg _) this
  · refine (continuousAt_const (y := (0 : ℝ))).congr ?_
    filter_upwards [lt_mem_nhds hr] with x hx
    rw [step, if_neg (not_lt.mpr hx.le), zero_mul]

theorem step_hasDerivAt {rc r : ℝ} {φ : ℝ → ℝ} {φ' : ℝ → ℝ} (h : HasDerivAt φ (φ' r) r) (hz : φ rc = 0) (hz' : φ' rc = 0) :
    HasDerivAt (fun r => step rc r * φ r) (step rc r * φ' r) r := by
  rcases lt_trichotomy r rc with hr | hr | hr
  · refine (h.congr_of_eventuallyEq ?_).congr_deriv (by rw [step, if_pos hr, one_mul])
    filter_upwards [gt_mem_nhds hr] with x hx
    rw [step, if_pos hx, one_mul]
  · subst hr
    rw [hz'] at h ⊢
    rw [mul_zero]
    rw [hasDerivAt_iff_isLittleO] at h ⊢
    refine Asymptotics.IsBigO.trans_isLittleO ?_ h
    refine Asymptotics.isBigO_of_le _ (fun x => ?_)
    simp only [hz, mul_zero, sub_zero, smul_zero]
    rw [norm_mul]
    have : ‖step r x‖ ≤ 1 := by unfold step; split <;> simp
    nlinarith [norm_nonneg (φ x)]
  · refine ((hasDerivAt_const r (0 : ℝ)).congr_of_eventuallyEq ?_).congr_deriv (by rw [step, if_neg (not_lt.mpr hr.le), zero_mul])
    filter_upwards [lt_mem_nhds hr] with x hx
    rw [step, if_neg (not_lt.mpr hx.le), zero_mul]

theorem hermite_node {h : ℝ} (hh : 0 < h) (v d : ℕ → ℝ) (n : ℕ) : hermite h v d (h * n) = v n ∧ hermite' h v d (h * n) = d n := by
  have e : h * (n : ℝ) / h = n := by field_simp
  unfold hermite hermite'
  simp only [e, Nat.floor_natCast, sub_self]
  unfold hermite01 hermite01'
  constructor
  · ring
  · field_simp
    ring

theorem row_tbl_zero {l : List (List (List ℝ))} {n : ℕ} (h : ∀ t ∈ l, ∀ w ∈ t, nth w n = 0) (p k : ℕ) : nth (row (tbl l p) k) n = 0 := by
  unfold row tbl
  rcases hp : l[p]? with _ | t
  · simp [nth]
  · rw [Option.getD_some]
    rcases hk : t[k]? with _ | w
    · simp [nth]
    · rw [Option.getD_some]
      exact h t (List.mem_of_getElem? hp) w (List.mem_of_getElem? hk)

theorem row_get {l : List (List ℝ)} {p : ℕ} (hp : p < l.length) : row l p = l[p] := by simp [row, hp]

theorem row_none {l : List (List ℝ)} {p : ℕ} (hp : ¬ p < l.length) : row l p = [] := by
  unfold row
  rw [List.getElem?_eq_none (not_lt.mp hp)]
  rfl

theorem nth_nil : nth [] = fun _ => 0 := by funext i; simp [nth]

theorem hermite_zero (h r : ℝ) : hermite h (fun _ => 0) (fun _ => 0) r = 0 ∧ hermite' h (fun _ => 0) (fun _ => 0) r = 0 := by
  simp [hermite, hermite', hermite01, hermite01']

section fade
variable {f : File} {rc : ℝ} (hf : FileOk f) (hF : FadesOut f rc)
include hf hF

theorem prof0_end (t t' l k : ℕ) : prof0 f t t' l k rc = 0 := by
  unfold prof0
  rw [← hF.end0, (hermite_node hf.h _ _ _).1]
  exact row_tbl_zero hF.zero0 _ _

theorem prof1_end (t t' l k : ℕ) : prof1 f t t' l k rc = 0 := by
  unfold prof1
  rw [← hF.end1, (hermite_node hf.h _ _ _).1]
  exact row_tbl_zero hF.zero1 _ _

theorem dens0_end (hs : f.A0scaled = true) (t t' : ℕ) : dens0 f t t' rc = 0 := by
  unfold dens0
  by_cases hp : pairPos f.nT t t' < f.A0vals.length
  · obtain ⟨h1, h2⟩ := hF.dens0 hs _ (List.getElem_mem hp)
    rw [← h1, (hermite_node (hf.A0s hs).1 _ _ _).1, row_get hp, h2]
  · rw [row_none hp, row_none (by rw [(hf.A0s hs).2.2.1, ← (hf.A0s hs).2.1]; exact hp), nth_nil, (hermite_zero _ _).1]

theorem dens1_end (hs : f.A1scaled = true) (t t' : ℕ) : dens1 f t t' rc = 0 := by
  unfold dens1
  by_cases hp : pairPos f.nT t t' < f.A1vals.length
  · obtain ⟨h1, h2⟩ := hF.dens1 hs _ (List.getElem_mem hp)
    rw [← h1, (hermite_node (hf.A1s hs).1 _ _ _).1, row_get hp, h2]
  · rw [row_none hp, row_none (by rw [(hf.A1s hs).2.2.1, ← (hf.A1s hs).2.1]; exact hp), nth_nil, (hermite_zero _ _).1]

omit hf in
theorem repul_end {z : ZBLModel.ZBL} (hz : f.zbl = some z) {t t' : ℕ} (ht : t < f.nT) (ht' : t' < f.nT) : repul f z t t' rc = 0 := by
  unfold repul zblEnergy
  have h1 : ∀ u < f.nT, nthN f.atomicNumbers u ∈ f.atomicNumbers := by
    intro u hu
    have hu : u < f.atomicNumbers.length := hu
    rw [nthN_getElem hu]
    exact List.getElem_mem hu
  rw [ZBLModel.envelope_of_nonpos (hF.zbl z hz _ (h1 t ht) _ (h1 t' ht')), mul_zero]

variable (hS : FadesFlat f)
include hS

theorem prof0_slope (t t' l k : ℕ) : hermite' f.splH (nth (row (tbl f.vals0 (pairPos f.nT t t')) (l * f.numChannels + k)))
    (nth (row (tbl f.ders0 (pairPos f.nT t t')) (l * f.numChannels + k))) rc = 0 := by
  rw [← hF.end0, (hermite_node hf.h _ _ _).2]
  exact row_tbl_zero hS.slope0 _ _

theorem prof1_slope (t t' l k : ℕ) : hermite' f.splH (nth (row (tbl f.vals1 (pairPos f.nT t t')) (l * f.numChannels + k)))
    (nth (row (tbl f.ders1 (pairPos f.nT t t')) (l * f.numChannels + k))) rc = 0 := by
  rw [← hF.end1, (hermite_node hf.h _ _ _).2]
  exact row_tbl_zero hS.slope1 _ _

theorem dens0_slope (hs : f.A0scaled = true) (t t' : ℕ) :
    hermite' f.A0h (nth (row f.A0vals (pairPos f.nT t t'))) (nth (row f.A0ders (pairPos f.nT t t'))) rc = 0 := by
  by_cases hp : pairPos f.nT t t' < f.A0vals.length
  · obtain ⟨h1, h2⟩ := hF.dens0 hs _ (List.getElem_mem hp)
    have := hS.dens0 hs _ hp
    rw [← h1, (hermite_node (hf.A0s hs).1 _ _ _).2, ← row_get hp, this]
  · rw [row_none hp, row_none (by rw [(hf.A0s hs).2.2.1, ← (hf.A0s hs).2.1]; exact hp), nth_nil, (hermite_zero _ _).2]

theorem dens1_slope (hs : f.A1scaled = true) (t t' : ℕ) :
    hermite' f.A1h (nth (row f.A1vals (pairPos f.nT t t'))) (nth (row f.A1ders (pairPos f.nT t t'))) rc = 0 := by
  by_cases hp : pairPos f.nT t t' < f.A1vals.length
  · obtain ⟨h1, h2⟩ := hF.dens1 hs _ (List.getElem_mem hp)
    have := hS.dens1 hs _ hp
    rw [← h1, (hermite_node (hf.A1s hs).1 _ _ _).2, ← row_get hp, this]
  · rw [row_none hp, row_none (by rw [(hf.A1s hs).2.2.1, ← (hf.A1s hs).2.1]; exact hp), nth_nil, (hermite_zero _ _).2]

omit hf hS in
theorem repul_slope {z : ZBLModel.ZBL} (hz : f.zbl = some z) {t t' : ℕ} (ht : t < f.nT) (ht' : t' < f.nT) :
    ZBLModel.zblGrad z.aExp z.aPre (fun k => nth z.c k) (nth z.rad (nthN f.atomicNumbers t) + nth z.rad (nthN f.atomicNumbers t'))
      z.p.toNat (nthN f.atomicNumbers t) (nthN f.atomicNumbers t') rc = 0 := by
  have h1 : ∀ u < f.nT, nthN f.atomicNumbers u ∈ f.atomicNumbers := by
    intro u hu
    have hu : u < f.atomicNumbers.length := hu
    rw [nthN_getElem hu]
    exact List.getElem_mem hu
  have := hF.zbl z hz _ (h1 t ht) _ (h1 t' ht')
  simp [ZBLModel.zblGrad, ZBLModel.envelope_of_nonpos this, ZBLModel.envD, not_lt.mpr this]

end fade

/-! ## The listed pairs -/

variable {A : Atoms} {L : NList} {rc : ℝ} {mt : List ℕ} {f : File} {sph : ℝ → ℝ → ℝ → ℕ → ℝ} {dsph : ℝ → ℝ → ℝ → ℕ → ℕ → ℝ}

/-- Edges of node `ii` among all listed pairs. -/
def wideE (L : NList) (ii : ℕ) : Finset ℕ := (Finset.range (listed L (nthN (centres L) ii)).length).image (Nat.pair ii)

theorem wide_mem {ii e : ℕ} (hi : ii < (centres L).length) (he : e ∈ wideE L ii) :
    wideA L e ∈ centres L ∧ wideB L e ∈ listed L (wideA L e) := by
  obtain ⟨p, hp, rfl⟩ := Finset.mem_image.mp he
  have hp := Finset.mem_range.mp hp
  rw [nthN_getElem hi] at hp
  rw [(wide_ends hi hp).1, (wide_ends hi hp).2]
  exact ⟨List.getElem_mem hi, List.getElem_mem hp⟩

theorem cutInd_eq (hrc : 0 < rc) (e : ℕ) : cutInd A L rc e = step rc (len (fun c => disp A (wideA L e) (wideB L e) c)) := by
  unfold cutInd step len
  exact if_congr (Real.sqrt_lt' hrc).symm rfl rfl

/-- Distinct positions of all listed pairs. -/
theorem wide_pos (hrc : 0 < rc) (hin : ∀ e < (bonds A L rc (centres L)).length, 0 < len (bondVecs A L rc e)) {ii e : ℕ}
    (hi : ii < (centres L).length) (he : e ∈ wideE L ii) : 0 < len (fun c => disp A (wideA L e) (wideB L e) c) := by
  obtain ⟨h1, h2⟩ := wide_mem hi he
  by_cases hc : ∑ c ∈ Finset.range 3, disp A (wideA L e) (wideB L e) c ^ 2 < rc ^ 2
  · have hb : (wideA L e, wideB L e) ∈ bonds A L rc (centres L) := bonds_mem.mpr ⟨h1, by
      unfold nbrs
      rw [List.mem_filter]
      exact ⟨h2, by simpa using hc⟩⟩
    obtain ⟨p, hp, heq⟩ := List.getElem_of_mem hb
    have := hin p hp
    unfold bondVecs vecs at this
    rw [List.getElem?_eq_getElem hp, Option.getD_some, heq] at this
    exact this
  · unfold len
    rw [Real.sqrt_pos]
    have := sq_pos_of_pos hrc
    linarith [not_lt.mp hc]

/-! ## Derivative -/

theorem energy_tan {W : Net ℝ} {cv : ℝ → Conf ℝ} {x : ℝ} {t : Tan ℝ} {N nT : ℕ} {ty : ℕ → ℕ} {ed : ℕ → Finset ℕ} {nb nt : ℕ → ℕ}
    (hw : NetOk W) (h : CurveOk W cv x t N nT ty ed nb nt) {P0 P1 : List (Poly.Poly ℝ)} (hP0 : P0Ok W nT P0)
    (hP1 : P1Ok W nT P1) (hn : ∀ i < N, ∀ e ∈ ed i, nb e < N)
    {G : (ℕ → ℝ) → ℕ → ℝ} (hG : Read2Ok W G) {z : ℕ → ℝ} (hz : ∀ i < N, HasDerivAt (fun τ => (cv τ).pairE i) (z i) x) :
    HasDerivAt (fun τ => ∑ i ∈ Finset.range N, energy W (cv τ) i)
      (∑ i ∈ Finset.range N, (z i + tE W (cv x) t (h1 W (cv x)) (th1 W (cv x) t) G i)) x :=
  HasDerivAt.fun_sum (fun i hi =>
    deriv_nodeE (H := fun τ => h1 W (cv τ)) hw h hP1 (le_refl N) hn
      (fun v hv LM hLM k hk => deriv_h1 hw h hP0 hv hLM hk) hG hz (Finset.mem_range.mp hi))

/-- Weights whose product with every function vanishing to first order at the cutoff is differentiable. -/
def CutOk (L : NList) (rc : ℝ) (V D : ℕ → ℕ → ℝ) (cut : ℝ → ℕ → ℝ) : Prop :=
  ∀ i < (centres L).length, ∀ e ∈ wideE L i, ∀ φ φ' : ℝ → ℝ, (∀ r, 0 < r → HasDerivAt φ (φ' r) r) → φ rc = 0 → φ' rc = 0 →
    HasDerivAt (fun τ => cut τ e * φ (len (fun a => V e a + τ * D e a)))
      (cut 0 e * φ' (len (V e)) * ((∑ a ∈ Finset.range 3, V e a * D e a) / len (V e))) 0

/-- The derivative depends on the weights at zero only. -/
theorem wide_hasDerivAt (hf : FileOk f) (hA : AtomsOk A mt f.nT) (hL : ListOk A L) (hI : ImagesOk A L) (hF : FadesOut f rc)
    (hS : FadesFlat f) (hsph : IsSphGrad sph dsph ((f.lmax + 1) * (f.lmax + 1))) {s : State ℝ} (hs : StOk f s) (V D : ℕ → ℕ → ℝ)
    (hV : ∀ i < (centres L).length, ∀ e ∈ wideE L i, 0 < len (V e)) :
    ∃ Z : (ℕ → ℝ) → ℝ, ∀ cut : ℝ → ℕ → ℝ, CutOk L rc V D cut →
      (∀ i < (centres L).length, (wide f sph A L mt (cut 0) V).s0 i ≠ 0 ∧ (wide f sph A L mt (cut 0) V).s1 i ≠ 0) →
      HasDerivAt (fun τ => ∑ i ∈ Finset.range (centres L).length,
        energy (netOf f) (wide f sph A L mt (cut τ) (fun e a => V e a + τ * D e a)) i) (Z (cut 0)) 0 := by
  let r' : ℕ → ℝ := fun e => (∑ a ∈ Finset.range 3, V e a * D e a) / len (V e)
  let sA : ℕ → ℕ := fun e => species mt A (wideA L e)
  let sB : ℕ → ℕ := fun e => species mt A (wideB L e)
  let tan : (ℕ → ℝ) → Tan ℝ := fun c =>
    { R0 := fun e l k => c e * hermite' f.splH (nth (row (tbl f.vals0 (pairPos f.nT (sA e) (sB e))) (l * f.numChannels + k)))
        (nth (row (tbl f.ders0 (pairPos f.nT (sA e) (sB e))) (l * f.numChannels + k))) (len (V e)) * r' e
      R1 := fun e l k => c e * hermite' f.splH (nth (row (tbl f.vals1 (pairPos f.nT (sA e) (sB e))) (l * f.numChannels + k)))
        (nth (row (tbl f.ders1 (pairPos f.nT (sA e) (sB e))) (l * f.numChannels + k))) (len (V e)) * r' e
      Y := fun e lm => (dsph (V e 2) (V e 0) (V e 1) 0 lm * D e 2 + dsph (V e 2) (V e 0) (V e 1) 1 lm * D e 0
        + dsph (V e 2) (V e 0) (V e 1) 2 lm * D e 1) * (2 * Real.sqrt Real.pi)
      s0 := fun i => if f.A0scaled then ∑ e ∈ wideE L i, c e * hermite' f.A0h (nth (row f.A0vals (pairPos f.nT (sA e) (sB e))))
        (nth (row f.A0ders (pairPos f.nT (sA e) (sB e)))) (len (V e)) * r' e else 0
      s1 := fun i => if f.A1scaled then ∑ e ∈ wideE L i, c e * hermite' f.A1h (nth (row f.A1vals (pairPos f.nT (sA e) (sB e))))
        (nth (row f.A1ders (pairPos f.nT (sA e) (sB e)))) (len (V e)) * r' e else 0 }
  let zt : (ℕ → ℝ) → ℕ → ℝ := fun c i => match f.zbl with
    | some z => ∑ e ∈ wideE L i, c e * ZBLModel.zblGrad z.aExp z.aPre (fun k => nth z.c k)
        (nth z.rad (nthN f.atomicNumbers (sA e)) + nth z.rad (nthN f.atomicNumbers (sB e)))
        z.p.toNat (nthN f.atomicNumbers (sA e)) (nthN f.atomicNumbers (sB e)) (len (V e)) * r' e
    | none => 0
  have hmem : ∀ i < (centres L).length, ∀ e ∈ wideE L i, sA e < f.nT ∧ sB e < f.nT := by
    intro i hi e he
    obtain ⟨h1, h2⟩ := wide_mem hi he
    exact ⟨species_lt hA (hL.entry _ h1).lt, species_lt hA ((hL.entry _ h1).nb _ h2)⟩
  refine ⟨fun c => ∑ i ∈ Finset.range (centres L).length, (zt c i + tE (netOf f) (wide f sph A L mt c V) (tan c)
    (h1 (netOf f) (wide f sph A L mt c V)) (th1 (netOf f) (wide f sph A L mt c V) (tan c)) (roGrad f) i), fun cut hcut hn => ?_⟩
  have h0 : (fun e a => V e a + 0 * D e a) = V := by funext e a; ring
  have hc : CurveOk (netOf f) (fun τ => wide f sph A L mt (cut τ) (fun e a => V e a + τ * D e a)) 0 (tan (cut 0)) (centres L).length
      f.nT (fun i => species mt A (nthN (centres L) i)) (wideE L) (fun e => rank (centres L) (original A (wideB L e)))
      (fun e => species mt A (wideB L e)) := by
    refine ⟨fun _ => rfl, fun _ => rfl, fun _ => rfl, fun _ => rfl, ?_, ?_, ?_, ?_, ?_, ?_, ?_, ?_⟩
    · intro i hi
      rw [nthN_getElem hi]
      exact species_lt hA (hL.entry _ (List.getElem_mem hi)).lt
    · intro i hi e he l hl k hk
      exact hcut i hi e he _ _ (fun r hr => Spline.hermite_hasDerivAt hf.h _ _ hr) (prof0_end hf hF _ _ _ _) (prof0_slope hf hF hS _ _ _ _)
    · intro i hi e he q hq k hk
      exact hcut i hi e he _ _ (fun r hr => Spline.hermite_hasDerivAt hf.h _ _ hr) (prof1_end hf hF _ _ _ _) (prof1_slope hf hF hS _ _ _ _)
    · intro i hi e he lm hlm
      exact (hsph (V e 2) (V e 0) (V e 1) (D e 2) (D e 0) (D e 1) lm hlm (len_ne _ (hV i hi e he))).mul_const (2 * Real.sqrt Real.pi)
    · intro i hi
      by_cases hs : f.A0scaled = true
      · simp only [wide, if_pos hs, tan]
        refine HasDerivAt.const_add _ (HasDerivAt.fun_sum (fun e he => ?_))
        exact hcut i hi e he _ _ (fun r hr => Spline.hermite_hasDerivAt (hf.A0s hs).1 _ _ hr) (dens0_end hf hF hs _ _)
          (dens0_slope hf hF hS hs _ _)
      · simp only [wide, if_neg hs, tan]
        exact hasDerivAt_const _ _
    · intro i hi
      by_cases hs : f.A1scaled = true
      · simp only [wide, if_pos hs, tan]
        refine HasDerivAt.const_add _ (HasDerivAt.fun_sum (fun e he => ?_))
        exact hcut i hi e he _ _ (fun r hr => Spline.hermite_hasDerivAt (hf.A1s hs).1 _ _ hr) (dens1_end hf hF hs _ _)
          (dens1_slope hf hF hS hs _ _)
      · simp only [wide, if_neg hs, tan]
        exact hasDerivAt_const _ _
    · rw [h0]; exact fun i hi => (hn i hi).1
    · rw [h0]; exact fun i hi => (hn i hi).2
  have hz : ∀ i < (centres L).length, HasDerivAt (fun τ => (wide f sph A L mt (cut τ) (fun e a => V e a + τ * D e a)).pairE i)
      (zt (cut 0) i) 0 := by
    intro i hi
    simp only [wide, zt]
    cases hzz : f.zbl with
    | none => exact hasDerivAt_const _ _
    | some z =>
      refine HasDerivAt.fun_sum (fun e he => ?_)
      obtain ⟨m1, m2⟩ := hmem i hi e he
      exact hcut i hi e he _ _ (fun r hr => ZBLModel.zblEnergy_hasDerivAt (fun k => nth z.c k) (zbl_wf hf hzz).hp1 _ _ hr)
        (repul_end hF hzz m1 m2) (repul_slope hF hzz m1 m2)
  have := energy_tan (netOk hf) hc hs.P0 hs.P1 (fun i hi e he => by
    obtain ⟨m1, m2⟩ := wide_mem hi he
    exact rank_lt (original_mem hI m1 m2)) (read2_ok f) hz
  rw [h0] at this
  exact this

/-! ## The energy of the pair style -/

theorem displaced_zero (u : ℕ → ℕ → ℝ) : displaced A u 0 = A := by
  unfold displaced
  have : (List.range A.x.length).map (fun p => nth A.x p + 0 * u (p / 3) (p % 3)) = A.x := by
    apply List.ext_getElem
    · simp
    · intro i h1 h2
      simp [nth, h2]
  rw [this]

/-- The energy as a sum over the listed pairs. -/
theorem Etot_displaced (hA : AtomsOk A mt f.nT) (hL : ListOk A L) (hI : ImagesOk A L) (u : ℕ → ℕ → ℝ) (τ : ℝ) :
    Etot f sph L rc mt (displaced A u τ) = ∑ i ∈ Finset.range (centres L).length, energy (netOf f)
      (wide f sph A L mt (cutInd (displaced A u τ) L rc) (fun e a => disp A (wideA L e) (wideB L e) a
        + τ * (u (wideB L e) a - u (wideA L e) a))) i := by
  unfold Etot
  rw [← centres_length hL]
  refine Finset.sum_congr rfl (fun i hi => ?_)
  have hi := Finset.mem_range.mp hi
  have hT := periodic_ok (rc := rc) (displaced_ok (u := u) (τ := τ) hA) (list_displaced hL) (images_displaced hI)
  refine Eq.trans ?_ (broad_energy (A := displaced A u τ) (fun i j c => disp A i j c + τ * (u j c - u i c)) hi (images_displaced hI) (netOf f))
  refine energy_vec_congr hT (fun e he c hc => ?_) hi
  have hE : (periodic (displaced A u τ) L rc mt).E = (bonds (displaced A u τ) L rc (centres L)).length := sysOf_E _ _
  rw [hE] at he
  have h1 := ends_mem he
  unfold bondVecs
  rw [vecs_ends]
  exact disp_displaced hA (hL.entry _ h1.1).lt ((hL.entry _ h1.1).nb _ (mem_nbrs_listed h1.2)) hc

theorem Etot_frozen (hL : ListOk A L) (hI : ImagesOk A L) (u : ℕ → ℕ → ℝ) (τ : ℝ) :
    ∑ i ∈ Finset.range (centres L).length, energy (netOf f) (confOf f sph (periodic A L rc mt)
      (fun e a => bondVecs A L rc e a + τ * edgeDir A L rc (centres L) u e a)) i = ∑ i ∈ Finset.range (centres L).length, energy (netOf f)
      (wide f sph A L mt (cutInd A L rc) (fun e a => disp A (wideA L e) (wideB L e) a
        + τ * (u (wideB L e) a - u (wideA L e) a))) i := by
  refine Finset.sum_congr rfl (fun i hi => ?_)
  have hi := Finset.mem_range.mp hi
  refine Eq.trans ?_ (broad_energy (A := A) (fun i j c => disp A i j c + τ * (u j c - u i c)) hi hI (netOf f))
  congr 2

theorem cut_const (V D : ℕ → ℕ → ℝ) (hV : ∀ i < (centres L).length, ∀ e ∈ wideE L i, 0 < len (V e)) (c : ℕ → ℝ) :
    CutOk L rc V D (fun _ => c) := by
  intro i hi e he φ φ' h _ _
  have := (comp_len (d := D e) (hV i hi e he) (h _ (hV i hi e he))).const_mul (c e)
  exact this.congr_deriv (by ring)

theorem cut_step (V D : ℕ → ℕ → ℝ) (hV : ∀ i < (centres L).length, ∀ e ∈ wideE L i, 0 < len (V e)) {cut : ℝ → ℕ → ℝ}
    (hc : ∀ i < (centres L).length, ∀ e ∈ wideE L i, ∀ τ, cut τ e = step rc (len (fun a => V e a + τ * D e a))) : CutOk L rc V D cut := by
  intro i hi e he φ φ' h h0 h1
  simp only [hc i hi e he]
  have h2 := step_hasDerivAt (h _ (hV i hi e he)) h0 h1
  have := comp_len (d := D e) (hV i hi e he) h2
  refine this.congr_deriv ?_
  simp

/-- Pairs inside the cutoff are inside the tables. -/
theorem inside_of_pos (hF : FadesOut f rc) (h : ∀ i < (centres L).length, ∀ e ∈ wideE L i, 0 < len (fun c => disp A (wideA L e) (wideB L e) c)) :
    Inside f (periodic A L rc mt) (bondVecs A L rc) := by
  intro e he
  have hE : (periodic A L rc mt).E = (bonds A L rc (centres L)).length := sysOf_E _ _
  rw [hE] at he
  have hm := ends_mem he
  have hlt : len (bondVecs A L rc e) < rc := by
    have := hm.2
    unfold nbrs at this
    rw [List.mem_filter] at this
    have h2 : ∑ c ∈ Finset.range 3, disp A (endA A L rc (centres L) e) (endB A L rc (centres L) e) c ^ 2 < rc ^ 2 := by simpa using this.2
    unfold len
    rw [Real.sqrt_lt' hF.pos]
    unfold bondVecs
    simp only [vecs_ends]
    exact h2
  have h0 : 0 < len (bondVecs A L rc e) := by
    obtain ⟨ii, hi, hc⟩ := List.getElem_of_mem hm.1
    obtain ⟨p, hp, hj⟩ := List.getElem_of_mem (mem_nbrs_listed hm.2)
    have hp' : p < (listed L (centres L)[ii]).length := by rw [hc]; exact hp
    have he' : Nat.pair ii p ∈ wideE L ii := Finset.mem_image.mpr ⟨p, Finset.mem_range.mpr (by rw [nthN_getElem hi]; exact hp'), rfl⟩
    have := h ii hi _ he'
    rw [(wide_ends hi hp').1, (wide_ends hi hp').2] at this
    unfold bondVecs
    have hv : vecs A (bonds A L rc (centres L)) e = fun c => disp A (endA A L rc (centres L) e) (endB A L rc (centres L) e) c := by
      funext c
      rw [vecs_ends]
    rw [hv, ← hj]
    simpa only [hc] using this
  exact ⟨h0, by rw [hF.end0]; exact hlt, by rw [hF.end1]; exact hlt, fun hs w hw => by rw [(hF.dens0 hs w hw).1]; exact hlt,
    fun hs w hw => by rw [(hF.dens1 hs w hw).1]; exact hlt⟩

/-- Derivative of the total energy along any displacement of the atoms, pairs at the cutoff included. -/
theorem Etot_hasDerivAt_smooth (hf : FileOk f) (hA : AtomsOk A mt f.nT) (hL : ListOk A L) (hI : ImagesOk A L) (hF : FadesOut f rc)
    (hS : FadesFlat f)
    (hX : Inside f (periodic A L rc mt) (bondVecs A L rc)) (hsph : IsSphGrad sph dsph ((f.lmax + 1) * (f.lmax + 1))) {s : State ℝ}
    (hs : StOk f s) (hsc : Props.ScalesNonzero f sph (periodic A L rc mt) (bondVecs A L rc)) (u : ℕ → ℕ → ℝ) :
    HasDerivAt (fun τ => Etot f sph L rc mt (displaced A u τ))
      (- ∑ e ∈ Finset.range (bonds A L rc (centres L)).length, ∑ c ∈ Finset.range 3,
        forceOf f sph dsph (periodic A L rc mt) (bondVecs A L rc) e c * edgeDir A L rc (centres L) u e c) 0 ∧
    ∀ᶠ τ in nhds (0 : ℝ), Inside f (periodic (displaced A u τ) L rc mt) (bondVecs (displaced A u τ) L rc) := by
  have hT := periodic_ok (rc := rc) hA hL hI
  have hE : (periodic A L rc mt).E = (bonds A L rc (centres L)).length := sysOf_E _ _
  let V : ℕ → ℕ → ℝ := fun e a => disp A (wideA L e) (wideB L e) a
  let D : ℕ → ℕ → ℝ := fun e a => u (wideB L e) a - u (wideA L e) a
  have hV : ∀ i < (centres L).length, ∀ e ∈ wideE L i, 0 < len (V e) := fun i hi e he =>
    wide_pos hF.pos (fun e he => (hX e (by rw [hE]; exact he)).1) hi he
  have hlen : ∀ i < (centres L).length, ∀ e ∈ wideE L i, ∀ τ,
      len (fun c => disp (displaced A u τ) (wideA L e) (wideB L e) c) = len (fun a => V e a + τ * D e a) := by
    intro i hi e he τ
    obtain ⟨h1, h2⟩ := wide_mem hi he
    exact len_congr (fun a ha => disp_displaced hA (hL.entry _ h1).lt ((hL.entry _ h1).nb _ h2) ha)
  obtain ⟨Z, hZ⟩ := wide_hasDerivAt hf hA hL hI hF hS hsph hs V D hV
  have hn : ∀ i < (centres L).length, (wide f sph A L mt (cutInd A L rc) V).s0 i ≠ 0 ∧ (wide f sph A L mt (cutInd A L rc) V).s1 i ≠ 0 := by
    intro i hi
    have hv : (fun e => (fun i j c => disp A i j c) (endA A L rc (centres L) e) (endB A L rc (centres L) e)) = bondVecs A L rc := by
      funext e c
      unfold bondVecs
      rw [vecs_ends]
    have h0 := broad_s0 (f := f) (sph := sph) (A := A) (rc := rc) (mt := mt) (fun i j c => disp A i j c) hi
    have h1 := broad_s1 (f := f) (sph := sph) (A := A) (rc := rc) (mt := mt) (fun i j c => disp A i j c) hi
    rw [narrow, hv] at h0 h1
    have := hsc i hi
    rw [h0, h1] at this
    exact this
  have d1 := hZ (fun _ => cutInd A L rc) (cut_const V D hV _) hn
  have d2 := total_hasDerivAt hf hT hX hsph hs (fun i hi => (hsc i hi).1) (fun i hi => (hsc i hi).2) (edgeDir A L rc (centres L) u)
  have d1' := d1.congr_of_eventuallyEq (Eventually.of_forall (fun τ => Etot_frozen (f := f) (sph := sph) (mt := mt) (rc := rc) hL hI u τ))
  have hval := d1'.unique d2
  rw [hE] at hval
  have d3 := hZ (fun τ => cutInd (displaced A u τ) L rc) (cut_step V D hV (fun i hi e he τ => by
    rw [cutInd_eq hF.pos, hlen i hi e he])) (by rw [displaced_zero]; exact hn)
  rw [displaced_zero, hval] at d3
  refine ⟨d3.congr_of_eventuallyEq (Eventually.of_forall (fun τ => Etot_displaced hA hL hI u τ)), ?_⟩
  have hpos : ∀ᶠ τ in 𝓝 (0 : ℝ), ∀ i ∈ Finset.range (centres L).length, ∀ e ∈ wideE L i, 0 < len (fun a => V e a + τ * D e a) := by
    refine (Filter.eventually_all_finset _).mpr (fun i hi => (Filter.eventually_all_finset _).mpr (fun e he => ?_))
    have hcont : Continuous (fun τ : ℝ => len (fun a => V e a + τ * D e a)) := by unfold len; fun_prop
    refine hcont.continuousAt.eventually (p := fun y => 0 < y) ?_
    have h0 : len (fun a => V e a + 0 * D e a) = len (V e) := by simp
    dsimp only
    rw [h0]
    exact lt_mem_nhds (hV i (Finset.mem_range.mp hi) e he)
  filter_upwards [hpos] with τ hτ
  exact inside_of_pos hF (fun i hi e he => by rw [hlen i hi e he]; exact hτ i (Finset.mem_range.mpr hi) e he)

end Verif.Lammps
