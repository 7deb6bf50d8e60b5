import Verif.Lemmas.Lammps.CutoffCont
import Verif.Lemmas.MACE.Motion

/-! # Derivative of the energy of the pair style along a motion of the atoms -/

namespace Verif.Lammps
open Verif.MACE Verif.Spec Filter Topology

variable {A : Atoms} {L : NList} {rc : ℝ} {mt : List ℕ} {f : File} {sph : ℝ → ℝ → ℝ → ℕ → ℝ} {dsph : ℝ → ℝ → ℝ → ℕ → ℕ → ℝ}

/-- A curve of bond vectors of all listed pairs which at time `t` is at `V` with velocity `D`. -/
def Through (L : NList) (Vc : ℝ → ℕ → ℕ → ℝ) (t : ℝ) (V D : ℕ → ℕ → ℝ) : Prop :=
  Vc t = V ∧ ∀ i < (centres L).length, ∀ e ∈ wideE L i, ∀ a < 3, HasDerivAt (fun τ => Vc τ e a) (D e a) t

/-- Weights whose product with every function vanishing to first order at the cutoff is differentiable. -/
def CutCurve (L : NList) (rc : ℝ) (Vc : ℝ → ℕ → ℕ → ℝ) (t : ℝ) (V D : ℕ → ℕ → ℝ) (cut : ℝ → ℕ → ℝ) : Prop :=
  ∀ i < (centres L).length, ∀ e ∈ wideE L i, ∀ φ φ' : ℝ → ℝ, (∀ r, 0 < r → HasDerivAt φ (φ' r) r) → φ rc = 0 → φ' rc = 0 →
    HasDerivAt (fun τ => cut τ e * φ (len (Vc τ e)))
      (cut t e * φ' (len (V e)) * ((∑ a ∈ Finset.range 3, V e a * D e a) / len (V e))) t

/-- The derivative depends on the vectors, their velocities and the weights at the time only. -/
theorem wide_motion (hf : FileOk f) (hA : AtomsOk A mt f.nT) (hL : ListOk A L) (hI : ImagesOk A L) (hF : FadesOut f rc)
    (hS : FadesFlat f) (hsph : IsSphDiff sph dsph ((f.lmax + 1) * (f.lmax + 1))) {s : State ℝ} (hs : StOk f s) (V D : ℕ → ℕ → ℝ)
    (hV : ∀ i < (centres L).length, ∀ e ∈ wideE L i, 0 < len (V e)) :
    ∃ Z : (ℕ → ℝ) → ℝ, ∀ (Vc : ℝ → ℕ → ℕ → ℝ) (t : ℝ) (cut : ℝ → ℕ → ℝ), Through L Vc t V D → CutCurve L rc Vc t V D cut →
      (∀ i < (centres L).length, (wide f sph A L mt (cut t) V).s0 i ≠ 0 ∧ (wide f sph A L mt (cut t) V).s1 i ≠ 0) →
      HasDerivAt (fun τ => ∑ i ∈ Finset.range (centres L).length,
        energy (netOf f) (wide f sph A L mt (cut τ) (Vc τ)) i) (Z (cut t)) t := by
  let r' : ℕ → ℝ := fun e => (∑ a ∈ Finset.range 3, V e a * D e a) / len (V e)
  let sA : ℕ → ℕ := fun e => species mt A (wideA L e)
  let sB : ℕ → ℕ := fun e => species mt A (wideB L e)
  let tan : (ℕ → ℝ) → Tan ℝ := fun c =>
    { R0 := fun e l k => c e * hermite' f.splH (nth (row (tbl f.vals0 (pairPos f.nT (sA e) (sB e))) (l * f.numChannels + k)))
        (nth (row (tbl f.ders0 (pairPos f.nT (sA e) (sB e))) (l * f.numChannels + k))) (len (V e)) * r' e
      R1 := fun e l k => c e * hermite' f.splH (nth (row (tbl f.vals1 (pairPos f.nT (sA e) (sB e))) (l * f.numChannels + k)))
        (nth (row (tbl f.ders1 (pairPos f.nT (sA e) (sB e))) (l * f.numChannels + k))) (len (V e)) * r' e
      Y := fun e lm => (dsph (V e 2) (V e 0) (V e 1) 0 lm * D e 2 + dsph (V e 2) (V e 0) (V e 1) 1 lm * D e 0
        + dsph (V e 2) (V e 0) (V e 1) 2 lm * D e 1) * (2 * Real.sqrt Real.pi)
      s0 := fun i => if f.A0scaled then ∑ e ∈ wideE L i, c e * hermite' f.A0h (nth (row f.A0vals (pairPos f.nT (sA e) (sB e))))
        (nth (row f.A0ders (pairPos f.nT (sA e) (sB e)))) (len (V e)) * r' e else 0
      s1 := fun i => if f.A1scaled then ∑ e ∈ wideE L i, c e * hermite' f.A1h (nth (row f.A1vals (pairPos f.nT (sA e) (sB e))))
        (nth (row f.A1ders (pairPos f.nT (sA e) (sB e)))) (len (V e)) * r' e else 0 }
  let zt : (ℕ → ℝ) → ℕ → ℝ := fun c i => match f.zbl with
    | some z => ∑ e ∈ wideE L i, c e * ZBLModel.zblGrad z.aExp z.aPre (fun k => nth z.c k)
        (nth z.rad (nthN f.atomicNumbers (sA e)) + nth z.rad (nthN f.atomicNumbers (sB e)))
        z.p.toNat (nthN f.atomicNumbers (sA e)) (nthN f.atomicNumbers (sB e)) (len (V e)) * r' e
    | none => 0
  have hmem : ∀ i < (centres L).length, ∀ e ∈ wideE L i, sA e < f.nT ∧ sB e < f.nT := by
    intro i hi e he
    obtain ⟨h1, h2⟩ := wide_mem hi he
    exact ⟨species_lt hA (hL.entry _ h1).lt, species_lt hA ((hL.entry _ h1).nb _ h2)⟩
  refine ⟨fun c => ∑ i ∈ Finset.range (centres L).length, (zt c i + tE (netOf f) (wide f sph A L mt c V) (tan c)
    (h1 (netOf f) (wide f sph A L mt c V)) (th1 (netOf f) (wide f sph A L mt c V) (tan c)) (roGrad f) i),
    fun Vc t cut hVc hcut hn => ?_⟩
  obtain ⟨h0, hd⟩ := hVc
  have hc : CurveOk (netOf f) (fun τ => wide f sph A L mt (cut τ) (Vc τ)) t (tan (cut t)) (centres L).length
      f.nT (fun i => species mt A (nthN (centres L) i)) (wideE L) (fun e => rank (centres L) (original A (wideB L e)))
      (fun e => species mt A (wideB L e)) := by
    refine ⟨fun _ => rfl, fun _ => rfl, fun _ => rfl, fun _ => rfl, ?_, ?_, ?_, ?_, ?_, ?_, ?_, ?_⟩
    · intro i hi
      rw [nthN_getElem hi]
      exact species_lt hA (hL.entry _ (List.getElem_mem hi)).lt
    · intro i hi e he l hl k hk
      exact hcut i hi e he _ _ (fun r hr => Spline.hermite_hasDerivAt hf.h _ _ hr) (prof0_end hf hF _ _ _ _) (prof0_slope hf hF hS _ _ _ _)
    · intro i hi e he q hq k hk
      exact hcut i hi e he _ _ (fun r hr => Spline.hermite_hasDerivAt hf.h _ _ hr) (prof1_end hf hF _ _ _ _) (prof1_slope hf hF hS _ _ _ _)
    · intro i hi e he lm hlm
      have h3 := hd i hi e he
      have hne : ¬ (Vc t e 2 = 0 ∧ Vc t e 0 = 0 ∧ Vc t e 1 = 0) := by rw [h0]; exact len_ne _ (hV i hi e he)
      have := (hsph _ _ _ _ _ _ t (h3 2 (by omega)) (h3 0 (by omega)) (h3 1 (by omega)) hne lm hlm).mul_const (2 * Real.sqrt Real.pi)
      simp only [h0] at this
      exact this
    · intro i hi
      by_cases hs : f.A0scaled = true
      · simp only [wide, if_pos hs, tan]
        refine HasDerivAt.const_add _ (HasDerivAt.fun_sum (fun e he => ?_))
        exact hcut i hi e he _ _ (fun r hr => Spline.hermite_hasDerivAt (hf.A0s hs).1 _ _ hr) (dens0_end hf hF hs _ _)
          (dens0_slope hf hF hS hs _ _)
      · simp only [wide, if_neg hs, tan]
        exact hasDerivAt_const _ _
    · intro i hi
      by_cases hs : f.A1scaled = true
      · simp only [wide, if_pos hs, tan]
        refine HasDerivAt.const_add _ (HasDerivAt.fun_sum (fun e he => ?_))
        exact hcut i hi e he _ _ (fun r hr => Spline.hermite_hasDerivAt (hf.A1s hs).1 _ _ hr) (dens1_end hf hF hs _ _)
          (dens1_slope hf hF hS hs _ _)
      · simp only [wide, if_neg hs, tan]
        exact hasDerivAt_const _ _
    · rw [h0]; exact fun i hi => (hn i hi).1
    · rw [h0]; exact fun i hi => (hn i hi).2
  have hz : ∀ i < (centres L).length, HasDerivAt (fun τ => (wide f sph A L mt (cut τ) (Vc τ)).pairE i) (zt (cut t) i) t := by
    intro i hi
    simp only [wide, zt]
    cases hzz : f.zbl with
    | none => exact hasDerivAt_const _ _
    | some z =>
      refine HasDerivAt.fun_sum (fun e he => ?_)
      obtain ⟨m1, m2⟩ := hmem i hi e he
      exact hcut i hi e he _ _ (fun r hr => ZBLModel.zblEnergy_hasDerivAt (fun k => nth z.c k) (zbl_wf hf hzz).hp1 _ _ hr)
        (repul_end hF hzz m1 m2) (repul_slope hF hzz m1 m2)
  have := energy_tan (netOk hf) hc hs.P0 hs.P1 (fun i hi e he => by
    obtain ⟨m1, m2⟩ := wide_mem hi he
    exact rank_lt (original_mem hI m1 m2)) (read2_ok f) hz
  rw [h0] at this
  exact this

theorem cut_of {V D : ℕ → ℕ → ℝ} {cut : ℝ → ℕ → ℝ} (h : CutOk L rc V D cut) : CutCurve L rc (fun τ e a => V e a + τ * D e a) 0 V D cut := h

theorem through_line (V D : ℕ → ℕ → ℝ) : Through L (fun τ e a => V e a + τ * D e a) 0 V D := by
  refine ⟨by funext e a; ring, fun i _ e _ a _ => ?_⟩
  simpa using ((hasDerivAt_id (0 : ℝ)).mul_const (D e a)).const_add (V e a)

theorem cut_motion {Vc : ℝ → ℕ → ℕ → ℝ} {t : ℝ} {V D : ℕ → ℕ → ℝ} (hT : Through L Vc t V D)
    (hV : ∀ i < (centres L).length, ∀ e ∈ wideE L i, 0 < len (V e)) {cut : ℝ → ℕ → ℝ}
    (hc : ∀ i < (centres L).length, ∀ e ∈ wideE L i, ∀ τ, cut τ e = step rc (len (Vc τ e))) : CutCurve L rc Vc t V D cut := by
  intro i hi e he φ φ' h h0 h1
  obtain ⟨rfl, hd⟩ := hT
  simp only [hc i hi e he]
  exact comp_curve (V := fun τ => Vc τ e) (hd i hi e he) (hV i hi e he) (step_hasDerivAt (h _ (hV i hi e he)) h0 h1)

/-- Derivative of the total energy along a motion, pairs at the cutoff included. -/
theorem Etot_motion (hf : FileOk f) (hA : AtomsOk A mt f.nT) (hL : ListOk A L) (hI : ImagesOk A L) (hF : FadesOut f rc)
    (hS : FadesFlat f) (hX : Inside f (periodic A L rc mt) (bondVecs A L rc)) (hsph : IsSphDiff sph dsph ((f.lmax + 1) * (f.lmax + 1)))
    {s : State ℝ} (hs : StOk f s) (hsc : Props.ScalesNonzero f sph (periodic A L rc mt) (bondVecs A L rc)) {xs : ℝ → List ℝ} {t : ℝ}
    (hxs : xs t = A.x) {u : ℕ → ℕ → ℝ}
    (hu : ∀ i ∈ centres L, ∀ c < 3, HasDerivAt (fun τ => nth (xs τ) (3 * i + c)) (u i c) t ∧
      ∀ j ∈ listed L i, HasDerivAt (fun τ => nth (xs τ) (3 * j + c)) (u j c) t) :
    HasDerivAt (fun τ => Etot f sph L rc mt (place A (xs τ)))
      (- ∑ e ∈ Finset.range (bonds A L rc (centres L)).length, ∑ c ∈ Finset.range 3,
        forceOf f sph dsph (periodic A L rc mt) (bondVecs A L rc) e c * edgeDir A L rc (centres L) u e c) t := by
  have hT := periodic_ok (rc := rc) hA hL hI
  have hE : (periodic A L rc mt).E = (bonds A L rc (centres L)).length := sysOf_E _ _
  have hpl : place A (xs t) = A := by rw [hxs]; rfl
  let V : ℕ → ℕ → ℝ := fun e a => disp A (wideA L e) (wideB L e) a
  let D : ℕ → ℕ → ℝ := fun e a => u (wideB L e) a - u (wideA L e) a
  let Vc : ℝ → ℕ → ℕ → ℝ := fun τ e a => disp (place A (xs τ)) (wideA L e) (wideB L e) a
  have hV : ∀ i < (centres L).length, ∀ e ∈ wideE L i, 0 < len (V e) := fun i hi e he =>
    wide_pos hF.pos (fun e he => (hX e (by rw [hE]; exact he)).1) hi he
  have hTh : Through L Vc t V D := by
    refine ⟨by simp only [Vc, hpl]; rfl, fun i hi e he a ha => ?_⟩
    obtain ⟨h1, h2⟩ := wide_mem hi he
    exact ((hu _ h1 a ha).2 _ h2).sub (hu _ h1 a ha).1
  obtain ⟨Z, hZ⟩ := wide_motion hf hA hL hI hF hS hsph hs V D hV
  have hn : ∀ i < (centres L).length, (wide f sph A L mt (cutInd A L rc) V).s0 i ≠ 0 ∧ (wide f sph A L mt (cutInd A L rc) V).s1 i ≠ 0 := by
    intro i hi
    have h0 := broad_s0 (f := f) (sph := sph) (A := A) (rc := rc) (mt := mt) (fun i j c => disp A i j c) hi
    have h1 := broad_s1 (f := f) (sph := sph) (A := A) (rc := rc) (mt := mt) (fun i j c => disp A i j c) hi
    exact ⟨fun h => (hsc i hi).1 (h0.trans h), fun h => (hsc i hi).2 (h1.trans h)⟩
  have d1 := hZ _ 0 (fun _ => cutInd A L rc) (through_line V D) (cut_of (cut_const V D hV _)) hn
  have d2 := total_hasDerivAt hf hT hX hsph.grad hs (fun i hi => (hsc i hi).1) (fun i hi => (hsc i hi).2) (edgeDir A L rc (centres L) u)
  have d1' := d1.congr_of_eventuallyEq (Eventually.of_forall (fun τ => Etot_frozen (f := f) (sph := sph) (mt := mt) (rc := rc) hL hI u τ))
  have hval := d1'.unique d2
  rw [hE] at hval
  have d3 := hZ Vc t (fun τ => cutInd (place A (xs τ)) L rc) hTh (cut_motion hTh hV (fun i hi e he τ => cutInd_eq hF.pos e))
    (by rw [hpl]; exact hn)
  rw [hpl, hval] at d3
  exact d3.congr_of_eventuallyEq (Eventually.of_forall (fun τ =>
    Etot_wide (A := place A (xs τ)) (place_list hL) (place_images hI)))

end Verif.Lammps
