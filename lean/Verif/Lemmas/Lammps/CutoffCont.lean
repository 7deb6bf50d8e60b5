import Verif.Lemmas.Lammps.CutoffDiff

/-! # The energy depends continuously on the positions -/

namespace Verif.Lammps
open Verif.MACE Verif.Spec Filter Topology

/-- The first `M` harmonics are continuous away from the origin. -/
def SphCont (sph : ℝ → ℝ → ℝ → ℕ → ℝ) (M : ℕ) : Prop :=
  ∀ lm < M, ∀ x y z : ℝ, ¬ (x = 0 ∧ y = 0 ∧ z = 0) → ContinuousAt (fun p : ℝ × ℝ × ℝ => sph p.1 p.2.1 p.2.2 lm) (x, y, z)

/-- The same atoms at other positions. -/
def place (A : Atoms) (x : List ℝ) : Atoms := { A with x := x }

variable {A : Atoms} {L : NList} {rc : ℝ} {mt : List ℕ} {f : File} {sph : ℝ → ℝ → ℝ → ℕ → ℝ} {ι : Type} {F : Filter ι} {xs : ι → List ℝ}

theorem place_ok {x : List ℝ} (hx : x.length = A.x.length) (h : AtomsOk A mt nT) : AtomsOk (place A x) mt nT :=
  ⟨by rw [place, hx]; exact h.x, h.type, h.typ, h.mt⟩

theorem place_entry {x : List ℝ} {i : ℕ} (h : EntryOk A L i) : EntryOk (place A x) L i := ⟨h.lt, h.num, h.first, h.len, h.nb⟩

theorem place_list {x : List ℝ} (h : ListOk A L) : ListOk (place A x) L := ⟨h.inum, h.nodup, h.loc, fun i hi => place_entry (h.entry i hi)⟩

theorem place_images {x : List ℝ} (h : ImagesOk A L) : ImagesOk (place A x) L := ⟨h.tag, h.orig, h.self⟩

theorem Etot_wide (hL : ListOk A L) (hI : ImagesOk A L) : Etot f sph L rc mt A = ∑ i ∈ Finset.range (centres L).length,
    energy (netOf f) (wide f sph A L mt (cutInd A L rc) (fun e a => disp A (wideA L e) (wideB L e) a)) i := by
  unfold Etot
  rw [← centres_length hL]
  refine Finset.sum_congr rfl (fun i hi => ?_)
  have hi := Finset.mem_range.mp hi
  exact Eq.trans (by congr 2) (broad_energy (A := A) (fun i j c => disp A i j c) hi hI (netOf f))

theorem tendsto_disp (hA : AtomsOk A mt nT) (hx : ∀ p < A.x.length, Tendsto (fun n => nth (xs n) p) F (𝓝 (nth A.x p))) {i j c : ℕ}
    (hi : i < A.nlocal + A.nghost) (hj : j < A.nlocal + A.nghost) (hc : c < 3) :
    Tendsto (fun n => disp (place A (xs n)) i j c) F (𝓝 (disp A i j c)) := by
  have := hA.x
  exact (hx (3 * j + c) (by omega)).sub (hx (3 * i + c) (by omega))

theorem tendsto_len {V : ι → ℕ → ℝ} {V0 : ℕ → ℝ} (h : ∀ c < 3, Tendsto (fun n => V n c) F (𝓝 (V0 c))) :
    Tendsto (fun n => len (V n)) F (𝓝 (len V0)) := by
  unfold len
  exact (Real.continuous_sqrt.tendsto _).comp (tendsto_finsetSum _ (fun c hc => (h c (Finset.mem_range.mp hc)).pow 2))

/-- Energies of converging positions converge. -/
theorem Etot_tendsto (hf : FileOk f) (hA : AtomsOk A mt f.nT) (hL : ListOk A L) (hI : ImagesOk A L) (hF : FadesOut f rc)
    (hX : Inside f (periodic A L rc mt) (bondVecs A L rc)) (hsph : SphCont sph ((f.lmax + 1) * (f.lmax + 1)))
    (hsc : Props.ScalesNonzero f sph (periodic A L rc mt) (bondVecs A L rc))
    (hx : ∀ p < A.x.length, Tendsto (fun n => nth (xs n) p) F (𝓝 (nth A.x p))) :
    Tendsto (fun n => Etot f sph L rc mt (place A (xs n))) F (𝓝 (Etot f sph L rc mt A)) ∧
    ∀ᶠ n in F, Inside f (periodic (place A (xs n)) L rc mt) (bondVecs (place A (xs n)) L rc) := by
  have hE : (periodic A L rc mt).E = (bonds A L rc (centres L)).length := sysOf_E _ _
  let V : ℕ → ℕ → ℝ := fun e a => disp A (wideA L e) (wideB L e) a
  let Vn : ι → ℕ → ℕ → ℝ := fun n e a => disp (place A (xs n)) (wideA L e) (wideB L e) a
  have hV : ∀ i < (centres L).length, ∀ e ∈ wideE L i, 0 < len (V e) := fun i hi e he =>
    wide_pos hF.pos (fun e he => (hX e (by rw [hE]; exact he)).1) hi he
  have hvec : ∀ i < (centres L).length, ∀ e ∈ wideE L i, ∀ c < 3, Tendsto (fun n => Vn n e c) F (𝓝 (V e c)) := by
    intro i hi e he c hc
    obtain ⟨h1, h2⟩ := wide_mem hi he
    exact tendsto_disp hA hx (hL.entry _ h1).lt ((hL.entry _ h1).nb _ h2) hc
  have hlen : ∀ i < (centres L).length, ∀ e ∈ wideE L i, Tendsto (fun n => len (Vn n e)) F (𝓝 (len (V e))) :=
    fun i hi e he => tendsto_len (hvec i hi e he)
  have hcut : ∀ i < (centres L).length, ∀ e ∈ wideE L i, ∀ φ : ℝ → ℝ, (∀ r, 0 < r → ContinuousAt φ r) → φ rc = 0 →
      Tendsto (fun n => cutInd (place A (xs n)) L rc e * φ (len (Vn n e))) F (𝓝 (cutInd A L rc e * φ (len (V e)))) := by
    intro i hi e he φ h h0
    have := (step_continuousAt (h _ (hV i hi e he)) h0).tendsto.comp (hlen i hi e he)
    simp only [cutInd_eq hF.pos]
    exact this
  have hmem : ∀ i < (centres L).length, ∀ e ∈ wideE L i, species mt A (wideA L e) < f.nT ∧ species mt A (wideB L e) < f.nT := by
    intro i hi e he
    obtain ⟨h1, h2⟩ := wide_mem hi he
    exact ⟨species_lt hA (hL.entry _ h1).lt, species_lt hA ((hL.entry _ h1).nb _ h2)⟩
  have hcont : ∀ {h : ℝ}, 0 < h → ∀ v d : ℕ → ℝ, ∀ r, 0 < r → ContinuousAt (hermite h v d) r := fun hh v d r hr =>
    (Spline.hermite_hasDerivAt hh v d hr).continuousAt
  have hlim : LimOk (netOf f) F (fun n => wide f sph A L mt (cutInd (place A (xs n)) L rc) (Vn n))
      (wide f sph A L mt (cutInd A L rc) V) (centres L).length := by
    refine ⟨fun _ => rfl, fun _ => rfl, fun _ => rfl, fun _ => rfl, ?_, ?_, ?_, ?_, ?_, ?_, ?_, ?_, ?_⟩
    · intro i hi e he
      obtain ⟨m1, m2⟩ := wide_mem hi he
      exact rank_lt (original_mem hI m1 m2)
    · intro i hi e he l k
      exact hcut i hi e he _ (hcont hf.h _ _) (prof0_end hf hF _ _ _ _)
    · intro i hi e he l k
      exact hcut i hi e he _ (hcont hf.h _ _) (prof1_end hf hF _ _ _ _)
    · intro i hi e he lm hlm
      refine Tendsto.mul_const _ ?_
      have h3 := hvec i hi e he
      exact (hsph lm hlm _ _ _ (len_ne _ (hV i hi e he))).tendsto.comp
        ((h3 2 (by omega)).prodMk_nhds ((h3 0 (by omega)).prodMk_nhds (h3 1 (by omega))))
    · intro i hi
      by_cases hs : f.A0scaled = true
      · simp only [wide, if_pos hs]
        exact tendsto_const_nhds.add (tendsto_finsetSum _ (fun e he => hcut i hi e he _ (hcont (hf.A0s hs).1 _ _) (dens0_end hf hF hs _ _)))
      · simp only [wide, if_neg hs]
        exact tendsto_const_nhds
    · intro i hi
      by_cases hs : f.A1scaled = true
      · simp only [wide, if_pos hs]
        exact tendsto_const_nhds.add (tendsto_finsetSum _ (fun e he => hcut i hi e he _ (hcont (hf.A1s hs).1 _ _) (dens1_end hf hF hs _ _)))
      · simp only [wide, if_neg hs]
        exact tendsto_const_nhds
    · intro i hi
      simp only [wide]
      cases hzz : f.zbl with
      | none => exact tendsto_const_nhds
      | some z =>
        refine tendsto_finsetSum _ (fun e he => ?_)
        obtain ⟨m1, m2⟩ := hmem i hi e he
        exact hcut i hi e he _ (fun r hr => (ZBLModel.zblEnergy_hasDerivAt (fun k => nth z.c k) (zbl_wf hf hzz).hp1 _ _ hr).continuousAt)
          (repul_end hF hzz m1 m2)
    · intro i hi
      have h0 := broad_s0 (f := f) (sph := sph) (A := A) (rc := rc) (mt := mt) (fun i j c => disp A i j c) hi
      exact fun h => (hsc i hi).1 (h0.trans h)
    · intro i hi
      have h0 := broad_s1 (f := f) (sph := sph) (A := A) (rc := rc) (mt := mt) (fun i j c => disp A i j c) hi
      exact fun h => (hsc i hi).2 (h0.trans h)
  constructor
  · rw [Etot_wide hL hI]
    have : ∀ n, Etot f sph L rc mt (place A (xs n)) = ∑ i ∈ Finset.range (centres L).length,
        energy (netOf f) (wide f sph A L mt (cutInd (place A (xs n)) L rc) (Vn n)) i := fun n =>
      Etot_wide (A := place A (xs n)) (place_list hL) (place_images hI)
    simp only [this]
    exact tendsto_finsetSum _ (fun i hi => hlim.energy (netOk hf) (fun y y0 h => tendsto_read2 f h) (Finset.mem_range.mp hi))
  · have hpos : ∀ᶠ n in F, ∀ i ∈ Finset.range (centres L).length, ∀ e ∈ wideE L i, 0 < len (Vn n e) :=
      (Filter.eventually_all_finset _).mpr (fun i hi => (Filter.eventually_all_finset _).mpr (fun e he =>
        (hlen i (Finset.mem_range.mp hi) e he).eventually (lt_mem_nhds (hV i (Finset.mem_range.mp hi) e he))))
    filter_upwards [hpos] with n hn
    exact inside_of_pos hF (fun i hi e he => hn i (Finset.mem_range.mpr hi) e he)

end Verif.Lammps
