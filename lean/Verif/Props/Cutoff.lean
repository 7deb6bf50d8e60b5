import Verif.Props.LammpsForces
import Verif.Lemmas.Lammps.CutoffCont

/-! # Property theorems: energy, forces and virial when pairs cross the cutoff (C88) -/

namespace Verif.Props
open Verif.Lammps Verif.MACE Verif.Spec Filter

section props
variable (f : File) (sph : ℝ → ℝ → ℝ → ℕ → ℝ) (dsph : ℝ → ℝ → ℝ → ℕ → ℕ → ℝ)
variable {srt : List (List (List ℕ)) → List (List (List ℕ))}

/-- C88, energy: for files whose tables end with the value zero at the cutoff, the energy the pair style adds is a continuous
function of all positions, also where pairs enter or leave the cutoff. -/
theorem C88_continuous (hf : FileOk f) (hsrt : Poly.SortFn srt) (hsph : SphCont sph ((f.lmax + 1) * (f.lmax + 1))) :
    ∃ P s0, load srt sph dsph f = some (P, s0) ∧ ∀ rc mt L, FadesOut f rc → ∃ E : Atoms → ℝ,
      (∀ A, RunOk f rc mt L A → ∀ s, Hist f P s0 s → ∀ w fl t, fl.vAtom = false → fl.eGlobal → TallyOk A L t →
        ∃ r, computeSingle f.zbl P rc mt fl A L w s t = some r ∧ r.2.2.eng = t.eng + E A) ∧
      ∀ A, RunOk f rc mt L A → ScalesNonzero f sph (periodic A L rc mt) (bondVecs A L rc) →
        ∀ (ι : Type) (F : Filter ι) (xs : ι → List ℝ), (∀ n, (xs n).length = A.x.length) →
        (∀ p < A.x.length, Tendsto (fun n => nth (xs n) p) F (nhds (nth A.x p))) →
        (∀ᶠ n in F, RunOk f rc mt L { A with x := xs n }) ∧ Tendsto (fun n => E { A with x := xs n }) F (nhds (E A)) := by
  obtain ⟨P, s0, h1, h2, h3⟩ := load_spec hf hsrt sph dsph
  refine ⟨P, s0, h1, fun rc mt L hF => ⟨Etot f sph L rc mt, fun A hA s hs w fl t hv hg ht => ?_,
    fun A hA hsc ι F xs hl hx => ?_⟩⟩
  · obtain ⟨r, r1, r2, _⟩ := single_result hf h2 hA (hs.ok hf h2 h3) w hv ht
    exact ⟨r, r1, by rw [r2, if_pos hg]⟩
  · obtain ⟨t1, t2⟩ := Etot_tendsto hf hA.atoms hA.list hA.images hF hA.inside hsph hsc hx
    refine ⟨?_, t1⟩
    filter_upwards [t2] with n hn
    exact ⟨place_ok (hl n) hA.atoms, place_list hA.list, place_images hA.images, hn⟩

/-- C88, forces: if the last slopes are zero as well, the forces are minus the derivatives of the energy also at positions where
pairs are exactly at the cutoff. -/
theorem C88_forces (hf : FileOk f) (hsrt : Poly.SortFn srt) (hsph : IsSphGrad sph dsph ((f.lmax + 1) * (f.lmax + 1))) :
    ∃ P s0, load srt sph dsph f = some (P, s0) ∧ ∀ rc mt L, FadesOut f rc → FadesFlat f → ∃ E : Atoms → ℝ,
      (∀ A, RunOk f rc mt L A → ∀ s, Hist f P s0 s → ∀ w fl t, fl.vAtom = false → fl.eGlobal → TallyOk A L t →
        ∃ r, computeSingle f.zbl P rc mt fl A L w s t = some r ∧ r.2.2.eng = t.eng + E A) ∧
      ∀ A, RunOk f rc mt L A → ScalesNonzero f sph (periodic A L rc mt) (bondVecs A L rc) →
        ∀ s, Hist f P s0 s → ∀ w fl t, fl.vAtom = false → TallyOk A L t →
        ∃ r, computeSingle f.zbl P rc mt fl A L w s t = some r ∧
          (∀ b ∈ centres L, ∀ c < 3, (∀ᶠ τ in nhds 0, RunOk f rc mt L (moveAtom A b c τ)) ∧
            HasDerivAt (fun τ => E (moveAtom A b c τ)) (-(nth r.2.2.f (3 * b + c) - nth t.f (3 * b + c))) 0) ∧
          ∀ b < A.nlocal, b ∉ centres L → ∀ c < 3, nth r.2.2.f (3 * b + c) = nth t.f (3 * b + c) := by
  obtain ⟨P, s0, h1, h2, h3⟩ := load_spec hf hsrt sph dsph
  refine ⟨P, s0, h1, fun rc mt L hF hS => ⟨Etot f sph L rc mt, fun A hA s hs w fl t hv hg ht => ?_,
    fun A hA hsc s hs w fl t hv ht => ?_⟩⟩
  · obtain ⟨r, r1, r2, _⟩ := single_result hf h2 hA (hs.ok hf h2 h3) w hv ht
    exact ⟨r, r1, by rw [r2, if_pos hg]⟩
  · obtain ⟨r, r1, _, _, r4, _⟩ := single_result hf h2 hA (hs.ok hf h2 h3) w hv ht
    refine ⟨r, r1, fun b hb c hc => ?_, fun b hb hnb c hc => ?_⟩
    · obtain ⟨d1, d2⟩ := Etot_hasDerivAt_smooth hf hA.atoms hA.list hA.images hF hS hA.inside hsph (hs.ok hf h2 h3) hsc
        (fun j c' => if original A j = b ∧ c' = c then 1 else 0)
      refine ⟨?_, ?_⟩
      · filter_upwards [d2] with τ hτ
        exact ⟨displaced_ok hA.atoms, list_displaced hA.list, images_displaced hA.images, hτ⟩
      · refine d1.congr_deriv ?_
        rw [r4 b (hA.list.loc b hb) c hc, add_sub_cancel_left]
        congr 1
        refine Finset.sum_congr rfl (fun e he => ?_)
        have hm := ends_mem (Finset.mem_range.mp he)
        have hself : original A (endA A L rc (centres L) e) = endA A L rc (centres L) e := by
          rw [original, hA.images.self _ hm.1]; rfl
        rw [Finset.sum_eq_single c]
        · simp only [edgeDir, hself, and_true, eq_comm]
        · intro c' _ hne
          simp [edgeDir, hne]
        · intro h; exact absurd (Finset.mem_range.mpr hc) h
    · rw [r4 b hb c hc, Finset.sum_eq_zero, add_zero]
      intro e he
      have hm := ends_mem (Finset.mem_range.mp he)
      have e1 : b ≠ endA A L rc (centres L) e := fun h => hnb (h ▸ hm.1)
      have e2 : b ≠ original A (endB A L rc (centres L) e) := fun h =>
        hnb (h ▸ original_mem hA.images hm.1 (mem_nbrs_listed hm.2))
      rw [if_neg e1, if_neg e2]
      ring

/-- C88, virial: likewise under every symmetric strain. -/
theorem C88_virial (hf : FileOk f) (hsrt : Poly.SortFn srt) (hsph : IsSphGrad sph dsph ((f.lmax + 1) * (f.lmax + 1))) :
    ∃ P s0, load srt sph dsph f = some (P, s0) ∧ ∀ rc mt L, FadesOut f rc → FadesFlat f → ∃ E : Atoms → ℝ,
      (∀ A, RunOk f rc mt L A → ∀ s, Hist f P s0 s → ∀ w fl t, fl.vAtom = false → fl.eGlobal → TallyOk A L t →
        ∃ r, computeSingle f.zbl P rc mt fl A L w s t = some r ∧ r.2.2.eng = t.eng + E A) ∧
      ∀ A, RunOk f rc mt L A → ScalesNonzero f sph (periodic A L rc mt) (bondVecs A L rc) →
        ∀ s, Hist f P s0 s → ∀ w fl t, fl.vAtom = false → fl.vGlobal → TallyOk A L t →
        ∃ r, ∃ v : ℕ → ℝ, computeSingle f.zbl P rc mt fl A L w s t = some r ∧
          (∀ k < 6, nth r.2.2.virial k = nth t.virial k + v k) ∧
          ∀ ε : ℕ → ℕ → ℝ, (∀ a b, ε a b = ε b a) → (∀ᶠ τ in nhds 0, RunOk f rc mt L (strain A ε τ)) ∧
            HasDerivAt (fun τ => E (strain A ε τ))
              (-(ε 0 0 * v 0 + ε 1 1 * v 1 + ε 2 2 * v 2 + 2 * ε 0 1 * v 3 + 2 * ε 0 2 * v 4 + 2 * ε 1 2 * v 5)) 0 := by
  obtain ⟨P, s0, h1, h2, h3⟩ := load_spec hf hsrt sph dsph
  refine ⟨P, s0, h1, fun rc mt L hF hS => ⟨Etot f sph L rc mt, fun A hA s hs w fl t hv hg ht => ?_,
    fun A hA hsc s hs w fl t hv hg ht => ?_⟩⟩
  · obtain ⟨r, r1, r2, _⟩ := single_result hf h2 hA (hs.ok hf h2 h3) w hv ht
    exact ⟨r, r1, by rw [r2, if_pos hg]⟩
  · obtain ⟨r, r1, _, _, _, r5⟩ := single_result hf h2 hA (hs.ok hf h2 h3) w hv ht
    refine ⟨r, _, r1, fun k hk => r5 hg k hk, fun ε hε => ?_⟩
    obtain ⟨d1, d2⟩ := Etot_hasDerivAt_smooth hf hA.atoms hA.list hA.images hF hS hA.inside hsph (hs.ok hf h2 h3) hsc
      (fun j c => ∑ d ∈ Finset.range 3, ε c d * pos A j d)
    refine ⟨?_, ?_⟩
    · filter_upwards [d2] with τ hτ
      exact ⟨displaced_ok hA.atoms, list_displaced hA.list, images_displaced hA.images, hτ⟩
    · refine d1.congr_deriv ?_
      simp only [Finset.mul_sum, ← Finset.sum_add_distrib]
      congr 1
      refine Finset.sum_congr rfl (fun e he => ?_)
      have hX : ∀ c, bondVecs A L rc e c = pos A (endB A L rc (centres L) e) c - pos A (endA A L rc (centres L) e) c := fun _ => rfl
      simp only [Finset.sum_range_succ, Finset.sum_range_zero, edgeDir, voigt, List.getD, List.getElem?_cons_zero,
        List.getElem?_cons_succ, Option.getD_some, hX, hε 1 0, hε 2 0, hε 2 1]
      ring

end props

/-! ## A file fading out at distance 2 and a pair at exactly this distance -/

noncomputable def exFade : File := { exFile with
  vals0 := List.replicate 3 (List.replicate 4 [1, 2, 0])
  ders0 := List.replicate 3 (List.replicate 4 [1, -1, 0])
  vals1 := List.replicate 3 (List.replicate 6 [1, 2, 0])
  ders1 := List.replicate 3 (List.replicate 6 [1, -1, 0])
  A0vals := List.replicate 3 [1, 1, 0]
  A0ders := List.replicate 3 [0, 0, 0] }

theorem exFade_ok : FileOk exFade := { exFile_ok with
  vals0 := rfl
  ders0 := rfl
  rows0 := by
    intro i hi
    have : i < 3 := hi
    interval_cases i <;> refine ⟨rfl, rfl, ?_, ?_⟩ <;> intro w hw <;> rw [List.eq_of_mem_replicate hw] <;> rfl
  nodes0 := by show 0 < 3; omega
  vals1 := rfl
  ders1 := rfl
  rows1 := by
    intro i hi
    have : i < 3 := hi
    interval_cases i <;> refine ⟨rfl, rfl, ?_, ?_⟩ <;> intro w hw <;> rw [List.eq_of_mem_replicate hw] <;> rfl
  nodes1 := by show 0 < 3; omega
  A0s := by
    intro _
    refine ⟨by norm_num [exFade, exFile], rfl, rfl, fun i hi => ?_⟩
    have : i < 3 := hi
    interval_cases i <;> exact ⟨by show 0 < 3; omega, le_refl 3⟩ }

theorem exFade_out : FadesOut exFade 2 where
  pos := by norm_num
  end0 := by
    have : exFade.nodes0 = 3 := rfl
    rw [this]; norm_num [exFade, exFile]
  end1 := by
    have : exFade.nodes1 = 3 := rfl
    rw [this]; norm_num [exFade, exFile]
  zero0 := by
    intro t ht w hw
    rw [List.eq_of_mem_replicate ht] at hw
    rw [List.eq_of_mem_replicate hw]; rfl
  zero1 := by
    intro t ht w hw
    rw [List.eq_of_mem_replicate ht] at hw
    rw [List.eq_of_mem_replicate hw]; rfl
  dens0 := by
    intro _ w hw
    rw [List.eq_of_mem_replicate hw]
    exact ⟨by norm_num [exFade, exFile], rfl⟩
  dens1 := by intro h; exact absurd h (by decide)
  zbl := by
    intro z hz Z hZ Z' hZ'
    cases hz
    have h : Z = 1 ∨ Z = 6 := by simpa [exFade, exFile] using hZ
    have h' : Z' = 1 ∨ Z' = 6 := by simpa [exFade, exFile] using hZ'
    rcases h with rfl | rfl <;> rcases h' with rfl | rfl <;> norm_num [nth]

theorem exFade_flat : FadesFlat exFade where
  slope0 := by
    intro t ht w hw
    rw [List.eq_of_mem_replicate ht] at hw
    rw [List.eq_of_mem_replicate hw]; rfl
  slope1 := by
    intro t ht w hw
    rw [List.eq_of_mem_replicate ht] at hw
    rw [List.eq_of_mem_replicate hw]; rfl
  dens0 := by
    intro _ p hp
    have : p < 3 := hp
    interval_cases p <;> rfl
  dens1 := by intro h; exact absurd h (by decide)

/-- The image of atom 0 at distance exactly 2. -/
def exEdge : Atoms := { exAtoms with x := [0, 0, 0, 1, 0, 0, 0, 2, 0] }

theorem exSph_cont (M : ℕ) : SphCont exSph M := by
  intro lm _ x y z _
  unfold exSph
  split_ifs <;> fun_prop

theorem exEdge_ok : RunOk exFade 2 [0, 1] exList exEdge ∧ ¬ OffCutoff exEdge exList 2 ∧
    ScalesNonzero exFade exSph (periodic exEdge exList 2 [0, 1]) (bondVecs exEdge exList 2) := by
  have h0 : nbrs exEdge exList 2 0 = [1] := by
    simp [nbrs, exListed.1, disp, pos, exEdge, nth, Finset.sum_range_succ]
  have h1 : nbrs exEdge exList 2 1 = [0] := by
    simp [nbrs, exListed.2, disp, pos, exEdge, nth, Finset.sum_range_succ]
  have hb : bonds exEdge exList 2 (centres exList) = [(1, 0), (0, 1)] := by
    have : centres exList = [1, 0] := rfl
    simp [bonds, this, h0, h1]
  have hE : (periodic exEdge exList 2 [0, 1]).E = 2 := by unfold periodic; rw [sysOf_E, hb]; rfl
  have hlen : ∀ e < 2, len (bondVecs exEdge exList 2 e) = 1 := by
    intro e he
    unfold len bondVecs vecs
    rw [hb]
    interval_cases e <;> simp [Finset.sum_range_succ, disp, pos, exEdge, nth]
  refine ⟨⟨?_, ?_, ?_, fun e he => ?_⟩, fun h => ?_, fun i hi => ?_⟩
  · exact place_ok (A := exAtoms) rfl exAtoms_ok
  · exact place_list exList_ok
  · exact place_images exImages_ok
  · rw [hE] at he
    unfold InTable
    rw [hlen e he]
    have e0 : exFade.nodes0 = 3 := rfl
    have e1 : exFade.nodes1 = 3 := rfl
    refine ⟨by norm_num, by rw [e0]; norm_num [exFade, exFile], by rw [e1]; norm_num [exFade, exFile], fun _ w hw => ?_,
      fun h => absurd h (by decide)⟩
    rw [List.eq_of_mem_replicate hw]
    norm_num [exFade, exFile]
  · refine h 0 (by decide) 2 (by decide) ?_
    simp [Finset.sum_range_succ, disp, pos, exEdge, nth]
  · refine ⟨?_, by simp [confOf, exFade, exFile]⟩
    have hpos : ∀ p : ℕ, 0 ≤ hermite exFade.A0h (nth (row exFade.A0vals p)) (nth (row exFade.A0ders p)) 1 := by
      intro p
      have hh : exFade.A0h = 1 := rfl
      match p with
      | 0 | 1 | 2 =>
        have hv : exFade.A0vals = List.replicate 3 [1, 1, 0] := rfl
        have hd : exFade.A0ders = List.replicate 3 [0, 0, 0] := rfl
        rw [hv, hd, hh]
        norm_num [hermite, hermite01, nth, row]
      | p + 3 =>
        have hv : row exFade.A0vals (p + 3) = [] := rfl
        have hd : row exFade.A0ders (p + 3) = [] := rfl
        rw [hv, hd]
        simp [hermite, hermite01, nth]
    simp only [confOf]
    rw [if_pos (by rfl)]
    apply ne_of_gt
    have : 0 ≤ ∑ e ∈ (periodic exEdge exList 2 [0, 1]).edg i, hermite exFade.A0h
        (nth (row exFade.A0vals (edgePair exFade (periodic exEdge exList 2 [0, 1]) e)))
        (nth (row exFade.A0ders (edgePair exFade (periodic exEdge exList 2 [0, 1]) e)))
        (len (bondVecs exEdge exList 2 e)) := by
      refine Finset.sum_nonneg (fun e he => ?_)
      rw [hlen e (by rw [← hE]; exact edg_lt hi he)]
      exact hpos _
    linarith

/-- The hypotheses of C88 hold for this file and a system with a pair exactly at the cutoff. -/
example : FileOk exFade ∧ FadesOut exFade 2 ∧ FadesFlat exFade ∧ RunOk exFade 2 [0, 1] exList exEdge ∧ ¬ OffCutoff exEdge exList 2 ∧
    ScalesNonzero exFade exSph (periodic exEdge exList 2 [0, 1]) (bondVecs exEdge exList 2) ∧
    IsSphGrad exSph exDsph ((exFade.lmax + 1) * (exFade.lmax + 1)) ∧ SphCont exSph ((exFade.lmax + 1) * (exFade.lmax + 1)) :=
  ⟨exFade_ok, exFade_out, exFade_flat, exEdge_ok.1, exEdge_ok.2.1, exEdge_ok.2.2, exSph_ok, exSph_cont _⟩

end Verif.Props
