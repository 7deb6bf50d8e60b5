import Verif.Props.Cutoff
import Verif.Lemmas.Lammps.Motion
import Mathlib.Analysis.Calculus.MeanValue

/-! # Property theorems: work of the forces along motions, conservation laws of Newton's equations (C107) -/

namespace Verif.Props
open Verif.Lammps Verif.MACE Verif.Spec Filter

/-- Atoms move on differentiable curves with velocities `v`; every image moves with its original. -/
def Moves (A : Atoms) (xs : ℝ → List ℝ) (v : ℕ → ℕ → ℝ) (t : ℝ) : Prop :=
  ∀ j < A.nlocal + A.nghost, ∀ o, A.map (nthN A.tag j) = some o → ∀ c < 3, HasDerivAt (fun τ => nth (xs τ) (3 * j + c)) (v o c) t

/-- A solution of Newton's equations for the forces of the pair style between the times `a` and `b`: masses `m`, positions `xs`,
velocities `v`.  At every time the forces are those of some call, made in any reachable state with any buffers and accumulators. -/
structure Newton (f : File) (sph : ℝ → ℝ → ℝ → ℕ → ℝ) (P : Params ℝ) (s0 : State ℝ) (rc : ℝ) (mt : List ℕ) (L : NList) (A : Atoms)
    (m : ℕ → ℝ) (xs : ℝ → List ℝ) (v : ℝ → ℕ → ℕ → ℝ) (a b : ℝ) : Prop where
  run : ∀ t ∈ Set.Ioo a b, RunOk f rc mt L { A with x := xs t }
  scales : ∀ t ∈ Set.Ioo a b, ScalesNonzero f sph (periodic { A with x := xs t } L rc mt) (bondVecs { A with x := xs t } L rc)
  vel : ∀ t ∈ Set.Ioo a b, Moves A xs (v t) t
  acc : ∀ t ∈ Set.Ioo a b, ∃ s w fl y r, Hist f P s0 s ∧ fl.vAtom = false ∧ TallyOk A L y ∧
    computeSingle f.zbl P rc mt fl { A with x := xs t } L w s y = some r ∧
    ∀ j < A.nlocal, ∀ c < 3, ∃ q, HasDerivAt (fun τ => v τ j c) q t ∧ m j * q = nth r.2.2.f (3 * j + c) - nth y.f (3 * j + c)

/-- Kinetic energy. -/
noncomputable def kinetic (n : ℕ) (m : ℕ → ℝ) (v : ℕ → ℕ → ℝ) : ℝ := ∑ j ∈ Finset.range n, m j / 2 * ∑ c ∈ Finset.range 3, v j c ^ 2

/-- Momentum in direction `c`. -/
noncomputable def momentum (n : ℕ) (m : ℕ → ℝ) (v : ℕ → ℕ → ℝ) (c : ℕ) : ℝ := ∑ j ∈ Finset.range n, m j * v j c

theorem const_on {g : ℝ → ℝ} {a b : ℝ} (h : ∀ t ∈ Set.Ioo a b, HasDerivAt g 0 t) {t1 t2 : ℝ} (h1 : t1 ∈ Set.Ioo a b) (h2 : t2 ∈ Set.Ioo a b) :
    g t1 = g t2 :=
  isOpen_Ioo.is_const_of_deriv_eq_zero isPreconnected_Ioo (fun t ht => (h t ht).differentiableAt.differentiableWithinAt)
    (fun t ht => (h t ht).deriv) h1 h2

section props
variable (f : File) (sph : ℝ → ℝ → ℝ → ℕ → ℝ) (dsph : ℝ → ℝ → ℝ → ℕ → ℕ → ℝ)
variable {srt : List (List (List ℕ)) → List (List (List ℕ))}

/-- C107, evaluator: along every differentiable motion of the bond vectors the summed node energies change at the rate minus the sum
of force times velocity. -/
theorem C107_evaluator (hf : FileOk f) (hsrt : Poly.SortFn srt) (hsph : IsSphDiff sph dsph ((f.lmax + 1) * (f.lmax + 1)))
    (T : Sys) (hT : SysOk f T) :
    ∃ P s0, load srt sph dsph f = some (P, s0) ∧ ∃ E : (ℕ → ℕ → ℝ) → ℝ,
      (∀ X, Inside f T X → ∀ s, Hist f P s0 s →
        (computeNodeEnergiesForces f.zbl P (T.graph X) s).map (fun s' => s'.nodeEnergies.sum) = some (E X)) ∧
      ∀ (X : ℝ → ℕ → ℕ → ℝ) (D : ℕ → ℕ → ℝ) (t : ℝ), Inside f T (X t) → ScalesNonzero f sph T (X t) →
        (∀ e < T.E, ∀ a < 3, HasDerivAt (fun τ => X τ e a) (D e a) t) → ∀ s, Hist f P s0 s →
        ∃ s', computeNodeEnergiesForces f.zbl P (T.graph (X t)) s = some s' ∧ s'.nodeForces.length = 3 * T.E ∧
          HasDerivAt (fun τ => E (X τ)) (- ∑ e ∈ Finset.range T.E, ∑ a ∈ Finset.range 3, nth s'.nodeForces (3 * e + a) * D e a) t := by
  obtain ⟨P, s0, h1, h2, h3⟩ := load_spec hf hsrt sph dsph
  refine ⟨P, s0, h1, fun X => ∑ i ∈ Finset.range T.N, energy (netOf f) (confOf f sph T X) i, fun X hX s hs => ?_,
    fun X D t hX hsc hd s hs => ?_⟩
  · obtain ⟨s', e1, e2, _⟩ := compute_spec hf hT h2 hX (hs.ok hf h2 h3)
    rw [e1, Option.map_some, e2, sum_tab]
  · obtain ⟨s', e1, e2, e3, _⟩ := compute_spec hf hT h2 hX (hs.ok hf h2 h3)
    refine ⟨s', e1, by rw [e3]; simp [tab2, tab, mul_comm], ?_⟩
    refine (total_motion hf hT hX hsph (hs.ok hf h2 h3) (fun i hi => (hsc i hi).1) (fun i hi => (hsc i hi).2) hd).congr_deriv ?_
    congr 1
    refine Finset.sum_congr rfl (fun e he => Finset.sum_congr rfl (fun a ha => ?_))
    rw [e3, mul_comm 3 e, nth_tab2 (Finset.mem_range.mp he) (Finset.mem_range.mp ha)]

variable {f sph dsph} in
/-- Sum over the atoms of the forces against any numbers. -/
theorem work_eq {A : Atoms} {L : NList} {rc : ℝ} (hL : ListOk A L) (hI : ImagesOk A L) {G F0 F1 : ℕ → ℕ → ℝ} (v : ℕ → ℕ → ℝ)
    (h : ∀ a < A.nlocal, ∀ c < 3, F1 a c = F0 a c + ∑ e ∈ Finset.range (bonds A L rc (centres L)).length, G e c
            * ((if a = original A (endB A L rc (centres L) e) then 1 else 0) - if a = endA A L rc (centres L) e then 1 else 0)) :
    ∑ b ∈ Finset.range A.nlocal, ∑ c ∈ Finset.range 3, (F1 b c - F0 b c) * v b c =
      ∑ e ∈ Finset.range (bonds A L rc (centres L)).length, ∑ c ∈ Finset.range 3,
        G e c * edgeDir A L rc (centres L) (fun j => v (original A j)) e c := by
  have e1 : ∀ b ∈ Finset.range A.nlocal, ∑ c ∈ Finset.range 3, (F1 b c - F0 b c) * v b c =
      ∑ e ∈ Finset.range (bonds A L rc (centres L)).length, ∑ c ∈ Finset.range 3, G e c *
        ((if b = original A (endB A L rc (centres L) e) then v b c else 0) - if b = endA A L rc (centres L) e then v b c else 0) := by
    intro b hb
    rw [Finset.sum_comm]
    refine Finset.sum_congr rfl (fun c hc => ?_)
    rw [h b (Finset.mem_range.mp hb) c (Finset.mem_range.mp hc), add_sub_cancel_left, Finset.sum_mul]
    refine Finset.sum_congr rfl (fun e _ => ?_)
    split_ifs <;> ring
  rw [Finset.sum_congr rfl e1, Finset.sum_comm]
  refine Finset.sum_congr rfl (fun e he => ?_)
  rw [Finset.sum_comm]
  refine Finset.sum_congr rfl (fun c _ => ?_)
  have hm := ends_mem (Finset.mem_range.mp he)
  have hself : original A (endA A L rc (centres L) e) = endA A L rc (centres L) e := by
    rw [original, hI.self _ hm.1]; rfl
  have ho := original_mem hI hm.1 (mem_nbrs_listed hm.2)
  rw [← Finset.mul_sum, Finset.sum_sub_distrib, Finset.sum_ite_eq', Finset.sum_ite_eq', if_pos (Finset.mem_range.mpr (hL.loc _ ho)),
    if_pos (Finset.mem_range.mpr (hL.loc _ hm.1)), edgeDir, hself]

/-- C107, pair style: along every differentiable motion of the atoms, images moving with their originals, the energy changes at the rate
minus the sum of force times velocity, also at the moments when pairs enter or leave the cutoff. -/
theorem C107_power (hf : FileOk f) (hsrt : Poly.SortFn srt) (hsph : IsSphDiff sph dsph ((f.lmax + 1) * (f.lmax + 1))) :
    ∃ P s0, load srt sph dsph f = some (P, s0) ∧ ∀ rc mt L, FadesOut f rc → FadesFlat f → ∃ E : Atoms → ℝ,
      (∀ A, RunOk f rc mt L A → ∀ s, Hist f P s0 s → ∀ w fl t, fl.vAtom = false → fl.eGlobal → TallyOk A L t →
        ∃ r, computeSingle f.zbl P rc mt fl A L w s t = some r ∧ r.2.2.eng = t.eng + E A) ∧
      ∀ A (xs : ℝ → List ℝ) (v : ℕ → ℕ → ℝ) (t : ℝ), RunOk f rc mt L { A with x := xs t } →
        ScalesNonzero f sph (periodic { A with x := xs t } L rc mt) (bondVecs { A with x := xs t } L rc) → Moves A xs v t →
        ∀ s, Hist f P s0 s → ∀ w fl y, fl.vAtom = false → TallyOk A L y →
        ∃ r, computeSingle f.zbl P rc mt fl { A with x := xs t } L w s y = some r ∧
          HasDerivAt (fun τ => E { A with x := xs τ })
            (- ∑ b ∈ Finset.range A.nlocal, ∑ c ∈ Finset.range 3, (nth r.2.2.f (3 * b + c) - nth y.f (3 * b + c)) * v b c) t := by
  obtain ⟨P, s0, h1, h2, h3⟩ := load_spec hf hsrt sph dsph
  refine ⟨P, s0, h1, fun rc mt L hF hS => ⟨Etot f sph L rc mt, fun A hA s hs w fl t hv hg ht => ?_,
    fun A xs v t hA hsc hm s hs w fl y hv hy => ?_⟩⟩
  · obtain ⟨r, r1, r2, _⟩ := single_result hf h2 hA (hs.ok hf h2 h3) w hv ht
    exact ⟨r, r1, by rw [r2, if_pos hg]⟩
  · obtain ⟨r, r1, _, _, r4, _⟩ := single_result hf h2 hA (hs.ok hf h2 h3) w hv (t := y) ⟨hy.f, hy.virial, hy.eatom⟩
    refine ⟨r, r1, ?_⟩
    have d := Etot_motion (A := { A with x := xs t }) (xs := xs) (t := t) (u := fun j => v (original A j)) hf hA.atoms hA.list hA.images hF hS
      hA.inside hsph (hs.ok hf h2 h3) hsc rfl (fun i hi c hc => by
        refine ⟨hm i (hA.list.entry i hi).lt _ ?_ c hc, fun j hj => hm j ((hA.list.entry i hi).nb j hj) _ ?_ c hc⟩
        · have := hA.images.self i hi
          change A.map _ = some _ at this
          rw [original, this]; rfl
        · obtain ⟨o, ho, _⟩ := hA.images.orig i hi j hj
          change A.map _ = some _ at ho
          rw [original, ho]; rfl)
    refine d.congr_deriv ?_
    congr 1
    exact (work_eq (A := { A with x := xs t }) (F0 := fun b c => nth y.f (3 * b + c)) (F1 := fun b c => nth r.2.2.f (3 * b + c))
      hA.list hA.images v r4).symm

/-- C107, energy: along every solution of Newton's equations for the forces of the pair style, the sum of kinetic energy and of the energy
of the pair style is constant. -/
theorem C107_energy (hf : FileOk f) (hsrt : Poly.SortFn srt) (hsph : IsSphDiff sph dsph ((f.lmax + 1) * (f.lmax + 1))) :
    ∃ P s0, load srt sph dsph f = some (P, s0) ∧ ∀ rc mt L, FadesOut f rc → FadesFlat f → ∃ E : Atoms → ℝ,
      (∀ A, RunOk f rc mt L A → ∀ s, Hist f P s0 s → ∀ w fl t, fl.vAtom = false → fl.eGlobal → TallyOk A L t →
        ∃ r, computeSingle f.zbl P rc mt fl A L w s t = some r ∧ r.2.2.eng = t.eng + E A) ∧
      ∀ A m xs v a b, Newton f sph P s0 rc mt L A m xs v a b → ∀ t1 ∈ Set.Ioo a b, ∀ t2 ∈ Set.Ioo a b,
        kinetic A.nlocal m (v t1) + E { A with x := xs t1 } = kinetic A.nlocal m (v t2) + E { A with x := xs t2 } := by
  obtain ⟨P, s0, h1, h2⟩ := C107_power f sph dsph hf hsrt hsph
  refine ⟨P, s0, h1, fun rc mt L hF hS => ?_⟩
  obtain ⟨E, e1, e2⟩ := h2 rc mt L hF hS
  refine ⟨E, e1, fun A m xs v a b hN t1 ht1 t2 ht2 => ?_⟩
  refine const_on (g := fun t => kinetic A.nlocal m (v t) + E { A with x := xs t }) (fun t ht => ?_) ht1 ht2
  obtain ⟨s, w, fl, y, r, hs, hfl, hy, hr, hq⟩ := hN.acc t ht
  obtain ⟨r', r1, r2⟩ := e2 A xs (v t) t (hN.run t ht) (hN.scales t ht) (hN.vel t ht) s hs w fl y hfl hy
  rw [hr] at r1
  cases r1
  have hk : HasDerivAt (fun τ => kinetic A.nlocal m (v τ))
      (∑ b ∈ Finset.range A.nlocal, ∑ c ∈ Finset.range 3, (nth r.2.2.f (3 * b + c) - nth y.f (3 * b + c)) * v t b c) t := by
    unfold kinetic
    refine HasDerivAt.fun_sum (fun j hj => ?_)
    have h3 : ∀ c < 3, HasDerivAt (fun τ => m j / 2 * v τ j c ^ 2) ((nth r.2.2.f (3 * j + c) - nth y.f (3 * j + c)) * v t j c) t := by
      intro c hc
      obtain ⟨q, q1, q2⟩ := hq j (Finset.mem_range.mp hj) c hc
      rw [← q2]
      refine ((q1.pow 2).const_mul (m j / 2)).congr_deriv ?_
      simp
      ring
    simp only [Finset.mul_sum]
    exact HasDerivAt.fun_sum (fun c hc => h3 c (Finset.mem_range.mp hc))
  refine (hk.add r2).congr_deriv (by ring)

/-- C107, momentum: along every such solution the total momentum is constant. -/
theorem C107_momentum (hf : FileOk f) (hsrt : Poly.SortFn srt) :
    ∃ P s0, load srt sph dsph f = some (P, s0) ∧ ∀ rc mt L A m xs v a b, Newton f sph P s0 rc mt L A m xs v a b →
      ∀ t1 ∈ Set.Ioo a b, ∀ t2 ∈ Set.Ioo a b, ∀ c < 3, momentum A.nlocal m (v t1) c = momentum A.nlocal m (v t2) c := by
  obtain ⟨P, s0, h1, h2, h3⟩ := load_spec hf hsrt sph dsph
  refine ⟨P, s0, h1, fun rc mt L A m xs v a b hN t1 ht1 t2 ht2 c hc => ?_⟩
  refine const_on (g := fun t => momentum A.nlocal m (v t) c) (fun t ht => ?_) ht1 ht2
  obtain ⟨s, w, fl, y, r, hs, hfl, hy, hr, hq⟩ := hN.acc t ht
  have hA := hN.run t ht
  obtain ⟨r', r1, _, _, r4, _⟩ := single_result hf h2 hA (hs.ok hf h2 h3) w hfl (t := y) ⟨hy.f, hy.virial, hy.eatom⟩
  rw [hr] at r1
  cases r1
  have hw := work_eq (A := { A with x := xs t }) (F0 := fun b c => nth y.f (3 * b + c)) (F1 := fun b c => nth r.2.2.f (3 * b + c))
    hA.list hA.images (fun _ c' => if c' = c then 1 else 0) r4
  have h0 : ∀ e c', edgeDir { A with x := xs t } L rc (centres L) (fun _ c' => if c' = c then 1 else 0) e c' = 0 := fun e c' => by
    simp [edgeDir]
  have h0' : ∀ e c', edgeDir { A with x := xs t } L rc (centres L)
      (fun j => (fun _ c' => if c' = c then 1 else 0) (original { A with x := xs t } j)) e c' = 0 := fun e c' => h0 e c'
  simp only [h0', mul_zero, Finset.sum_const_zero, mul_ite, mul_one] at hw
  have hd : HasDerivAt (fun τ => momentum A.nlocal m (v τ) c)
      (∑ j ∈ Finset.range A.nlocal, (nth r.2.2.f (3 * j + c) - nth y.f (3 * j + c))) t := by
    unfold momentum
    refine HasDerivAt.fun_sum (fun j hj => ?_)
    obtain ⟨q, q1, q2⟩ := hq j (Finset.mem_range.mp hj) c hc
    rw [← q2]
    exact q1.const_mul (m j)
  refine hd.congr_deriv ?_
  rw [← hw]
  refine Finset.sum_congr rfl (fun j _ => ?_)
  rw [Finset.sum_ite_eq', if_pos (Finset.mem_range.mpr hc)]

end props

/-! ## Examples -/

theorem exSph_diff : IsSphDiff exSph exDsph ((exFile.lmax + 1) * (exFile.lmax + 1)) := by
  intro x y z x' y' z' t hx hy hz _ lm hlm
  have : lm < 4 := hlm
  interval_cases lm
  · simpa [exSph, exDsph] using hasDerivAt_const t (1 : ℝ)
  · simpa [exSph, exDsph] using hx
  · simpa [exSph, exDsph] using hy
  · simpa [exSph, exDsph] using hz

/-- Curved motion through the configuration `exEdge` with a pair exactly at the cutoff. -/
noncomputable def exPath (τ : ℝ) : List ℝ := [τ, τ ^ 2, 0, 1, 0, τ ^ 2, τ, 2 + τ ^ 2, 0]

theorem exPath_zero : { exEdge with x := exPath 0 } = exEdge := by
  simp [exPath, exEdge]

theorem exPath_moves : Moves exEdge exPath (fun j c => if j = 0 ∧ c = 0 then 1 else 0) 0 := by
  have h2 : HasDerivAt (fun τ : ℝ => τ ^ 2) 0 0 := by simpa using hasDerivAt_pow 2 (0 : ℝ)
  have h3 : HasDerivAt (fun τ : ℝ => 2 + τ ^ 2) 0 0 := h2.const_add 2
  have h1 : HasDerivAt (fun τ : ℝ => τ) 1 0 := hasDerivAt_id 0
  intro j hj o ho c hc
  have hj : j < 3 := hj
  interval_cases j
  · cases ho
    interval_cases c
    · simpa [exPath, nth] using h1
    · simpa [exPath, nth] using h2
    · simpa [exPath, nth] using hasDerivAt_const (0 : ℝ) (0 : ℝ)
  · cases ho
    interval_cases c
    · simpa [exPath, nth] using hasDerivAt_const (0 : ℝ) (1 : ℝ)
    · simpa [exPath, nth] using hasDerivAt_const (0 : ℝ) (0 : ℝ)
    · simpa [exPath, nth] using h2
  · cases ho
    interval_cases c
    · simpa [exPath, nth] using h1
    · simpa [exPath, nth] using h3
    · simpa [exPath, nth] using hasDerivAt_const (0 : ℝ) (0 : ℝ)

/-- The hypotheses of `C107_power` hold for this motion. -/
example : FileOk exFade ∧ FadesOut exFade 2 ∧ FadesFlat exFade ∧ RunOk exFade 2 [0, 1] exList { exEdge with x := exPath 0 } ∧
    ScalesNonzero exFade exSph (periodic { exEdge with x := exPath 0 } exList 2 [0, 1]) (bondVecs { exEdge with x := exPath 0 } exList 2) ∧
    IsSphDiff exSph exDsph ((exFade.lmax + 1) * (exFade.lmax + 1)) ∧
    Moves exEdge exPath (fun j c => if j = 0 ∧ c = 0 then 1 else 0) 0 := by
  rw [exPath_zero]
  exact ⟨exFade_ok, exFade_out, exFade_flat, exEdge_ok.1, exEdge_ok.2.2, exSph_diff, exPath_moves⟩

/-- A crystal with one atom per cell, two images of it listed; it moves with constant velocity. -/
def exOne : Atoms where
  nlocal := 1
  nghost := 2
  x := [0, 0, 0, 1, 0, 0, -1, 0, 0]
  type := [1, 1, 1]
  tag := [5, 5, 5]
  map := fun t => if t = 5 then some 0 else none

def exOneList : NList := ⟨1, [0], [2], [[1, 2]]⟩

def exDrift (t : ℝ) : List ℝ := [3 * t, 0, 0, 1 + 3 * t, 0, 0, -1 + 3 * t, 0, 0]

theorem exOne_ok : AtomsOk exOne [0, 1] 2 ∧ ListOk exOne exOneList ∧ ImagesOk exOne exOneList := by
  have hc : ∀ i ∈ centres exOneList, i = 0 := by intro i hi; simpa [centres, exOneList] using hi
  have hl : listed exOneList 0 = [1, 2] := by decide
  refine ⟨⟨by decide, by decide, by decide, by decide⟩, ⟨by decide, by decide, by decide, fun i hi => ?_⟩, ⟨by decide, fun i hi j hj => ?_,
    fun i hi => ?_⟩⟩
  · rw [hc i hi]; exact ⟨by decide, by decide, by decide, by decide, by decide⟩
  · rw [hc i hi, hl] at hj
    have : j = 1 ∨ j = 2 := by simpa using hj
    rcases this with rfl | rfl <;> exact ⟨0, rfl, by decide⟩
  · rw [hc i hi]; rfl

theorem exOne_run (t : ℝ) : RunOk exFade 2 [0, 1] exOneList { exOne with x := exDrift t } ∧
    (bonds { exOne with x := exDrift t } exOneList 2 (centres exOneList)) = [(0, 1), (0, 2)] ∧
    ScalesNonzero exFade exSph (periodic { exOne with x := exDrift t } exOneList 2 [0, 1]) (bondVecs { exOne with x := exDrift t } exOneList 2) := by
  have hl : listed exOneList 0 = [1, 2] := by decide
  have h0 : nbrs { exOne with x := exDrift t } exOneList 2 0 = [1, 2] := by
    simp [nbrs, hl, disp, pos, exDrift, nth, Finset.sum_range_succ]
  have hb : bonds { exOne with x := exDrift t } exOneList 2 (centres exOneList) = [(0, 1), (0, 2)] := by
    have : centres exOneList = [0] := rfl
    simp [bonds, this, h0]
  have hE : (periodic { exOne with x := exDrift t } exOneList 2 [0, 1]).E = 2 := by unfold periodic; rw [sysOf_E, hb]; rfl
  have hlen : ∀ e < 2, len (bondVecs { exOne with x := exDrift t } exOneList 2 e) = 1 := by
    intro e he
    unfold len bondVecs vecs
    rw [hb]
    interval_cases e <;> simp [Finset.sum_range_succ, disp, pos, exDrift, nth]
  refine ⟨⟨place_ok (x := exDrift t) rfl exOne_ok.1, place_list (x := exDrift t) exOne_ok.2.1, place_images (x := exDrift t) exOne_ok.2.2,
    fun e he => ?_⟩, hb, fun i hi => ?_⟩
  · rw [hE] at he
    unfold InTable
    rw [hlen e he]
    have e0 : exFade.nodes0 = 3 := rfl
    have e1 : exFade.nodes1 = 3 := rfl
    refine ⟨by norm_num, by rw [e0]; norm_num [exFade, exFile], by rw [e1]; norm_num [exFade, exFile], fun _ w hw => ?_,
      fun h => absurd h (by decide)⟩
    rw [List.eq_of_mem_replicate hw]
    norm_num [exFade, exFile]
  · refine ⟨?_, by simp [confOf, exFade, exFile]⟩
    have hpos : ∀ p : ℕ, 0 ≤ hermite exFade.A0h (nth (row exFade.A0vals p)) (nth (row exFade.A0ders p)) 1 := by
      intro p
      have hh : exFade.A0h = 1 := rfl
      match p with
      | 0 | 1 | 2 =>
        have hv : exFade.A0vals = List.replicate 3 [1, 1, 0] := rfl
        have hd : exFade.A0ders = List.replicate 3 [0, 0, 0] := rfl
        rw [hv, hd, hh]
        norm_num [hermite, hermite01, nth, row]
      | p + 3 =>
        have hv : row exFade.A0vals (p + 3) = [] := rfl
        have hd : row exFade.A0ders (p + 3) = [] := rfl
        rw [hv, hd]
        simp [hermite, hermite01, nth]
    simp only [confOf]
    rw [if_pos (by rfl)]
    apply ne_of_gt
    have : 0 ≤ ∑ e ∈ (periodic { exOne with x := exDrift t } exOneList 2 [0, 1]).edg i, hermite exFade.A0h
        (nth (row exFade.A0vals (edgePair exFade (periodic { exOne with x := exDrift t } exOneList 2 [0, 1]) e)))
        (nth (row exFade.A0ders (edgePair exFade (periodic { exOne with x := exDrift t } exOneList 2 [0, 1]) e)))
        (len (bondVecs { exOne with x := exDrift t } exOneList 2 e)) := by
      refine Finset.sum_nonneg (fun e he => ?_)
      rw [hlen e (by rw [← hE]; exact edg_lt hi he)]
      exact hpos _
    linarith

/-- A solution of Newton's equations with interacting atoms: the forces of the images on the atom cancel. -/
example {srt : List (List (List ℕ)) → List (List (List ℕ))} (hsrt : Poly.SortFn srt) : ∃ P s0, load srt exSph exDsph exFade = some (P, s0) ∧
    Newton exFade exSph P s0 2 [0, 1] exOneList exOne (fun _ => 12) exDrift (fun _ _ c => if c = 0 then 3 else 0) (-1) 1 := by
  obtain ⟨P, s0, h1, h2, h3⟩ := load_spec exFade_ok hsrt exSph exDsph
  refine ⟨P, s0, h1, fun t _ => (exOne_run t).1, fun t _ => (exOne_run t).2.2, fun t _ j hj o ho c hc => ?_, fun t _ => ?_⟩
  · have hl : ∀ a : ℝ, HasDerivAt (fun τ : ℝ => a + 3 * τ) 3 t := fun a => by
      simpa using ((hasDerivAt_id t).const_mul 3).const_add a
    have hl0 : HasDerivAt (fun τ : ℝ => 3 * τ) 3 t := by simpa using (hasDerivAt_id t).const_mul 3
    have hj : j < 3 := hj
    interval_cases j <;> interval_cases c
    · simpa [exDrift, nth] using hl0
    · simpa [exDrift, nth] using hasDerivAt_const t (0 : ℝ)
    · simpa [exDrift, nth] using hasDerivAt_const t (0 : ℝ)
    · simpa [exDrift, nth] using hl 1
    · simpa [exDrift, nth] using hasDerivAt_const t (0 : ℝ)
    · simpa [exDrift, nth] using hasDerivAt_const t (0 : ℝ)
    · simpa [exDrift, nth] using hl (-1)
    · simpa [exDrift, nth] using hasDerivAt_const t (0 : ℝ)
    · simpa [exDrift, nth] using hasDerivAt_const t (0 : ℝ)
  · have hy : TallyOk exOne exOneList ⟨0, [0], [0, 0, 0], [0, 0, 0, 0, 0, 0]⟩ := ⟨⟨1, by decide, by simp⟩, by simp, by simp [exOneList]⟩
    obtain ⟨r, r1, _, _, r4, _⟩ := single_result exFade_ok h2 (exOne_run t).1 (Hist.ok exFade_ok h2 h3 Hist.init) (⟨[], [], [], [], [], [], [], []⟩ : Work)
      (fl := ⟨true, true, true, false⟩) rfl (t := ⟨0, [0], [0, 0, 0], [0, 0, 0, 0, 0, 0]⟩) ⟨hy.f, hy.virial, hy.eatom⟩
    refine ⟨s0, ⟨[], [], [], [], [], [], [], []⟩, ⟨true, true, true, false⟩, _, r, Hist.init, rfl, hy, r1, fun j hj c hc => ⟨0, hasDerivAt_const _ _, ?_⟩⟩
    have hj : j < 1 := hj
    rw [r4 j hj c hc, add_sub_cancel_left, mul_zero]
    refine (Finset.sum_eq_zero (fun e he => ?_)).symm
    rw [(exOne_run t).2.1] at he
    have he : e < 2 := Finset.mem_range.mp he
    have hA : endA { exOne with x := exDrift t } exOneList 2 (centres exOneList) e = 0 := by
      unfold endA; rw [(exOne_run t).2.1]; interval_cases e <;> rfl
    have hB : original { exOne with x := exDrift t } (endB { exOne with x := exDrift t } exOneList 2 (centres exOneList) e) = 0 := by
      unfold endB; rw [(exOne_run t).2.1]; interval_cases e <;> rfl
    rw [hA, hB]
    ring

end Verif.Props
