import Verif.Props.Lammps
import Verif.Props.MACEExample
import Verif.Lemmas.MACE.Isolated

/-! # Property theorems: energies, forces and virial of the single-process LAMMPS pair style (C39, C40, C45, C58) -/

namespace Verif.Props
open Verif.Lammps Verif.MACE Verif.Spec

/-- Well-formed input of the pair style, all listed pairs inside the cutoff in the range of the tables. -/
structure RunOk (f : File) (rc : ℝ) (mt : List ℕ) (L : NList) (A : Atoms) : Prop where
  atoms : AtomsOk A mt f.nT
  list : ListOk A L
  images : ImagesOk A L
  inside : Inside f (periodic A L rc mt) (bondVecs A L rc)

/-- The accumulators are large enough. -/
structure TallyOk (A : Atoms) (L : NList) (t : Tally) : Prop where
  f : ∃ M, A.nlocal ≤ M ∧ t.f.length = M * 3
  virial : 6 ≤ t.virial.length
  eatom : L.inum ≤ t.eatom.length

/-- Atom `b`, and with it all its images, moved by `τ` in direction `c`. -/
noncomputable def moveAtom (A : Atoms) (b c : ℕ) (τ : ℝ) : Atoms :=
  displaced A (fun j c' => if original A j = b ∧ c' = c then 1 else 0) τ

/-- All atoms (and images) displaced by `τ ε x`. -/
noncomputable def strain (A : Atoms) (ε : ℕ → ℕ → ℝ) (τ : ℝ) : Atoms :=
  displaced A (fun j c => ∑ d ∈ Finset.range 3, ε c d * pos A j d) τ

section
variable {f : File} {rc : ℝ} {mt : List ℕ} {L : NList} {A : Atoms}

theorem tally_tab {t : Tally} (h : TallyOk A L t) : ∃ M, A.nlocal ≤ M ∧ t.f = tab2 M 3 (fun a c => nth t.f (3 * a + c)) ∧
    t.virial = tab t.virial.length (nth t.virial) := by
  obtain ⟨M, h1, h2⟩ := h.f
  refine ⟨M, h1, ?_, ?_⟩
  · rw [eq_tab2_iff]
    refine ⟨h2, fun q hq j hj => ?_⟩
    rw [mul_comm q 3]
    exact get_nth (by omega)
  · rw [eq_tab_iff]
    exact ⟨rfl, fun i hi => get_nth hi⟩

theorem nth_tab2 {n B : ℕ} {g : ℕ → ℕ → ℝ} {q j : ℕ} (hq : q < n) (hj : j < B) : nth (tab2 n B g) (q * B + j) = g q j := by
  unfold nth; rw [getElem?_tab2 hq hj]; rfl

variable {sph : ℝ → ℝ → ℝ → ℕ → ℝ} {dsph : ℝ → ℝ → ℝ → ℕ → ℕ → ℝ} {P : Params ℝ}

/-- The result of a call. -/
theorem single_result (hf : FileOk f) (hP : Loaded f sph dsph P) (h : RunOk f rc mt L A) {s : State ℝ} (hs : StOk f s) (w : Work)
    {fl : Flags} (hv : fl.vAtom = false) {t : Tally} (ht : TallyOk A L t) :
    ∃ r, computeSingle f.zbl P rc mt fl A L w s t = some r ∧
      r.2.2.eng = (if fl.eGlobal then t.eng + Etot f sph L rc mt A else t.eng) ∧
      (fl.eAtom → r.2.2.eatom.length = t.eatom.length ∧ ∀ ii < L.inum,
        r.2.2.eatom[ii]? = some (energy (netOf f) (confOf f sph (periodic A L rc mt) (bondVecs A L rc)) ii)) ∧
      (∀ a < A.nlocal, ∀ c < 3, nth r.2.2.f (3 * a + c) = nth t.f (3 * a + c)
        + ∑ e ∈ Finset.range (bonds A L rc (centres L)).length,
          forceOf f sph dsph (periodic A L rc mt) (bondVecs A L rc) e c
            * ((if a = original A (endB A L rc (centres L) e) then 1 else 0) - if a = endA A L rc (centres L) e then 1 else 0)) ∧
      (fl.vGlobal → ∀ k < 6, nth r.2.2.virial k = nth t.virial k + ∑ e ∈ Finset.range (bonds A L rc (centres L)).length,
          1 / 2 * (bondVecs A L rc e (voigt k).1 * forceOf f sph dsph (periodic A L rc mt) (bondVecs A L rc) e (voigt k).2
            + bondVecs A L rc e (voigt k).2 * forceOf f sph dsph (periodic A L rc mt) (bondVecs A L rc) e (voigt k).1)) := by
  obtain ⟨M, hM, hf0, hv0⟩ := tally_tab ht
  obtain ⟨w', s', h1, _⟩ := computeSingle_spec hf hP h.atoms h.list h.images h.inside hs w hv hf0 hv0 hM ht.virial ht.eatom
  refine ⟨_, h1, rfl, fun he => ?_, fun a ha c hc => ?_, fun hg k hk => ?_⟩
  · simp only [he, if_true]
    refine ⟨by simp, fun ii hii => ?_⟩
    have := ht.eatom
    rw [getElem?_tab_lt (by omega), if_pos hii]
  · have := nth_tab2 (g := fun a c => nth t.f (3 * a + c) + ∑ e ∈ Finset.range (bonds A L rc (centres L)).length,
          forceOf f sph dsph (periodic A L rc mt) (bondVecs A L rc) e c
            * ((if a = original A (endB A L rc (centres L) e) then 1 else 0) - if a = endA A L rc (centres L) e then 1 else 0))
      (show a < M by omega) hc
    rw [mul_comm a 3] at this
    exact this
  · simp only [hg, if_true]
    have := ht.virial
    rw [nth_tab (by omega), if_pos hk]

end

section props
variable (f : File) (sph : ℝ → ℝ → ℝ → ℕ → ℝ) (dsph : ℝ → ℝ → ℝ → ℕ → ℕ → ℝ)
variable {srt : List (List (List ℕ)) → List (List (List ℕ))}

/-- C39: `E A` is the energy the pair style adds for atoms `A` (whatever happened before).  The force it adds to local atom `b` is
minus the derivative of `E` in the position of `b`, all images of `b` moving along; other atoms get nothing. -/
theorem C39_lammps (hf : FileOk f) (hsrt : Poly.SortFn srt) (hsph : IsSphGrad sph dsph ((f.lmax + 1) * (f.lmax + 1))) :
    ∃ P s0, load srt sph dsph f = some (P, s0) ∧ ∀ rc mt L, ∃ E : Atoms → ℝ,
      (∀ A, RunOk f rc mt L A → ∀ s, Hist f P s0 s → ∀ w fl t, fl.vAtom = false → fl.eGlobal → TallyOk A L t →
        ∃ r, computeSingle f.zbl P rc mt fl A L w s t = some r ∧ r.2.2.eng = t.eng + E A) ∧
      ∀ A, RunOk f rc mt L A → OffCutoff A L rc → ScalesNonzero f sph (periodic A L rc mt) (bondVecs A L rc) →
        ∀ s, Hist f P s0 s → ∀ w fl t, fl.vAtom = false → TallyOk A L t →
        ∃ r, computeSingle f.zbl P rc mt fl A L w s t = some r ∧
          (∀ b ∈ centres L, ∀ c < 3, (∀ᶠ τ in nhds 0, RunOk f rc mt L (moveAtom A b c τ)) ∧
            HasDerivAt (fun τ => E (moveAtom A b c τ)) (-(nth r.2.2.f (3 * b + c) - nth t.f (3 * b + c))) 0) ∧
          ∀ b < A.nlocal, b ∉ centres L → ∀ c < 3, nth r.2.2.f (3 * b + c) = nth t.f (3 * b + c) := by
  obtain ⟨P, s0, h1, h2, h3⟩ := load_spec hf hsrt sph dsph
  refine ⟨P, s0, h1, fun rc mt L => ⟨Etot f sph L rc mt, fun A hA s hs w fl t hv hg ht => ?_,
    fun A hA hO hsc s hs w fl t hv ht => ?_⟩⟩
  · obtain ⟨r, r1, r2, _⟩ := single_result hf h2 hA (hs.ok hf h2 h3) w hv ht
    exact ⟨r, r1, by rw [r2, if_pos hg]⟩
  · obtain ⟨r, r1, _, _, r4, _⟩ := single_result hf h2 hA (hs.ok hf h2 h3) w hv ht
    refine ⟨r, r1, fun b hb c hc => ?_, fun b hb hnb c hc => ?_⟩
    · obtain ⟨d1, d2⟩ := Etot_hasDerivAt hf hA.atoms hA.list hA.images hO hA.inside hsph (hs.ok hf h2 h3) hsc
        (fun j c' => if original A j = b ∧ c' = c then 1 else 0)
      refine ⟨?_, ?_⟩
      · filter_upwards [d2] with τ hτ
        exact ⟨displaced_ok hA.atoms, list_displaced hA.list, images_displaced hA.images, hτ.1⟩
      · refine d1.congr_deriv ?_
        rw [r4 b (hA.list.loc b hb) c hc, add_sub_cancel_left]
        congr 1
        refine Finset.sum_congr rfl (fun e he => ?_)
        have hm := ends_mem (Finset.mem_range.mp he)
        have hself : original A (endA A L rc (centres L) e) = endA A L rc (centres L) e := by
          rw [original, hA.images.self _ hm.1]; rfl
        rw [Finset.sum_eq_single c]
        · simp only [edgeDir, hself, and_true, eq_comm]
        · intro c' _ hne
          simp [edgeDir, hne]
        · intro h; exact absurd (Finset.mem_range.mpr hc) h
    · rw [r4 b hb c hc, Finset.sum_eq_zero, add_zero]
      intro e he
      have hm := ends_mem (Finset.mem_range.mp he)
      have e1 : b ≠ endA A L rc (centres L) e := fun h => hnb (h ▸ hm.1)
      have e2 : b ≠ original A (endB A L rc (centres L) e) := fun h =>
        hnb (h ▸ original_mem hA.images hm.1 (mem_nbrs_listed hm.2))
      rw [if_neg e1, if_neg e2]
      ring

/-- C40: the six numbers `v` the pair style adds to `virial` (order xx, yy, zz, xy, xz, yz) give minus the derivative of its
energy under every symmetric strain `ε` of atoms, images and box. -/
theorem C40_lammps (hf : FileOk f) (hsrt : Poly.SortFn srt) (hsph : IsSphGrad sph dsph ((f.lmax + 1) * (f.lmax + 1))) :
    ∃ P s0, load srt sph dsph f = some (P, s0) ∧ ∀ rc mt L, ∃ E : Atoms → ℝ,
      (∀ A, RunOk f rc mt L A → ∀ s, Hist f P s0 s → ∀ w fl t, fl.vAtom = false → fl.eGlobal → TallyOk A L t →
        ∃ r, computeSingle f.zbl P rc mt fl A L w s t = some r ∧ r.2.2.eng = t.eng + E A) ∧
      ∀ A, RunOk f rc mt L A → OffCutoff A L rc → ScalesNonzero f sph (periodic A L rc mt) (bondVecs A L rc) →
        ∀ s, Hist f P s0 s → ∀ w fl t, fl.vAtom = false → fl.vGlobal → TallyOk A L t →
        ∃ r, ∃ v : ℕ → ℝ, computeSingle f.zbl P rc mt fl A L w s t = some r ∧
          (∀ k < 6, nth r.2.2.virial k = nth t.virial k + v k) ∧
          ∀ ε : ℕ → ℕ → ℝ, (∀ a b, ε a b = ε b a) → (∀ᶠ τ in nhds 0, RunOk f rc mt L (strain A ε τ)) ∧
            HasDerivAt (fun τ => E (strain A ε τ))
              (-(ε 0 0 * v 0 + ε 1 1 * v 1 + ε 2 2 * v 2 + 2 * ε 0 1 * v 3 + 2 * ε 0 2 * v 4 + 2 * ε 1 2 * v 5)) 0 := by
  obtain ⟨P, s0, h1, h2, h3⟩ := load_spec hf hsrt sph dsph
  refine ⟨P, s0, h1, fun rc mt L => ⟨Etot f sph L rc mt, fun A hA s hs w fl t hv hg ht => ?_,
    fun A hA hO hsc s hs w fl t hv hg ht => ?_⟩⟩
  · obtain ⟨r, r1, r2, _⟩ := single_result hf h2 hA (hs.ok hf h2 h3) w hv ht
    exact ⟨r, r1, by rw [r2, if_pos hg]⟩
  · obtain ⟨r, r1, _, _, _, r5⟩ := single_result hf h2 hA (hs.ok hf h2 h3) w hv ht
    refine ⟨r, _, r1, fun k hk => r5 hg k hk, fun ε hε => ?_⟩
    obtain ⟨d1, d2⟩ := Etot_hasDerivAt hf hA.atoms hA.list hA.images hO hA.inside hsph (hs.ok hf h2 h3) hsc
      (fun j c => ∑ d ∈ Finset.range 3, ε c d * pos A j d)
    refine ⟨?_, ?_⟩
    · filter_upwards [d2] with τ hτ
      exact ⟨displaced_ok hA.atoms, list_displaced hA.list, images_displaced hA.images, hτ.1⟩
    · refine d1.congr_deriv ?_
      simp only [Finset.mul_sum, ← Finset.sum_add_distrib]
      congr 1
      refine Finset.sum_congr rfl (fun e he => ?_)
      have hX : ∀ c, bondVecs A L rc e c = pos A (endB A L rc (centres L) e) c - pos A (endA A L rc (centres L) e) c := fun _ => rfl
      simp only [Finset.sum_range_succ, Finset.sum_range_zero, edgeDir, voigt, List.getD, List.getElem?_cons_zero,
        List.getElem?_cons_succ, Option.getD_some, hX, hε 1 0, hε 2 0, hε 2 1]
      ring

/-- C45: what the code does: `eatom[ii]` is the energy of the `ii`-th listed atom. Correct if the list is in natural order.
Missing: other orders, see `C45_violated`. -/
theorem C45_eatom_partial (hf : FileOk f) (hsrt : Poly.SortFn srt) :
    ∃ P s0, load srt sph dsph f = some (P, s0) ∧ ∀ rc mt L A, RunOk f rc mt L A → ∀ s, Hist f P s0 s → ∀ w fl t,
      fl.vAtom = false → fl.eAtom → TallyOk A L t → ∃ r, computeSingle f.zbl P rc mt fl A L w s t = some r ∧
        (∀ ii < L.inum, r.2.2.eatom[ii]? = some (energy (netOf f) (confOf f sph (periodic A L rc mt) (bondVecs A L rc)) ii)) ∧
        (centres L = List.range L.inum → ∀ i ∈ centres L, r.2.2.eatom[i]?
          = some (energy (netOf f) (confOf f sph (periodic A L rc mt) (bondVecs A L rc)) (rank (centres L) i))) := by
  obtain ⟨P, s0, h1, h2, h3⟩ := load_spec hf hsrt sph dsph
  refine ⟨P, s0, h1, fun rc mt L A hA s hs w fl t hv he ht => ?_⟩
  obtain ⟨r, r1, _, r3, _, _⟩ := single_result hf h2 hA (hs.ok hf h2 h3) w hv ht
  refine ⟨r, r1, (r3 he).2, fun hc i hi => ?_⟩
  rw [hc] at hi ⊢
  have hi' := List.mem_range.mp hi
  have : rank (List.range L.inum) i = i := by
    unfold rank
    have := List.nodup_range.idxOf_getElem i (show i < (List.range L.inum).length by simpa using hi')
    simpa using this
  rw [this]
  exact (r3 he).2 i hi'

/-- C58: an atom without neighbours has exactly the reference energy of its element. -/
theorem C58_isolated (hf : FileOk f) (hsrt : Poly.SortFn srt) :
    ∃ P s0, load srt sph dsph f = some (P, s0) ∧ ∀ s, Hist f P s0 s → ∀ T, SysOk f T → ∀ X, Inside f T X →
      ∃ s', computeNodeEnergiesForces f.zbl P (T.graph X) s = some s' ∧ ∀ i < T.N, nthN T.nn i = 0 →
        s'.nodeEnergies[i]? = f.atomicEnergies[nthN T.types i]? := by
  obtain ⟨P, s0, h1, h2, h3⟩ := load_spec hf hsrt sph dsph
  refine ⟨P, s0, h1, fun s hs T hT X hX => ?_⟩
  obtain ⟨s', e1, e2, _, _⟩ := compute_spec hf hT h2 hX (hs.ok hf h2 h3)
  refine ⟨s', e1, fun i hi hn => ?_⟩
  have hedg : T.edg i = ∅ := by
    have hl : i < T.nn.length := lt_of_lt_of_le hi hT.nn
    unfold Sys.edg
    rw [List.take_succ_eq_append_getElem hl, List.sum_append]
    have : T.nn[i] = 0 := by simpa [nthN, hl] using hn
    simp [this]
  rw [e2, getElem?_tab_lt hi, isolated_energy hf hedg]
  exact (get_nth (lt_of_lt_of_le (hT.typ i hi) hf.energies)).symm

end props

/-! ## Examples and the violation of C45 -/

/-- Two atoms far apart, types 1 (hydrogen) and 2 (carbon). -/
def exFar : Atoms where
  nlocal := 2
  nghost := 0
  x := [0, 0, 0, 100, 0, 0]
  type := [1, 2]
  tag := [1, 2]
  map := fun t => if t = 1 then some 0 else if t = 2 then some 1 else none

/-- Their empty neighbour lists, in the order 1, 0. -/
def exFarList : NList := ⟨2, [1, 0], [0, 0], [[], []]⟩

theorem exFar_listed (i : ℕ) : listed exFarList i = [] := by
  unfold listed exFarList
  match i with
  | 0 => rfl
  | 1 => rfl
  | i + 2 => rfl

theorem exFar_nbrs (rc : ℝ) (i : ℕ) : nbrs exFar exFarList rc i = [] := by simp [nbrs, exFar_listed]

theorem exFar_ok : RunOk exFile 2 [0, 1] exFarList exFar := by
  refine ⟨⟨by decide, by decide, by decide, by decide⟩, ⟨by decide, by decide, by decide, fun i hi => ?_⟩, ⟨by decide, ?_, ?_⟩, ?_⟩
  · have : i = 1 ∨ i = 0 := by simpa [centres, exFarList] using hi
    rcases this with rfl | rfl <;> exact ⟨by decide, by decide, by decide, by decide, by decide⟩
  · intro i _ j hj; rw [exFar_listed] at hj; cases hj
  · intro i hi
    have : i = 1 ∨ i = 0 := by simpa [centres, exFarList] using hi
    rcases this with rfl | rfl <;> rfl
  · intro e he
    have hE : (periodic exFar exFarList 2 [0, 1]).E = 0 := by
      unfold periodic; rw [sysOf_E]; simp [bonds, exFar_nbrs]
    rw [hE] at he
    exact absurd he (Nat.not_lt_zero e)

/-- C45 fails for lists in another order: hydrogen (atom 0) is given the energy of carbon. -/
theorem C45_violated : ∃ f A L rc mt, FileOk f ∧ RunOk f rc mt L A ∧ 0 ∈ centres L ∧
    ∀ srt, Poly.SortFn srt → ∀ sph dsph, ∃ P s0, load srt sph dsph f = some (P, s0) ∧
      energy (netOf f) (confOf f sph (periodic A L rc mt) (bondVecs A L rc)) (rank (centres L) 0) = -13 ∧
      ∀ s, Hist f P s0 s → ∀ w t, TallyOk A L t → ∃ r,
        computeSingle f.zbl P rc mt ⟨true, true, true, false⟩ A L w s t = some r ∧ r.2.2.eatom[0]? = some (-1029 : ℝ) := by
  refine ⟨exFile, exFar, exFarList, 2, [0, 1], exFile_ok, exFar_ok, by decide, fun srt hsrt sph dsph => ?_⟩
  obtain ⟨P, s0, h1, h2⟩ := C45_eatom_partial exFile sph dsph exFile_ok hsrt
  have hedg : ∀ i, (periodic exFar exFarList 2 [0, 1]).edg i = ∅ := by
    intro i
    have : (periodic exFar exFarList 2 [0, 1]).nn = [0, 0] := by
      have hc : centres exFarList = [1, 0] := rfl
      simp [periodic, sysOf, exFar_nbrs, hc]
    unfold Sys.edg
    rw [this]
    match i with
    | 0 => rfl
    | 1 => rfl
    | i + 2 => simp
  refine ⟨P, s0, h1, ?_, fun s hs w t ht => ?_⟩
  · rw [isolated_energy exFile_ok (hedg _)]
    have : nthN (periodic exFar exFarList 2 [0, 1]).types (rank (centres exFarList) 0) = 0 := by decide
    rw [this]
    rfl
  · obtain ⟨r, r1, r2, _⟩ := h2 2 [0, 1] exFarList exFar exFar_ok s hs w ⟨true, true, true, false⟩ t rfl rfl ht
    refine ⟨r, r1, ?_⟩
    rw [r2 0 (by decide), isolated_energy exFile_ok (hedg _)]
    have : nthN (periodic exFar exFarList 2 [0, 1]).types 0 = 1 := by decide
    rw [this]
    rfl

/-- Accumulators for the examples. -/
example : TallyOk exFar exFarList ⟨0, [0, 0], [0, 0, 0, 0, 0, 0], [0, 0, 0, 0, 0, 0]⟩ := ⟨⟨2, by decide, by simp⟩, by simp, by simp [exFarList]⟩

/-- The hypotheses of C39 and C40 hold for the periodic example of Props/Lammps.lean with cutoff 3/2. -/
theorem exRun : RunOk exFile (3 / 2) [0, 1] exList exAtoms ∧ OffCutoff exAtoms exList (3 / 2) ∧
    ScalesNonzero exFile exSph (periodic exAtoms exList (3 / 2) [0, 1]) (bondVecs exAtoms exList (3 / 2)) := by
  have h0 : nbrs exAtoms exList (3 / 2) 0 = [1, 2] := by
    simp [nbrs, exListed.1, disp, pos, exAtoms, nth, Finset.sum_range_succ]; norm_num
  have h1 : nbrs exAtoms exList (3 / 2) 1 = [0] := by
    simp [nbrs, exListed.2, disp, pos, exAtoms, nth, Finset.sum_range_succ]; norm_num
  have hb : bonds exAtoms exList (3 / 2) (centres exList) = [(1, 0), (0, 1), (0, 2)] := by
    have : centres exList = [1, 0] := rfl
    simp [bonds, this, h0, h1]
  have hE : (periodic exAtoms exList (3 / 2) [0, 1]).E = 3 := by unfold periodic; rw [sysOf_E, hb]; rfl
  have hlen : ∀ e < 3, len (bondVecs exAtoms exList (3 / 2) e) = 1 := by
    intro e he
    unfold len bondVecs vecs
    rw [hb]
    interval_cases e <;> simp [Finset.sum_range_succ, disp, pos, exAtoms, nth]
  refine ⟨⟨exAtoms_ok, exList_ok, exImages_ok, fun e he => ?_⟩, fun i hi j hj => ?_, fun i hi => ?_⟩
  · rw [hE] at he
    unfold InTable
    rw [hlen e he]
    have e0 : exFile.nodes0 = 3 := rfl
    have e1 : exFile.nodes1 = 3 := rfl
    refine ⟨by norm_num, by rw [e0]; norm_num [exFile], by rw [e1]; norm_num [exFile], fun _ w hw => ?_,
      fun h => absurd h (by decide)⟩
    rw [List.eq_of_mem_replicate hw]
    norm_num [exFile]
  · have : i = 1 ∨ i = 0 := by simpa [centres, exList] using hi
    have h : (i = 1 ∧ j = 0) ∨ (i = 0 ∧ j = 1) ∨ (i = 0 ∧ j = 2) := by
      rcases this with rfl | rfl
      · rw [exListed.2] at hj; simp at hj; omega
      · rw [exListed.1] at hj; simp at hj; omega
    rcases h with ⟨rfl, rfl⟩ | ⟨rfl, rfl⟩ | ⟨rfl, rfl⟩ <;>
      simp [Finset.sum_range_succ, disp, pos, exAtoms, nth] <;> norm_num
  · refine ⟨?_, by simp [confOf, exFile]⟩
    have hi' : i < 2 := hi
    have hpos : ∀ p : ℕ, 0 ≤ hermite exFile.A0h (nth (row exFile.A0vals p)) (nth (row exFile.A0ders p)) 1 := by
      intro p
      have hh : exFile.A0h = 1 := rfl
      match p with
      | 0 | 1 | 2 =>
        have hv : exFile.A0vals = List.replicate 3 [1, 1, 1] := rfl
        have hd : exFile.A0ders = List.replicate 3 [0, 0, 0] := rfl
        rw [hv, hd, hh]
        norm_num [hermite, hermite01, nth, row]
      | p + 3 =>
        have hv : row exFile.A0vals (p + 3) = [] := rfl
        have hd : row exFile.A0ders (p + 3) = [] := rfl
        rw [hv, hd]
        simp [hermite, hermite01, nth]
    simp only [confOf]
    rw [if_pos (by rfl)]
    apply ne_of_gt
    have : 0 ≤ ∑ e ∈ (periodic exAtoms exList (3 / 2) [0, 1]).edg i, hermite exFile.A0h
        (nth (row exFile.A0vals (edgePair exFile (periodic exAtoms exList (3 / 2) [0, 1]) e)))
        (nth (row exFile.A0ders (edgePair exFile (periodic exAtoms exList (3 / 2) [0, 1]) e)))
        (len (bondVecs exAtoms exList (3 / 2) e)) := by
      refine Finset.sum_nonneg (fun e he => ?_)
      rw [hlen e (by rw [← hE]; exact edg_lt hi he)]
      exact hpos _
    linarith

example : TallyOk exAtoms exList ⟨0, [0, 0], [0, 0, 0, 0, 0, 0, 0, 0, 0], [0, 0, 0, 0, 0, 0]⟩ :=
  ⟨⟨3, by decide, by simp⟩, by simp, by simp [exList]⟩

end Verif.Props
