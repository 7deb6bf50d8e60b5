import Verif.Lemmas.Kokkos.PairSingle
import Verif.Lemmas.Kokkos.LoadSpec
import Verif.Props.Kokkos
import Verif.Props.LammpsForces

/-!
# Properties of the LAMMPS pair style `symmetrix/mace/kk`: single-process mode (C64 - C67)

An environment `V : PEnv` fixes what Kokkos leaves open in one call, see Props/Kokkos.lean.
-/

namespace Verif.Props
open Verif.MACE Verif.Spec Verif.Lammps

variable {f : File} {ne : ℕ} {sph : ℝ → ℝ → ℝ → ℕ → ℝ} {dsph : ℝ → ℝ → ℝ → ℕ → ℕ → ℝ}
  {srt : List (List (List ℕ)) → List (List (List ℕ))} {junk : ℕ → ℕ → ℝ}

/-- C64: with a neighbour list in natural order, the two pair styles add the same energy, forces and virial, for every environment and
every history of both.  The Kokkos style adds the per-atom energies to what `eatom` contains, the other one overwrites. -/
theorem C64_pair_equals_cpu (hf : FileOk f) (hk : FileOkK f ne) (hs : Poly.SortFn srt) :
    ∃ P s0 Q, MACE.load srt sph dsph f = some (P, s0) ∧ Kokkos.load srt sph dsph junk ne f = some (Q, Kokkos.State.init ℝ) ∧
      ∀ rc mt L A, RunOk f rc mt L A → centres L = List.range L.inum → ∀ s, Hist f P s0 s → ∀ q, HistK f Q q →
        ∀ (V : Kokkos.Pair.PEnv) w wk fl t, fl.vAtom = false → TallyOk A L t →
        ∃ r k, Lammps.computeSingle f.zbl P rc mt fl A L w s t = some r ∧
          Kokkos.Pair.computeSingle V f.zbl Q rc mt fl A L wk q t = some k ∧ HistK f Q k.2.1 ∧
          k.2.2.eng = r.2.2.eng ∧ k.2.2.f = r.2.2.f ∧ k.2.2.virial = r.2.2.virial ∧
          (fl.eAtom → k.2.2.eatom.length = t.eatom.length ∧
            ∀ i < t.eatom.length, nth k.2.2.eatom i = if i < L.inum then nth t.eatom i + nth r.2.2.eatom i else nth t.eatom i) ∧
          (fl.eAtom = false → k.2.2.eatom = t.eatom) := by
  obtain ⟨P, s0, h1, h2, h3⟩ := MACE.load_spec hf hs sph dsph
  obtain ⟨Q, k1, k2⟩ := Kokkos.load_spec hf hk hs sph dsph junk
  refine ⟨P, s0, Q, h1, k1, fun rc mt L A hR ho s hh q hq V w wk fl t hv ht => ?_⟩
  obtain ⟨M, hM, hf0, hv0⟩ := tally_tab ht
  obtain ⟨w', s', a1, -⟩ := Lammps.computeSingle_spec hf h2 hR.atoms hR.list hR.images hR.inside (hh.ok hf h2 h3) w hv hf0 hv0 hM
    ht.virial ht.eatom
  obtain ⟨wk', q', b1, b2⟩ := Kokkos.Pair.computeSingle_spec V hf k2 hR.atoms hR.list hR.images ho hR.inside (hq.ok hf k2) wk hv hf0
    hv0 hM ht.virial ht.eatom
  refine ⟨_, _, a1, b1, .call hq (periodic_ok hR.atoms hR.list hR.images) hR.inside b2, rfl, rfl, rfl, fun he => ?_, fun he => ?_⟩
  · simp only [he, if_true]
    refine ⟨by simp, fun i hi => ?_⟩
    rw [nth_tab hi]
    split_ifs with hin
    · rw [nth_tab hi, if_pos hin]
    · rfl
  · simp [he]

/-- C65: the energy, forces and virial of the Kokkos style.  `E A` is the energy it adds for atoms `A`; the force it adds to atom `b` is
minus the derivative of `E` in the position of `b` (with all its images), other atoms get nothing; the six numbers added to the virial
give minus the derivative of `E` under every symmetric strain.  For every environment and history. -/
theorem C65_pair_forces (hf : FileOk f) (hk : FileOkK f ne) (hs : Poly.SortFn srt)
    (hsph : IsSphGrad sph dsph ((f.lmax + 1) * (f.lmax + 1))) :
    ∃ Q, Kokkos.load srt sph dsph junk ne f = some (Q, Kokkos.State.init ℝ) ∧
      ∀ rc mt L, centres L = List.range L.inum → ∃ E : Atoms → ℝ,
      (∀ A, RunOk f rc mt L A → ∀ q, HistK f Q q → ∀ (V : Kokkos.Pair.PEnv) w fl t, fl.vAtom = false → fl.eGlobal → TallyOk A L t →
        ∃ r, Kokkos.Pair.computeSingle V f.zbl Q rc mt fl A L w q t = some r ∧ r.2.2.eng = t.eng + E A) ∧
      ∀ A, RunOk f rc mt L A → OffCutoff A L rc → ScalesNonzero f sph (periodic A L rc mt) (bondVecs A L rc) →
        ∀ q, HistK f Q q → ∀ (V : Kokkos.Pair.PEnv) w fl t, fl.vAtom = false → TallyOk A L t →
        ∃ r, Kokkos.Pair.computeSingle V f.zbl Q rc mt fl A L w q t = some r ∧
          (∀ b ∈ centres L, ∀ c < 3, (∀ᶠ τ in nhds 0, RunOk f rc mt L (moveAtom A b c τ)) ∧
            HasDerivAt (fun τ => E (moveAtom A b c τ)) (-(nth r.2.2.f (3 * b + c) - nth t.f (3 * b + c))) 0) ∧
          (∀ b < A.nlocal, b ∉ centres L → ∀ c < 3, nth r.2.2.f (3 * b + c) = nth t.f (3 * b + c)) ∧
          (fl.vGlobal → ∃ v : ℕ → ℝ, (∀ k < 6, nth r.2.2.virial k = nth t.virial k + v k) ∧
            ∀ ε : ℕ → ℕ → ℝ, (∀ a b, ε a b = ε b a) → (∀ᶠ τ in nhds 0, RunOk f rc mt L (strain A ε τ)) ∧
              HasDerivAt (fun τ => E (strain A ε τ))
                (-(ε 0 0 * v 0 + ε 1 1 * v 1 + ε 2 2 * v 2 + 2 * ε 0 1 * v 3 + 2 * ε 0 2 * v 4 + 2 * ε 1 2 * v 5)) 0) := by
  obtain ⟨P, s0, Q, h1, k1, h2⟩ := C64_pair_equals_cpu (sph := sph) (dsph := dsph) (junk := junk) hf hk hs
  obtain ⟨P', s0', h1', h3⟩ := C39_lammps f sph dsph hf hs hsph
  rw [h1] at h1'
  cases h1'
  obtain ⟨P', s0', h1', h4⟩ := C40_lammps f sph dsph hf hs hsph
  rw [h1] at h1'
  cases h1'
  refine ⟨Q, k1, fun rc mt L ho => ?_⟩
  obtain ⟨E, e1, e2⟩ := h3 rc mt L
  obtain ⟨E', e1', e3⟩ := h4 rc mt L
  have hEE : ∀ A, RunOk f rc mt L A → E' A = E A := by
    intro A hA
    have hT : TallyOk A L ⟨0, List.replicate L.inum 0, List.replicate (A.nlocal * 3) 0, List.replicate 6 0⟩ :=
      ⟨⟨A.nlocal, le_rfl, by simp⟩, by simp, by simp⟩
    obtain ⟨r, r1, r2⟩ := e1 A hA s0 .init ⟨[], [], [], [], [], [], [], []⟩ ⟨true, false, false, false⟩ _ rfl rfl hT
    obtain ⟨r', r1', r2'⟩ := e1' A hA s0 .init ⟨[], [], [], [], [], [], [], []⟩ ⟨true, false, false, false⟩ _ rfl rfl hT
    rw [r1] at r1'
    cases r1'
    linarith
  refine ⟨E, fun A hA q hq V w fl t hv hg ht => ?_, fun A hA hO hsc q hq V w fl t hv ht => ?_⟩
  · obtain ⟨r, k, a1, a2, -, a3, -⟩ := h2 rc mt L A hA ho s0 .init q hq V ⟨[], [], [], [], [], [], [], []⟩ w fl t hv ht
    obtain ⟨r', b1, b2⟩ := e1 A hA s0 .init ⟨[], [], [], [], [], [], [], []⟩ fl t hv hg ht
    rw [a1] at b1
    cases b1
    exact ⟨k, a2, by rw [a3, b2]⟩
  · obtain ⟨r, k, a1, a2, -, -, a4, a5, -⟩ := h2 rc mt L A hA ho s0 .init q hq V ⟨[], [], [], [], [], [], [], []⟩ w fl t hv ht
    obtain ⟨r', b1, b2, b3⟩ := e2 A hA hO hsc s0 .init ⟨[], [], [], [], [], [], [], []⟩ fl t hv ht
    rw [a1] at b1
    cases b1
    refine ⟨k, a2, by rw [a4]; exact b2, by rw [a4]; exact b3, fun hg => ?_⟩
    obtain ⟨r', v, c1, c2, c3⟩ := e3 A hA hO hsc s0 .init ⟨[], [], [], [], [], [], [], []⟩ fl t hv hg ht
    rw [a1] at c1
    cases c1
    refine ⟨v, by rw [a5]; exact c2, fun ε hε => ?_⟩
    obtain ⟨d1, d2⟩ := c3 ε hε
    refine ⟨d1, d2.congr_of_eventuallyEq ?_⟩
    filter_upwards [d1] with τ hτ
    exact (hEE _ hτ).symm

/-! ## Per-atom energies -/

/-- Neighbour lists of two atoms far apart, in natural order. -/
def exFarOrd : NList := ⟨2, [0, 1], [0, 0], [[], []]⟩

theorem exFarOrd_listed (i : ℕ) : listed exFarOrd i = [] := by
  unfold listed exFarOrd
  match i with
  | 0 => rfl
  | 1 => rfl
  | i + 2 => rfl

theorem exFarOrd_nbrs (rc : ℝ) (i : ℕ) : nbrs exFar exFarOrd rc i = [] := by simp [nbrs, exFarOrd_listed]

theorem exFarOrd_ok : RunOk exFile 2 [0, 1] exFarOrd exFar := by
  refine ⟨⟨by decide, by decide, by decide, by decide⟩, ⟨by decide, by decide, by decide, fun i hi => ?_⟩, ⟨by decide, ?_, ?_⟩, ?_⟩
  · have : i = 0 ∨ i = 1 := by simpa [centres, exFarOrd] using hi
    rcases this with rfl | rfl <;> exact ⟨by decide, by decide, by decide, by decide, by decide⟩
  · intro i _ j hj; rw [exFarOrd_listed] at hj; cases hj
  · intro i hi
    have : i = 0 ∨ i = 1 := by simpa [centres, exFarOrd] using hi
    rcases this with rfl | rfl <;> rfl
  · intro e he
    have hE : (periodic exFar exFarOrd 2 [0, 1]).E = 0 := by
      unfold periodic; rw [sysOf_E]; simp [bonds, exFarOrd_nbrs]
    rw [hE] at he
    exact absurd he (Nat.not_lt_zero e)

/-- C66: what the code does.  Correct if `eatom` contains zeros before the call.  Missing: the second call on the same storage, see
`C66_violated`. -/
theorem C66_eatom_partial (hf : FileOk f) (hk : FileOkK f ne) (hs : Poly.SortFn srt) :
    ∃ Q, Kokkos.load srt sph dsph junk ne f = some (Q, Kokkos.State.init ℝ) ∧
      ∀ rc mt L A, RunOk f rc mt L A → centres L = List.range L.inum → ∀ q, HistK f Q q → ∀ (V : Kokkos.Pair.PEnv) w fl t,
        fl.vAtom = false → fl.eAtom → TallyOk A L t → ∃ k, Kokkos.Pair.computeSingle V f.zbl Q rc mt fl A L w q t = some k ∧
          HistK f Q k.2.1 ∧ k.2.2.eatom.length = t.eatom.length ∧ k.2.2.f.length = t.f.length ∧
          k.2.2.virial.length = t.virial.length ∧ ∀ i ∈ centres L, k.2.2.eatom[i]?
            = some (nth t.eatom i + energy (netOf f) (confOf f sph (periodic A L rc mt) (bondVecs A L rc)) i) := by
  obtain ⟨Q, k1, k2⟩ := Kokkos.load_spec hf hk hs sph dsph junk
  refine ⟨Q, k1, fun rc mt L A hR ho q hq V w fl t hv he ht => ?_⟩
  obtain ⟨M, hM, hf0, hv0⟩ := tally_tab ht
  obtain ⟨wk', q', b1, b2⟩ := Kokkos.Pair.computeSingle_spec V hf k2 hR.atoms hR.list hR.images ho hR.inside (hq.ok hf k2) w hv hf0
    hv0 hM ht.virial ht.eatom
  refine ⟨_, b1, .call hq (periodic_ok hR.atoms hR.list hR.images) hR.inside b2, ?_, ?_, ?_, fun i hi => ?_⟩
  · simp [he]
  · conv_rhs => rw [hf0]
    simp
  · dsimp only
    split_ifs <;> simp
  · rw [ho] at hi
    have hi' := List.mem_range.mp hi
    have := ht.eatom
    simp only [he, if_true]
    rw [getElem?_tab_lt (by omega), if_pos hi']

/-- C66 fails when the storage is used again: from zeros, two calls for the same atoms leave twice the energy of hydrogen in `eatom`. -/
theorem C66_violated : ∃ f A L rc mt, FileOk f ∧ FileOkK f 2 ∧ RunOk f rc mt L A ∧ centres L = List.range L.inum ∧ 0 ∈ centres L ∧
    ∀ srt, Poly.SortFn srt → ∀ sph dsph junk, ∃ Q, Kokkos.load srt sph dsph junk 2 f = some (Q, Kokkos.State.init ℝ) ∧
      energy (netOf f) (confOf f sph (periodic A L rc mt) (bondVecs A L rc)) 0 = -13 ∧
      ∀ (V V' : Kokkos.Pair.PEnv) w t, TallyOk A L t → (∀ x ∈ t.eatom, x = 0) →
        ∃ k k', Kokkos.Pair.computeSingle V f.zbl Q rc mt ⟨true, true, true, false⟩ A L w (Kokkos.State.init ℝ) t = some k ∧
          k.2.2.eatom[0]? = some (-13 : ℝ) ∧
          Kokkos.Pair.computeSingle V' f.zbl Q rc mt ⟨true, true, true, false⟩ A L k.1 k.2.1 k.2.2 = some k' ∧
          k'.2.2.eatom[0]? = some (-26 : ℝ) := by
  refine ⟨exFile, exFar, exFarOrd, 2, [0, 1], exFile_ok, exFile_okK, exFarOrd_ok, by decide, by decide, fun srt hsrt sph dsph junk => ?_⟩
  obtain ⟨Q, h1, h2⟩ := C66_eatom_partial (sph := sph) (dsph := dsph) (junk := junk) exFile_ok exFile_okK hsrt
  have hedg : ∀ i, (periodic exFar exFarOrd 2 [0, 1]).edg i = ∅ := by
    intro i
    have : (periodic exFar exFarOrd 2 [0, 1]).nn = [0, 0] := by
      have hc : centres exFarOrd = [0, 1] := rfl
      simp [periodic, sysOf, exFarOrd_nbrs, hc]
    unfold Sys.edg
    rw [this]
    match i with
    | 0 => rfl
    | 1 => rfl
    | i + 2 => simp
  have hen : energy (netOf exFile) (confOf exFile sph (periodic exFar exFarOrd 2 [0, 1]) (bondVecs exFar exFarOrd 2)) 0 = -13 := by
    rw [isolated_energy exFile_ok (hedg _)]
    have : nthN (periodic exFar exFarOrd 2 [0, 1]).types 0 = 0 := by decide
    rw [this]
    rfl
  refine ⟨Q, h1, hen, fun V V' w t ht h0 => ?_⟩
  obtain ⟨k, a1, a2, a3, a4, a5, a6⟩ := h2 2 [0, 1] exFarOrd exFar exFarOrd_ok (by decide) _ .init V w ⟨true, true, true, false⟩ t rfl rfl ht
  have ht' : TallyOk exFar exFarOrd k.2.2 := by
    obtain ⟨M, m1, m2⟩ := ht.f
    exact ⟨⟨M, m1, by rw [a4, m2]⟩, by rw [a5]; exact ht.virial, by rw [a3]; exact ht.eatom⟩
  obtain ⟨k', b1, b2, b3, b4, b5, b6⟩ := h2 2 [0, 1] exFarOrd exFar exFarOrd_ok (by decide) _ a2 V' k.1 ⟨true, true, true, false⟩ k.2.2 rfl rfl ht'
  have h00 : nth t.eatom 0 = 0 := by
    have hl : 0 < t.eatom.length := lt_of_lt_of_le (by decide) ht.eatom
    unfold nth
    rw [List.getElem?_eq_getElem hl]
    exact h0 _ (List.getElem_mem hl)
  have e1 := a6 0 (by decide)
  rw [hen, h00, zero_add] at e1
  have e2 := b6 0 (by decide)
  have hn : nth k.2.2.eatom 0 = -13 := by unfold nth; rw [e1]; rfl
  rw [hen, hn] at e2
  exact ⟨k, k', a1, e1, b1, by rw [e2]; norm_num⟩

example : ∃ t, TallyOk exFar exFarOrd t ∧ ∀ x ∈ t.eatom, x = 0 :=
  ⟨⟨0, [0, 0], [0, 0, 0, 0, 0, 0], [0, 0, 0, 0, 0, 0]⟩, ⟨⟨2, by decide, by simp⟩, by simp, by simp [exFarOrd]⟩, by simp⟩

/-! ## Order of the neighbour list -/

/-- C67: what the code does: neighbours are numbered by the local index of their original, nodes by their place in the list.  Missing:
lists in another order, see `C67_violated`. -/
theorem C67_graph_partial {A : Atoms} {mt : List ℕ} {L : NList} {nT : ℕ} (rc : ℝ) (hA : AtomsOk A mt nT) (hL : ListOk A L)
    (hI : ImagesOk A L) (V : Kokkos.Pair.PEnv) (w : Kokkos.Pair.Mem) :
    ∃ w' e, Kokkos.Pair.graphViews V A L (rc * rc) mt L.inum (fun ii => L.ilist[ii]?) (mapTag A) w = some (w', e) ∧
      w'.graph L.inum e = (sysOf A L rc mt (centres L) (original A)).graph (bondVecs A L rc) ∧
      (centres L = List.range L.inum → w'.graph L.inum e = (periodic A L rc mt).graph (bondVecs A L rc)) := by
  obtain ⟨w', h1, -, h3⟩ := Kokkos.Pair.graphViews_spec (rc := rc) (node := fun ii => L.ilist[ii]?) (look := mapTag A) (jOf := original A) V
    hA (centres_length hL) hL.entry (fun ii hii => Kokkos.Pair.ilist_get hL hii)
    (fun i hi j hj => mapTag_eq hI hi (mem_nbrs_listed hj) (nbrs_lt (hL.entry i hi) hj)) w
  refine ⟨w', _, h1, h3, fun ho => ?_⟩
  rw [h3, Kokkos.Pair.periodic_inOrder hI ho]; rfl

theorem exBonds : bonds exAtoms exList (3 / 2) (centres exList) = [(1, 0), (0, 1), (0, 2)] := by
  have h0 : nbrs exAtoms exList (3 / 2) 0 = [1, 2] := by
    simp [nbrs, exListed.1, disp, pos, exAtoms, nth, Finset.sum_range_succ]; norm_num
  have h1 : nbrs exAtoms exList (3 / 2) 1 = [0] := by
    simp [nbrs, exListed.2, disp, pos, exAtoms, nth, Finset.sum_range_succ]; norm_num
  have : centres exList = [1, 0] := rfl
  simp [bonds, this, h0, h1]

/-- C67 fails for the order 1, 0: the bond of atom 1 (node 0) to atom 0 (node 1) is handed over as a bond of node 0 to node 0; the other
pair style hands over node 1. -/
theorem C67_violated (V : Kokkos.Pair.PEnv) (w : Kokkos.Pair.Mem) (wc : Work) : RunOk exFile (3 / 2) [0, 1] exList exAtoms ∧
    ∃ w' e wc', Kokkos.Pair.graphViews V exAtoms exList (3 / 2 * (3 / 2)) [0, 1] exList.inum (fun ii => exList.ilist[ii]?) (mapTag exAtoms) w
        = some (w', e) ∧ (w'.graph exList.inum e).idx = [0, 1, 0] ∧
      buildSingle (3 / 2) [0, 1] exAtoms exList wc = some wc' ∧ (wc'.graph exList.inum).idx = [1, 0, 1] := by
  refine ⟨exRun.1, ?_⟩
  obtain ⟨w', e, h1, h2, -⟩ := C67_graph_partial (3 / 2) exAtoms_ok exList_ok exImages_ok V w
  obtain ⟨wc', k1, -, -, k2⟩ := buildSingle_spec (rc := 3 / 2) exAtoms_ok exList_ok exImages_ok wc
  refine ⟨w', e, wc', h1, ?_, k1, ?_⟩
  · rw [h2]
    change (bonds exAtoms exList (3 / 2) (centres exList)).map (fun p => original exAtoms p.2) = _
    rw [exBonds]; rfl
  · rw [k2]
    change (bonds exAtoms exList (3 / 2) (centres exList)).map (fun p => rank (centres exList) (original exAtoms p.2)) = _
    rw [exBonds]; rfl

/-! ## A list in natural order with bonds to an image -/

def exOrd : NList := { exList with ilist := [0, 1] }

theorem exOrd_ok : RunOk exFile (3 / 2) [0, 1] exOrd exAtoms ∧ centres exOrd = List.range exOrd.inum ∧
    bonds exAtoms exOrd (3 / 2) (centres exOrd) = [(0, 1), (0, 2), (1, 0)] ∧ OffCutoff exAtoms exOrd (3 / 2) ∧
    ScalesNonzero exFile exSph (periodic exAtoms exOrd (3 / 2) [0, 1]) (bondVecs exAtoms exOrd (3 / 2)) := by
  have h0 : nbrs exAtoms exOrd (3 / 2) 0 = [1, 2] := by
    have : listed exOrd 0 = [1, 2] := exListed.1
    simp [nbrs, this, disp, pos, exAtoms, nth, Finset.sum_range_succ]; norm_num
  have h1 : nbrs exAtoms exOrd (3 / 2) 1 = [0] := by
    have : listed exOrd 1 = [0] := exListed.2
    simp [nbrs, this, disp, pos, exAtoms, nth, Finset.sum_range_succ]; norm_num
  have hc : centres exOrd = [0, 1] := rfl
  have hb : bonds exAtoms exOrd (3 / 2) (centres exOrd) = [(0, 1), (0, 2), (1, 0)] := by simp [bonds, hc, h0, h1]
  have hm : ∀ i ∈ centres exOrd, i ∈ centres exList := by decide
  have hm' : ∀ i ∈ centres exList, i ∈ centres exOrd := by decide
  have hE : (periodic exAtoms exOrd (3 / 2) [0, 1]).E = 3 := by unfold periodic; rw [sysOf_E, hb]; rfl
  have hlen : ∀ e < 3, len (bondVecs exAtoms exOrd (3 / 2) e) = 1 := by
    intro e he
    unfold len bondVecs vecs
    rw [hb]
    interval_cases e <;> simp [Finset.sum_range_succ, disp, pos, exAtoms, nth]
  refine ⟨⟨exAtoms_ok, ⟨by decide, by decide, by decide, fun i hi =>
      let h := exList_ok.entry i (hm i hi); ⟨h.lt, h.num, h.first, h.len, h.nb⟩⟩,
    ⟨exImages_ok.tag, fun i hi j hj => ?_, fun i hi => exImages_ok.self i (hm i hi)⟩, fun e he => ?_⟩, rfl, hb,
    fun i hi j hj => exRun.2.1 i (hm i hi) j hj, fun i hi => ?_⟩
  · obtain ⟨o, o1, o2⟩ := exImages_ok.orig i (hm i hi) j hj
    exact ⟨o, o1, hm' o o2⟩
  · rw [hE] at he
    unfold InTable
    rw [hlen e he]
    have e0 : exFile.nodes0 = 3 := rfl
    have e1 : exFile.nodes1 = 3 := rfl
    refine ⟨by norm_num, by rw [e0]; norm_num [exFile], by rw [e1]; norm_num [exFile], fun _ w hw => ?_,
      fun h => absurd h (by decide)⟩
    rw [List.eq_of_mem_replicate hw]
    norm_num [exFile]
  · refine ⟨?_, by simp [confOf, exFile]⟩
    have hpos : ∀ p : ℕ, 0 ≤ hermite exFile.A0h (nth (row exFile.A0vals p)) (nth (row exFile.A0ders p)) 1 := by
      intro p
      have hh : exFile.A0h = 1 := rfl
      match p with
      | 0 | 1 | 2 =>
        have hv : exFile.A0vals = List.replicate 3 [1, 1, 1] := rfl
        have hd : exFile.A0ders = List.replicate 3 [0, 0, 0] := rfl
        rw [hv, hd, hh]
        norm_num [hermite, hermite01, nth, row]
      | p + 3 =>
        have hv : row exFile.A0vals (p + 3) = [] := rfl
        have hd : row exFile.A0ders (p + 3) = [] := rfl
        rw [hv, hd]
        simp [hermite, hermite01, nth]
    simp only [confOf]
    rw [if_pos (by rfl)]
    apply ne_of_gt
    have : 0 ≤ ∑ e ∈ (periodic exAtoms exOrd (3 / 2) [0, 1]).edg i, hermite exFile.A0h
        (nth (row exFile.A0vals (edgePair exFile (periodic exAtoms exOrd (3 / 2) [0, 1]) e)))
        (nth (row exFile.A0ders (edgePair exFile (periodic exAtoms exOrd (3 / 2) [0, 1]) e)))
        (len (bondVecs exAtoms exOrd (3 / 2) e)) := by
      refine Finset.sum_nonneg (fun e he => ?_)
      rw [hlen e (by rw [← hE]; exact edg_lt hi he)]
      exact hpos _
    linarith

/-- The hypotheses of C64, C65 (with `exOrd_ok`) and C66 hold for it. -/
example : FileOk exFile ∧ FileOkK exFile 2 ∧ RunOk exFile (3 / 2) [0, 1] exOrd exAtoms ∧ centres exOrd = List.range exOrd.inum ∧
    ∃ t, TallyOk exAtoms exOrd t :=
  ⟨exFile_ok, exFile_okK, exOrd_ok.1, rfl, ⟨0, [0, 0], [0, 0, 0, 0, 0, 0, 0, 0, 0], [0, 0, 0, 0, 0, 0]⟩, ⟨3, by decide, by simp⟩, by simp,
    by simp [exOrd, exList]⟩

end Verif.Props
