import Verif.Lemmas.MACE.LoadSpec
import Verif.Lemmas.MACE.Pipeline
import Verif.Lemmas.ZBLLoop
import Verif.Props.MLP

/-! # One call of `compute_node_energies_forces` on a loaded object -/

namespace Verif.MACE
open Verif.Spec Verif.Spline

variable {f : File} {T : Sys} {X : ℕ → ℕ → ℝ} {NH : ℕ} {sph : ℝ → ℝ → ℝ → ℕ → ℝ} {dsph : ℝ → ℝ → ℝ → ℕ → ℕ → ℝ}
  {P : Params ℝ}

theorem owner_eq {i e : ℕ} (hi : i < T.N) (he : e ∈ T.edg i) : T.owner e = i := by
  have h : ∃ i < T.N, e ∈ T.edg i := ⟨i, hi, he⟩
  unfold Sys.owner
  rw [dif_pos h]
  exact edges_disj (nn := T.nn) h.choose_spec.2 he

theorem own_owner {e : ℕ} (he : e < T.E) : own T.nn T.N e = T.owner e := by
  obtain ⟨h1, h2⟩ := own_spec (nn := T.nn) (N := T.N) he
  exact (owner_eq h1 h2).symm

theorem owner_spec {e : ℕ} (he : e < T.E) : T.owner e < T.N ∧ e ∈ T.edg (T.owner e) := by
  rw [← own_owner he]
  exact own_spec (nn := T.nn) (N := T.N) he

theorem edg_lt {i e : ℕ} (hi : i < T.N) (he : e ∈ T.edg i) : e < T.E := edges_lt (nn := T.nn) hi he

/-- Component of the shuffled coordinates holding coordinate `a`. -/
def shufIx (a : ℕ) : ℕ := if a = 0 then 1 else if a = 1 then 2 else 0

/-- Derivatives of the edge features. -/
noncomputable def dconfOf (f : File) (dsph : ℝ → ℝ → ℝ → ℕ → ℕ → ℝ) (T : Sys) (X : ℕ → ℕ → ℝ) : DConf ℝ where
  X := X
  R e := len (X e)
  dR0 e l k := hermite' f.splH (nth (row (tbl f.vals0 (edgePair f T e)) (l * f.numChannels + k)))
    (nth (row (tbl f.ders0 (edgePair f T e)) (l * f.numChannels + k))) (len (X e))
  dR1 e p k := hermite' f.splH (nth (row (tbl f.vals1 (edgePair f T e)) (p * f.numChannels + k)))
    (nth (row (tbl f.ders1 (edgePair f T e)) (p * f.numChannels + k))) (len (X e))
  dY e a lm := dsph (X e 2) (X e 0) (X e 1) (shufIx a) lm * (2 * Real.sqrt Real.pi)
  ds0 e := if f.A0scaled then hermite' f.A0h (nth (row f.A0vals (edgePair f T e))) (nth (row f.A0ders (edgePair f T e)))
    (len (X e)) else 0
  ds1 e := if f.A1scaled then hermite' f.A1h (nth (row f.A1vals (edgePair f T e))) (nth (row f.A1ders (edgePair f T e)))
    (len (X e)) else 0
  G0 _ _ _ _ := 0
  G1 _ _ _ := 0
  gr _ _ := 0

/-- The arguments for the nodes of `T`, in arrays with `Ex` edges. -/
noncomputable def gx (T : Sys) (Ex : ℕ) (X : ℕ → ℕ → ℝ) : Graph ℝ where
  N := T.N
  types := T.types
  nn := T.nn
  idx := T.idx
  ntypes := T.ntypes
  xyz := (List.range (Ex * 3)).map (fun p => X (p / 3) (p % 3))
  r := (List.range Ex).map (fun e => len (X e))

theorem graph_gx (T : Sys) (X : ℕ → ℕ → ℝ) : T.graph X = gx T T.E X := rfl

variable {Ex : ℕ}

theorem gx_Ex : (gx T Ex X).Ex = Ex := by simp [Graph.Ex, gx]

theorem graph_ok (hT : SysIn f T NH) (hE : T.E ≤ Ex) :
    GOk (gx T Ex X) f.nT NH (confOf f sph T X) (nthN T.nn) X (fun e => len (X e)) where
  types i hi := some_nthN (lt_of_lt_of_le hi hT.types)
  typ_lt := hT.typ
  nn i hi := some_nthN (lt_of_lt_of_le hi hT.nn)
  edg i _ := rfl
  idx e he := some_nthN (lt_of_lt_of_le he hT.idx)
  nbr_lt := hT.nbr
  ntypes e he := some_nthN (lt_of_lt_of_le he hT.ntypes)
  nty_lt := hT.nty
  le := by rw [gx_Ex]; exact hE
  xyz := by rw [gx_Ex]; rfl
  r e he := by
    rw [gx_Ex] at he
    exact getElem?_tab_lt he

theorem edgePair_eq (hT : SysIn f T NH) {i e : ℕ} (hi : i < T.N) (he : e ∈ T.edg i) :
    pairIndex f.nT (nthN T.types i) (nthN T.ntypes e) = edgePair f T e ∧ edgePair f T e < (pairList f.nT).length := by
  have h := pairIndex_eq_pos (hT.typ i hi) (hT.nty e (edg_lt hi he))
  have h2 := pairIndex_lt (hT.typ i hi) (hT.nty e (edg_lt hi he))
  unfold edgePair
  rw [owner_eq hi he, ← h]
  exact ⟨rfl, h2⟩

theorem radOk_of (hT : SysIn f T NH) {spl : List (SplineSet ℝ)} {vals ders : List (List (List ℝ))} {A n : ℕ} (hA : 0 < A)
    (hf : FileOk f)
    (hspl : ∀ i < (pairList f.nT).length, ∃ s, spl[i]? = some s ∧ SplineSet.mk? f.splH (tbl vals i) (tbl ders i) = some s)
    (hr : ∀ i < (pairList f.nT).length, Rect (A * f.numChannels) n (tbl vals i) (tbl ders i))
    (hin : ∀ e < T.E, 0 < len (X e) ∧ len (X e) < f.splH * (n - 1 : ℕ)) :
    RadOk f.nT spl (A * f.numChannels) (gx T Ex X) (confOf f sph T X) (fun e => len (X e))
      (fun e p => hermite f.splH (nth (row (tbl vals (edgePair f T e)) (p / f.numChannels * f.numChannels + p % f.numChannels)))
        (nth (row (tbl ders (edgePair f T e)) (p / f.numChannels * f.numChannels + p % f.numChannels))) (len (X e)))
      (fun e p => hermite' f.splH (nth (row (tbl vals (edgePair f T e)) (p / f.numChannels * f.numChannels + p % f.numChannels)))
        (nth (row (tbl ders (edgePair f T e)) (p / f.numChannels * f.numChannels + p % f.numChannels))) (len (X e))) := by
  intro i hi e he
  obtain ⟨h1, h2⟩ := edgePair_eq hT hi he
  obtain ⟨s, h3, h4⟩ := hspl _ h2
  obtain ⟨h5, h6⟩ := hin e (edg_lt hi he)
  refine ⟨s, ?_, fun L base hL => ?_⟩
  · change spl[pairIndex f.nT (nthN T.types i) (nthN T.ntypes e)]? = some s
    rw [h1]; exact h3
  · refine (set_run hf.h (hr _ h2) (Nat.mul_pos hA hf.C) h4 h5.le h6 hL).congr ?_
    intro b p hp x
    simp only [Nat.div_add_mod']
    rfl

theorem cubOk_of (hT : SysIn f T NH) {spl : List (CubicSpline ℝ)} {h : ℝ} {vals ders : List (List ℝ)} (hh : 0 < h)
    (hv : vals.length = (pairList f.nT).length)
    (hspl : ∀ i < (pairList f.nT).length, ∃ s, spl[i]? = some s ∧ CubicSpline.mk? h (row vals i) (row ders i) = some s)
    (hr : ∀ i < (pairList f.nT).length, 0 < (row vals i).length ∧ (row vals i).length ≤ (row ders i).length)
    (hin : ∀ e < T.E, 0 < len (X e) ∧ ∀ w ∈ vals, len (X e) < h * (w.length - 1 : ℕ)) :
    SOk f.nT spl (gx T Ex X) (confOf f sph T X) (fun e => len (X e))
      (fun e => hermite h (nth (row vals (edgePair f T e))) (nth (row ders (edgePair f T e))) (len (X e)))
      (fun e => hermite' h (nth (row vals (edgePair f T e))) (nth (row ders (edgePair f T e))) (len (X e))) := by
  intro i hi e he
  obtain ⟨h1, h2⟩ := edgePair_eq hT hi he
  obtain ⟨s, h3, h4⟩ := hspl _ h2
  obtain ⟨h5, h6⟩ := hin e (edg_lt hi he)
  refine ⟨s, ?_, ?_⟩
  · change spl[pairIndex f.nT (nthN T.types i) (nthN T.ntypes e)]? = some s
    rw [h1]; exact h3
  · exact cubic_run hh (hr _ h2).2 h4 h5.le (h6 _ (row_mem (by omega)))

theorem feat_ok (hf : FileOk f) (hT : SysIn f T NH) (hP : Loaded f sph dsph P) (hX : Inside f T X) :
    FeatOk P (netOf f) (gx T Ex X) f.phil.length (confOf f sph T X) (dconfOf f dsph T X) := by
  refine ⟨?_, ?_, ?_, ?_, ?_, ?_, ?_⟩
  · intro e he lm hlm
    unfold harm
    rw [hP.sph, hP.nrm]; rfl
  · intro e he a ha lm hlm
    unfold harmD
    rw [hP.dsph, hP.nrm]; rfl
  · obtain ⟨s, h1, h2⟩ := hP.spl0 0 (pairs_pos hf)
    obtain ⟨s', h3, _, _, h4, _⟩ := SplineSet.mk?_spec f.splH (S := (f.lmax + 1) * f.numChannels) (n := f.nodes0)
      ⟨(hf.rows0 0 (pairs_pos hf)).1, (hf.rows0 0 (pairs_pos hf)).2.1, (hf.rows0 0 (pairs_pos hf)).2.2.1,
        (hf.rows0 0 (pairs_pos hf)).2.2.2⟩ (Nat.mul_pos (Nat.succ_pos _) hf.C) hf.nodes0
    rw [h2] at h3
    cases h3
    exact ⟨s, h1, h4⟩
  · rw [hP.an]
    exact radOk_of hT (Nat.succ_pos _) hf hP.spl0
      (fun i hi => ⟨(hf.rows0 i hi).1, (hf.rows0 i hi).2.1, (hf.rows0 i hi).2.2.1, (hf.rows0 i hi).2.2.2⟩)
      (fun e he => ⟨(hX e he).1, (hX e he).2.1⟩)
  · rw [hP.an]
    exact radOk_of hT hf.nP hf hP.spl1
      (fun i hi => ⟨(hf.rows1 i hi).1, (hf.rows1 i hi).2.1, (hf.rows1 i hi).2.2.1, (hf.rows1 i hi).2.2.2⟩)
      (fun e he => ⟨(hX e he).1, (hX e he).2.2.1⟩)
  · rw [hP.an, hP.A0s]
    by_cases hs : f.A0scaled = true
    · obtain ⟨h1, h2, h3, h4⟩ := hf.A0s hs
      have := cubOk_of (sph := sph) (Ex := Ex) hT h1 h2 (hP.A0spl hs) h4 (fun e he => ⟨(hX e he).1, (hX e he).2.2.2.1 hs⟩)
      have e1 : (dconfOf f dsph T X).ds0 = fun e => hermite' f.A0h (nth (row f.A0vals (edgePair f T e)))
          (nth (row f.A0ders (edgePair f T e))) (len (X e)) := by
        funext e; simp only [dconfOf, if_pos hs]
      rw [e1]
      refine Or.inl ⟨hs, _, this, fun i hi => ?_⟩
      simp only [confOf, if_pos hs]; rfl
    · refine Or.inr ⟨by simpa using hs, fun i hi => ?_, fun e => ?_⟩
      · simp only [confOf, if_neg hs]
      · simp only [dconfOf, if_neg hs]
  · rw [hP.an, hP.A1s]
    by_cases hs : f.A1scaled = true
    · obtain ⟨h1, h2, h3, h4⟩ := hf.A1s hs
      have := cubOk_of (sph := sph) (Ex := Ex) hT h1 h2 (hP.A1spl hs) h4 (fun e he => ⟨(hX e he).1, (hX e he).2.2.2.2 hs⟩)
      have e1 : (dconfOf f dsph T X).ds1 = fun e => hermite' f.A1h (nth (row f.A1vals (edgePair f T e)))
          (nth (row f.A1ders (edgePair f T e))) (len (X e)) := by
        funext e; simp only [dconfOf, if_pos hs]
      rw [e1]
      refine Or.inl ⟨hs, _, this, fun i hi => ?_⟩
      simp only [confOf, if_pos hs]; rfl
    · refine Or.inr ⟨by simpa using hs, fun i hi => ?_, fun e => ?_⟩
      · simp only [confOf, if_neg hs]
      · simp only [dconfOf, if_neg hs]

/-! ## Readout network -/

/-- Gradient of the readout network. -/
noncomputable def roGrad (f : File) (x : ℕ → ℝ) (k : ℕ) : ℝ :=
  MLP.Dk (MLP.width [f.numChannels, 16, 1]) (MLP.entry [f.numChannels, 16, 1] [f.ro2w1, f.ro2w2])
    (MLP.adv f.ro2scale (MLP.width [f.numChannels, 16, 1]) (MLP.entry [f.numChannels, 16, 1] [f.ro2w1, f.ro2w2]) (fun _ => x))
    2 1 0 k

theorem read2_eq (f : File) (x : ℕ → ℝ) : (netOf f).read2 x =
    MLP.outF (MLP.width [f.numChannels, 16, 1]) (MLP.entry [f.numChannels, 16, 1] [f.ro2w1, f.ro2w2])
      (MLP.hid f.ro2scale (MLP.width [f.numChannels, 16, 1]) (MLP.entry [f.numChannels, 16, 1] [f.ro2w1, f.ro2w2])
        (fun _ => x)) 2 0 0 := by
  rw [MLP.outF_eq]
  simp only [netOf, mlpOut, mlpHidden, MLP.width, MLP.entry, nth]
  rfl

theorem ro_ok (f : File) : ROk Real.exp (netOf f).C (netOf f).read2 (roGrad f) (RoIs f) := by
  rintro M ⟨hs, hw⟩ x
  obtain ⟨nv, nd, da, h3, l1, l2, l3⟩ := MLP.evaluateGradient_spec Real.exp hw
    (H := MLP.hid M.scale (MLP.width [f.numChannels, 16, 1]) (MLP.entry [f.numChannels, 16, 1] [f.ro2w1, f.ro2w2]) (fun _ => x))
    (Props.hid_step _ _ _ _)
    (AD := MLP.adv M.scale (MLP.width [f.numChannels, 16, 1]) (MLP.entry [f.numChannels, 16, 1] [f.ro2w1, f.ro2w2]) (fun _ => x))
    (Props.adv_step _ _ _ _) (x := tab (netOf f).C x) rfl
  have e : tab2 (MLP.width [f.numChannels, 16, 1] 2) (MLP.width [f.numChannels, 16, 1] 0)
      (MLP.Dk (MLP.width [f.numChannels, 16, 1]) (MLP.entry [f.numChannels, 16, 1] [f.ro2w1, f.ro2w2])
        (MLP.adv M.scale (MLP.width [f.numChannels, 16, 1]) (MLP.entry [f.numChannels, 16, 1] [f.ro2w1, f.ro2w2])
          (fun _ => x)) 2 (2 - 1)) = tab (netOf f).C (roGrad f x) := by
    change tab2 1 f.numChannels _ = tab f.numChannels _
    unfold tab2
    rw [Nat.one_mul]
    refine tab_congr (fun p hp => ?_)
    rw [Nat.div_eq_of_lt hp, Nat.mod_eq_of_lt hp, hs]
    rfl
  rw [e] at h3
  refine ⟨_, _, h3, ?_, ?_, ?_⟩
  · rw [read2_eq, ← hs]
    exact getElem?_tab_lt (by simp [MLP.width])
  · exact hs
  · exact hw.like ⟨rfl, rfl, rfl, by rw [l1, hw.lv], by rw [l2, hw.ld], by rw [l3, hw.la]⟩

/-! ## Pair repulsion -/

/-- Derivative of the pair repulsion of edge `e` in the distance. -/
noncomputable def zblEdgeD (f : File) (T : Sys) (X : ℕ → ℕ → ℝ) (z : ZBLModel.ZBL) (e : ℕ) : ℝ :=
  ZBLModel.zblGrad z.aExp z.aPre (fun k => nth z.c k) (nth z.rad (nthN f.atomicNumbers (nthN T.types (T.owner e)))
    + nth z.rad (nthN f.atomicNumbers (nthN T.ntypes e))) z.p.toNat (nthN f.atomicNumbers (nthN T.types (T.owner e)))
    (nthN f.atomicNumbers (nthN T.ntypes e)) (len (X e))

/-- Repulsive force on edge `e`. -/
noncomputable def zblForce (f : File) (T : Sys) (X : ℕ → ℕ → ℝ) (e a : ℕ) : ℝ :=
  match f.zbl with
  | some z => - (X e a / len (X e) * zblEdgeD f T X z e)
  | none => 0

/-- Start of `compute_node_energies_forces`, mace.cpp:27-36. -/
noncomputable def zblStart (zbl : Option ZBLModel.ZBL) (P : Params ℝ) (g : Graph ℝ) : Option (Bufs Bool ℝ) :=
  match zbl with
  | some z => z.computeZBL g.N g.types g.nn g.ntypes P.atomicNumbers g.r g.xyz
      (fun b => if b then List.replicate g.xyz.length (0 : ℝ) else List.replicate g.N (0 : ℝ))
  | none => some (fun b => if b then List.replicate g.xyz.length (0 : ℝ) else List.replicate g.N (0 : ℝ))

theorem compute_start (zbl : Option ZBLModel.ZBL) (P : Params ℝ) (g : Graph ℝ) (s : State ℝ) :
    computeNodeEnergiesForces zbl P g s = (zblStart zbl P g).bind (fun st =>
      pipeline P g { s with nodeEnergies := st false, nodeForces := st true }) := by
  cases zbl <;> rfl

theorem zbl_wf (hf : FileOk f) {z : ZBLModel.ZBL} (hz : f.zbl = some z) :
    z.WF (fun k => nth z.c k) z.p.toNat := by
  obtain ⟨h1, h2, _⟩ := hf.zbl z hz
  exact ⟨fun k => some_nth (by omega), by omega, by omega⟩

theorem zblStart_spec (hf : FileOk f) (hT : SysIn f T NH) (hP : Loaded f sph dsph P) (hE : T.E ≤ Ex) :
    ∃ st, zblStart f.zbl P (gx T Ex X) = some st ∧ st false = tab T.N (confOf f sph T X).pairE ∧
      st true = tab2 Ex 3 (fun e a => if e < T.E then zblForce f T X e a else 0) := by
  have hxyz : (gx T Ex X).xyz.length = Ex * 3 := by simp [gx]
  cases hz : f.zbl with
  | none =>
    refine ⟨_, rfl, ?_, ?_⟩
    · simp only [Bool.false_eq_true, if_false]
      rw [replicate_eq_tab]
      refine tab_congr (fun i _ => ?_)
      simp only [confOf, hz]
    · simp only [if_true]
      rw [hxyz, replicate_eq_tab]
      unfold tab2
      refine tab_congr (fun i _ => ?_)
      simp only [zblForce, hz, ite_self]
  | some z =>
    obtain ⟨_, _, hrad⟩ := hf.zbl z hz
    have hA : ∀ t < f.nT, f.atomicNumbers[t]? = some (nthN f.atomicNumbers t) := fun t ht => some_nthN ht
    have hR : ∀ t < f.nT, z.rad[nthN f.atomicNumbers t]? = some (nth z.rad (nthN f.atomicNumbers t)) :=
      fun t ht => some_nth (hrad _ (nthN_mem ht))
    have H : ZBLModel.Reads z T.N T.types T.nn T.ntypes P.atomicNumbers (gx T Ex X).r (gx T Ex X).xyz (nthN T.types)
        (nthN T.nn) (nthN T.ntypes) (nthN f.atomicNumbers) (fun e => len (X e)) X (nth z.rad) := by
      have hg := graph_ok (X := X) (sph := sph) hT hE
      rw [hP.an]
      exact ⟨hg.types, hg.nn, hg.ntypes, fun i hi => hA _ (hT.typ i hi), fun e he => hA _ (hT.nty e he),
        fun e he => hg.r_get he, fun e he a ha => hg.xyz_get' he ha, fun i hi => hR _ (hT.typ i hi), fun e he => hR _ (hT.nty e he)⟩
    obtain ⟨st, h1, h2, h3, -, h4, h5⟩ := ZBLModel.computeZBL_run (zbl_wf hf hz) H
      (fun b => if b then List.replicate (gx T Ex X).xyz.length (0 : ℝ) else List.replicate (gx T Ex X).N (0 : ℝ))
      (by simp [gx]) (by simp only [if_true, List.length_replicate, hxyz]; have := hE; unfold Sys.E at this; unfold off; omega)
    refine ⟨st, h1, ?_, ?_⟩
    · rw [eq_tab_iff]
      refine ⟨by rw [h2]; simp [gx], fun i hi => ?_⟩
      rw [h3 i hi]
      simp only [Bool.false_eq_true, if_false]
      rw [List.getElem?_replicate, if_pos (show i < (gx T Ex X).N from hi), Option.map_some, zero_add,
        sum_edges (K := ℝ) (nn := T.nn) (some_nthN (lt_of_lt_of_le hi hT.nn)) (ZBLModel.pairE z _ _ _ _ _ _ _ i)]
      congr 1
      simp only [confOf, hz]
      refine Finset.sum_congr rfl (fun e he => ?_)
      unfold ZBLModel.pairE zblEdge
      rw [owner_eq hi he]
    · rw [eq_tab2_iff]
      refine ⟨by rw [h2]; simp only [if_true, List.length_replicate, hxyz], fun e he a ha => ?_⟩
      by_cases heE : e < T.E
      swap
      · rw [if_neg heE]
        have hq := h5 (e * 3 + a) (by unfold Sys.E at heE; unfold off; omega)
        rw [hq]
        simp only [if_true]
        rw [List.getElem?_replicate, if_pos (by rw [hxyz]; exact flat_lt he ha)]
      rw [if_pos heE]
      obtain ⟨hi, hmem⟩ := owner_spec heE
      obtain ⟨j, hj, ej⟩ := (mem_edges (some_nthN (lt_of_lt_of_le hi hT.nn))).mp hmem
      have := h4 _ hi j hj a ha
      rw [← ej, mul_comm 3] at this
      rw [this]
      simp only [if_true]
      rw [List.getElem?_replicate, if_pos (by rw [hxyz]; exact flat_lt he ha), Option.map_some, zero_sub]
      congr 1
      simp only [zblForce, hz]
      rfl

/-! ## The whole evaluation -/

/-- Force on edge `e`. -/
noncomputable def forceOf (f : File) (sph : ℝ → ℝ → ℝ → ℕ → ℝ) (dsph : ℝ → ℝ → ℝ → ℕ → ℕ → ℝ) (T : Sys) (X : ℕ → ℕ → ℝ)
    (e a : ℕ) : ℝ :=
  zblForce f T X e a + forceL2 (netOf f) (confOf f sph T X) (dconfOf f dsph T X) (h1 (netOf f) (confOf f sph T X)) (roGrad f)
      (T.owner e) e a
    + forceL1 (netOf f) (confOf f sph T X) (dconfOf f dsph T X)
        (H1adj (netOf f) (confOf f sph T X) T.N (h1 (netOf f) (confOf f sph T X)) (roGrad f)) (T.owner e) e a

theorem compute_spec (hf : FileOk f) (hT : SysOk f T) (hP : Loaded f sph dsph P) (hX : Inside f T X) {s : State ℝ}
    (hs : StOk f s) :
    ∃ s', computeNodeEnergiesForces f.zbl P (T.graph X) s = some s' ∧
      s'.nodeEnergies = tab T.N (energy (netOf f) (confOf f sph T X)) ∧
      s'.nodeForces = tab2 T.E 3 (forceOf f sph dsph T X) ∧ StOk f s' := by
  rw [graph_gx]
  obtain ⟨st, h1, h2, h3⟩ := zblStart_spec (X := X) hf hT hP (le_refl T.E)
  rw [compute_start, h1, Option.bind_some]
  have hg : GOk (gx T T.E X) f.nT (gx T T.E X).N (confOf f sph T X) (nthN T.nn) (dconfOf f dsph T X).X (dconfOf f dsph T X).R :=
    graph_ok hT le_rfl
  obtain ⟨s', e1, e2, e3, e4, e5, e6⟩ := pipeline_spec (s := { s with nodeEnergies := st false, nodeForces := st true })
    hP.wok hg (feat_ok hf hT hP hX)
    (by rw [hP.ex]; exact ro_ok f) hs.P0 hs.P1 hs.ro2 h2 (by rw [gx_Ex]; exact h3)
  refine ⟨s', e1, e2, ?_, e4, e5, e6⟩
  rw [e3, gx_Ex]
  refine tab2_congr (fun e he a ha => ?_)
  rw [if_pos he]
  unfold onE
  rw [if_pos (show e < off (gx T T.E X).nn (gx T T.E X).N from he), if_pos (show e < off (gx T T.E X).nn (gx T T.E X).N from he),
    show own (gx T T.E X).nn (gx T T.E X).N e = T.owner e from own_owner he]
  rfl

end Verif.MACE
