import Verif.Lemmas.Kokkos.LoadSpec
import Verif.Lemmas.Kokkos.ZBL

/-! # The whole evaluation by `MACEKokkos` -/

namespace Verif.Kokkos
open Verif.Par Verif.Par.Prog Verif.MACE Verif.Spec Verif.Spline

variable {f : File} {ne : ℕ} {T : Sys} {NH : ℕ} {X : ℕ → ℕ → ℝ} {sph : ℝ → ℝ → ℝ → ℕ → ℝ} {dsph : ℝ → ℝ → ℝ → ℕ → ℕ → ℝ} {P : Params ℝ}

theorem scK_of (hT : SysIn f T NH) {b : Bool} {h : ℝ} {vals ders : List (List ℝ)} {spl : Option (RadialSet ℝ)} {sc dv : ℕ → ℝ}
    (hh : b = true → 0 < h) (h0 : b = true → 0 < vals.length)
    (hspl : (b = false → spl = none) ∧ (b = true → ∃ s, spl = some s ∧ SetOk s h (pairList f.nT).length
      (row vals 0).length 1 (fun a _ i => nth (row vals a) i) (fun a _ i => nth (row ders a) i)))
    (hin : ∀ e < T.E, 0 < len (X e) ∧ (b = true → ∀ w ∈ vals, len (X e) < h * (w.length - 1 : ℕ)))
    (hsc : ∀ i, sc i = if b then 1 + ∑ e ∈ T.edg i, hermite h (nth (row vals (edgePair f T e))) (nth (row ders (edgePair f T e))) (len (X e)) else 1)
    (hdv : ∀ e, dv e = if b then hermite' h (nth (row vals (edgePair f T e))) (nth (row ders (edgePair f T e))) (len (X e)) else 0) :
    ScK spl (gx T T.E X) (confOf f sph T X) (fun e => len (X e)) sc dv := by
  cases b with
  | false =>
    rw [hspl.1 rfl]
    exact ⟨fun i _ => by simpa using hsc i, fun e => by simpa using hdv e⟩
  | true =>
    obtain ⟨s, rfl, k1, k2, k3, k4⟩ := hspl.2 rfl
    have hr := radOkK_set (sph := sph) (Ex := T.E) hT (hh rfl) (fun e he => ⟨(hin e he).1, (hin e he).2 rfl _ (row_mem (h0 rfl))⟩) k1 k2 k4
    refine ⟨k3, fun e => hermite h (nth (row vals (edgePair f T e))) (nth (row ders (edgePair f T e))) (len (X e)), ?_, ?_⟩
    · have e1 : dv = fun e => hermite' h (nth (row vals (edgePair f T e))) (nth (row ders (edgePair f T e))) (len (X e)) := by
        funext e; simpa using hdv e
      rw [e1]
      exact hr
    · intro i _
      have := hsc i
      rw [if_pos rfl] at this
      exact this

theorem kfeat (hf : FileOk f) (hT : SysIn f T NH) (hP : LoadedK f sph dsph P) (hX : Inside f T X) :
    KFeat P (netOf f) (gx T T.E X) f.phil.length (confOf f sph T X) (dconfOf f dsph T X) := by
  have hp := pairs_pos hf
  refine ⟨?_, hP.R1.2.2.1, ?_, ?_, ?_, ?_, ?_⟩
  · rw [hP.R0h, hP.an]
    exact radOkK_fold hT hf.C hf.h (fun e he => ⟨(hX e he).1, (hX e he).2.1⟩) hP.R0
  · obtain ⟨k1, k2, k3, k4⟩ := hP.R1
    have := radOkK_set (sph := sph) (Ex := T.E) hT hf.h (fun e he => ⟨(hX e he).1, (hX e he).2.2.1⟩) k1 k2 k4
    have e1 : ∀ p, p / (netOf f).C * f.numChannels + p % (netOf f).C = p := fun p => Nat.div_add_mod' p _
    simp only [confOf, dconfOf, e1]
    exact this
  · intro e he lm hlm
    rw [hP.sph, hP.nrm]; rfl
  · intro e he a ha lm hlm
    rw [hP.dsph, hP.nrm]; rfl
  · exact scK_of hT (fun h => (hf.A0s h).1) (fun h => by rw [(hf.A0s h).2.1]; exact hp) hP.A0 (fun e he => ⟨(hX e he).1, (hX e he).2.2.2.1⟩)
      (fun i => rfl) (fun e => rfl)
  · exact scK_of hT (fun h => (hf.A1s h).1) (fun h => by rw [(hf.A1s h).2.1]; exact hp) hP.A1 (fun e he => ⟨(hX e he).1, (hX e he).2.2.2.2⟩)
      (fun i => rfl) (fun e => rfl)

/-! ## State between calls -/

/-- A one-dimensional view. -/
def Vec {K : Type} (v : View K) : Prop := v.Ok ∧ ∃ x, v.ext = [x]

/-- Invariant of the object between calls. -/
def StOkK (f : File) (P : Params ℝ) (s : State ℝ) : Prop :=
  KSt P (netOf f) f.phil.length 2 s ∧ Vec s.energies ∧ Vec s.forces

theorem init_ok (f : File) (P : Params ℝ) : StOkK f P (State.init ℝ) := by
  have r1 : ∀ ns, Room (⟨[0], []⟩ : View ℝ) ns 0 := fun ns => ⟨rfl, 0, [], rfl, le_rfl, Or.inl rfl⟩
  have r2 : ∀ ns, Room (⟨[0, 0], []⟩ : View ℝ) ns 0 := fun ns => ⟨rfl, 0, [0], rfl, le_rfl, Or.inl rfl⟩
  have r3 : ∀ ns, Room (⟨[0, 0, 0], []⟩ : View ℝ) ns 0 := fun ns => ⟨rfl, 0, [0, 0], rfl, le_rfl, Or.inl rfl⟩
  have m2 : M2 (⟨[0, 0], []⟩ : View ℝ) := ⟨rfl, 0, 0, rfl⟩
  refine ⟨⟨⟨r2 _, r2 _, le_rfl⟩, ⟨r2 _, r2 _, le_rfl⟩, ⟨0, le_rfl, rfl, rfl, rfl, rfl, rfl, rfl⟩, r1 _, r3 _, r3 _, ⟨r2 _, r2 _, le_rfl⟩, r3 _, r3 _,
    fun _ _ => r3 _, fun _ _ => r3 _, r3 _, r3 _, r3 _, r3 _, r3 _, r3 _, r3 _, r3 _, ⟨r2 _, r2 _, le_rfl⟩, r2 _, r2 _, r3 _, r3 _, m2, m2, r1 _,
    fun _ _ => m2, fun _ _ => m2⟩, ⟨rfl, 0, rfl⟩, ⟨rfl, 0, rfl⟩⟩

theorem fill_cells {v : View ℝ} {n x : ℕ} (hv : v.Ok) (he : v.ext = [x]) (hn : n ≤ x) : All (v.fill 0) n (fun _ => 0) := by
  have h : (v.fill 0).ext = [x] := he
  have hx : v.data.length = x := by
    have : v.data.length = v.ext.prod := hv
    rw [this, he]; simp
  refine ⟨?_, x, h, hn, fun p hp => ?_⟩
  · unfold View.Ok
    rw [h]
    simp [View.fill, hx]
  · unfold View.get
    rw [h, flat_one hp, Option.bind_some]
    unfold View.fill
    dsimp only
    rw [hx, List.getElem?_replicate, if_pos hp]

theorem start_one {N : ℕ} {v : View ℝ} (hv : Vec v) : All ((if v.ext.prod < N then View.new [N] 0 else v).fill 0) N (fun _ => 0) := by
  obtain ⟨ho, x, hx⟩ := hv
  split
  · exact fill_cells (View.new_ok _ _) rfl le_rfl
  · rename_i h
    refine fill_cells ho hx ?_
    rw [hx] at h
    simpa using h

theorem start_spec {N E3 : ℕ} {v w : View ℝ} (hv : Vec v) (hw : Vec w) :
    All (startOutputs N E3 v w).1 N (fun _ => 0) ∧ All (startOutputs N E3 v w).2 E3 (fun _ => 0) := ⟨start_one hv, start_one hw⟩

theorem All.vec {v : View ℝ} {n : ℕ} {g : ℕ → ℝ} (h : All v n g) : Vec v := by
  obtain ⟨h1, x, h2, -⟩ := h
  exact ⟨h1, x, h2⟩

/-- Pair repulsion on cleared outputs. -/
theorem zbl_spec (V : Env ℝ) (hf : FileOk f) (hT : SysIn f T NH) (hP : LoadedK f sph dsph P) {energies forces : View ℝ} {Ex : ℕ}
    (hEx : T.E ≤ Ex) (hE : All energies T.N (fun _ => 0)) (hF : All forces (3 * Ex) (fun _ => 0)) :
    ∃ o : View ℝ × View ℝ, (match f.zbl with
        | some z => computeZBL V z P.atomicNumbers (gx T Ex X) energies forces
        | none => some (energies, forces) : Option (View ℝ × View ℝ)) = some o ∧
      All o.1 T.N (fun i => if i < T.N then (confOf f sph T X).pairE i else 0) ∧
      Fc o.2 Ex (fun e a => if e < T.E then zblForce f T X e a else 0) := by
  cases hz : f.zbl with
  | none =>
    refine ⟨_, rfl, hE.congr (fun i => ?_), hF.congr (fun p => ?_)⟩
    · simp only [confOf, hz, ite_self]
    · simp only [zblForce, hz, ite_self]
  | some z =>
    obtain ⟨_, _, hrad⟩ := hf.zbl z hz
    have hR : ∀ t < f.nT, z.rad[nthN f.atomicNumbers t]? = some (nth z.rad (nthN f.atomicNumbers t)) :=
      fun t ht => some_nth (hrad _ (nthN_mem ht))
    have hg : GOk (gx T Ex X) f.nT NH (confOf f sph T X) (nthN T.nn) X (fun e => len (X e)) := graph_ok hT hEx
    obtain ⟨w, u, k1, k2, k3⟩ := computeZBL_spec V hg (z := z) (an := P.atomicNumbers) (Z := nthN f.atomicNumbers)
      (by rw [hP.an]; exact fun t ht => some_nthN ht)
      (fun i hi e he => ZBLModel.compute_eq (zbl_wf hf hz) (hR _ (hT.typ i hi)) (hR _ (hT.nty e (edg_lt hi he))) _)
      (fun i hi e he => ZBLModel.computeGradient_eq (zbl_wf hf hz) (hR _ (hT.typ i hi)) (hR _ (hT.nty e (edg_lt hi he))) _)
      (e0 := fun _ => 0) (F := fun _ _ => 0) hE (by rw [gx_Ex]; exact hF)
    rw [gx_Ex] at k3
    refine ⟨_, k1, k2.congr (fun i => ?_), All.congr k3 (fun p => ?_)⟩
    · rw [zero_add]
      by_cases hi : i < T.N
      · rw [if_pos hi, if_pos (show i < (gx T Ex X).N from hi)]
        simp only [confOf, hz]
        refine Finset.sum_congr rfl (fun e he => ?_)
        unfold zblEdge
        rw [owner_eq hi he]
      · rw [if_neg hi, if_neg (show ¬ i < (gx T Ex X).N from hi)]
    · dsimp only
      rw [zero_add]
      unfold onE
      by_cases he : p / 3 < T.E
      · rw [if_pos he, if_pos (show p / 3 < off (gx T Ex X).nn (gx T Ex X).N from he), show own (gx T Ex X).nn (gx T Ex X).N (p / 3) = T.owner (p / 3) from own_owner he]
        simp only [zblForce, hz]
        rfl
      · rw [if_neg he, if_neg (show ¬ p / 3 < off (gx T Ex X).nn (gx T Ex X).N from he)]

/-- One evaluation: for every environment, the outputs are the energies and forces of the specification, followed by zeros. -/
theorem compute_spec (V : Env ℝ) (hf : FileOk f) (hT : SysOk f T) (hP : LoadedK f sph dsph P) (hX : Inside f T X) {s : State ℝ}
    (hs : StOkK f P s) :
    ∃ s', compute V P f.zbl (T.graph X) s = some s' ∧ StOkK f P s' ∧
      All s'.energies T.N (fun i => if i < T.N then energy (netOf f) (confOf f sph T X) i else 0) ∧
      Fc s'.forces T.E (fun e a => if e < T.E then forceOf f sph dsph T X e a else 0) := by
  rw [graph_gx]
  obtain ⟨hs1, hs2, hs3⟩ := hs
  have hx3 : (gx T T.E X).xyz.length = 3 * T.E := by simp [gx, mul_comm]
  obtain ⟨z1, z2⟩ := start_spec (N := T.N) (E3 := 3 * T.E) hs2 hs3
  obtain ⟨o, o1, o2, o3⟩ := zbl_spec V hf hT hP (X := X) le_rfl z1 z2
  have hg : GOk (gx T T.E X) f.nT (gx T T.E X).N (confOf f sph T X) (nthN T.nn) (dconfOf f dsph T X).X (dconfOf f dsph T X).R :=
    graph_ok hT le_rfl
  obtain ⟨s', k1, k2, k3, k4⟩ := evalRest_spec V hP.wok hg gx_Ex (kfeat hf hT hP hX) hs1 (energies := o.1) (forces := o.2) o2
    (by rw [gx_Ex]; exact o3)
  rw [gx_Ex] at k4
  refine ⟨s', ?_, ⟨k2, k3.vec, All.vec k4⟩, k3.congr (fun i => ?_), All.congr k4 (fun p => ?_)⟩
  · unfold compute
    dsimp only
    rw [hx3]
    exact (bind_of_some o1 _).trans k1
  · by_cases hi : i < T.N
    · rw [if_pos hi, if_pos hi, if_pos (show i < (gx T T.E X).N from hi)]
      unfold energy nodeE
      ring
    · rw [if_neg hi, if_neg hi, if_neg (show ¬ i < (gx T T.E X).N from hi), add_zero]
  · dsimp only
    unfold onE
    by_cases he : p / 3 < T.E
    · rw [if_pos he, if_pos he, if_pos (show p / 3 < off (gx T T.E X).nn (gx T T.E X).N from he),
        if_pos (show p / 3 < off (gx T T.E X).nn (gx T T.E X).N from he), show own (gx T T.E X).nn (gx T T.E X).N (p / 3) = T.owner (p / 3) from own_owner he]
      rfl
    · rw [if_neg he, if_neg he, if_neg (show ¬ p / 3 < off (gx T T.E X).nn (gx T T.E X).N from he),
        if_neg (show ¬ p / 3 < off (gx T T.E X).nn (gx T T.E X).N from he)]
      ring

end Verif.Kokkos
