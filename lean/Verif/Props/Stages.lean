import Verif.Lemmas.MACE.StageGeom
import Verif.Props.MACEExample

/-! # C104, C105: every stage on its own

The Python bindings (symmetrix/source/cpp/mace.cpp) and the pair styles call the stages of the evaluator one by one, with buffers
set by the caller. The theorems say what each reverse stage delivers for arbitrary contents of the buffers it reads: the exact
derivative of the weighted outputs of the forward stage. `T` has `T.N` nodes, the neighbours are among `NH` nodes (`NH = T.N` in
the Python interface; `NH` includes the ghost atoms in the pair styles). `W = netOf f` supplies the sizes: `C` channels,
`M = (l_max+1)²`, `LM = (L_max+1)²`, `nOut` rows of `Phi1`. -/

namespace Verif.Props
open Verif.MACE Verif.Spec

variable {f : File} {sph : ℝ → ℝ → ℝ → ℕ → ℝ} {dsph : ℝ → ℝ → ℝ → ℕ → ℕ → ℝ} {srt : List (List (List ℕ)) → List (List (List ℕ))}
  {P : Params ℝ} {s0 s : State ℝ} {T : Sys} {X : ℕ → ℕ → ℝ} {NH : ℕ}

theorem loaded_of (hf : FileOk f) (hsrt : Poly.SortFn srt) (hL : load srt sph dsph f = some (P, s0)) :
    Loaded f sph dsph P ∧ StOk f s0 := by
  obtain ⟨P', s0', h1, h2, h3⟩ := load_spec hf hsrt sph dsph
  rw [hL] at h1
  cases h1
  exact ⟨h2, h3⟩

/-- C104, products and linear maps: `reverse_M0`, `reverse_H1`, `reverse_A1`, `reverse_M1`. -/
theorem C104_buffers (hf : FileOk f) (hsrt : Poly.SortFn srt) (hL : load srt sph dsph f = some (P, s0)) (hs : Hist f P s0 s)
    (hT : SysIn f T NH) :
    Transposed (computeM0 P (T.graph X)) (reverseM0 P (T.graph X)) (fun x s => { s with A0 := x }) (·.M0)
      (fun w s => { s with M0a := w }) (·.A0a) (T.N * (netOf f).M * (netOf f).C) (T.N * (netOf f).LM * (netOf f).C) s ∧
    Transposed (computeH1 P (T.graph X)) (reverseH1 P (T.graph X)) (fun x s => { s with M0 := x }) (·.H1)
      (fun w s => { s with H1a := w }) (·.M0a) (T.N * (netOf f).LM * (netOf f).C) (T.N * (netOf f).LM * (netOf f).C) s ∧
    Transposed (computeA1 P (T.graph X)) (reverseA1 P (T.graph X)) (fun x s => { s with Phi1 := x }) (·.A1)
      (fun w s => { s with A1a := w }) (·.dPhi1) (T.N * (netOf f).nOut * (netOf f).C) (T.N * (netOf f).M * (netOf f).C) s ∧
    Transposed (computeM1 P (T.graph X)) (reverseM1 P (T.graph X)) (fun x s => { s with A1 := x }) (·.M1)
      (fun w s => { s with M1a := w }) (·.A1a) (T.N * (netOf f).M * (netOf f).C) (T.N * (netOf f).C) s := by
  obtain ⟨h2, h3⟩ := loaded_of hf hsrt hL
  have hs := hs.ok hf h2 h3
  exact ⟨tr_M0 hf hT h2 hs, tr_H1 h2 s, tr_A1 h2 s, tr_M1 hf hT h2 hs⟩

/-- C104, `reverse_H2`: the gradient in `M1` is stored, the one in `H1` is added to zeros (`zero_H1_adj`) or to the old adjoints. -/
theorem C104_H2 (hf : FileOk f) (hsrt : Poly.SortFn srt) (hL : load srt sph dsph f = some (P, s0))
    (hT : SysIn f T NH) (hN : T.N ≤ NH) (s : State ℝ) (z : Bool) {H m w old : List ℝ}
    (hH : H.length = NH * (netOf f).LM * (netOf f).C) (hm : m.length = T.N * (netOf f).C) (hw : w.length = T.N * (netOf f).C)
    (ho : z = false → old.length = NH * (netOf f).LM * (netOf f).C) :
    ∃ s1 s2 G, computeH2 P (T.graph X) { s with H1 := H, M1 := m } = some s1 ∧
      reverseH2 P (T.graph X) z { s1 with H2a := w, H1a := old } = some s2 ∧
      s2.H1a = plus (startOf z old H.length) G ∧
      IsGrad (fun x => (computeH2 P (T.graph X) { s with H1 := x, M1 := m }).map (·.H2)) H w G ∧
      IsGrad (fun x => (computeH2 P (T.graph X) { s with H1 := H, M1 := x }).map (·.H2)) m w s2.M1a :=
  tr_H2 hT hN (loaded_of hf hsrt hL).1 s z hH hm hw ho

/-- C104, `compute_readouts`: the adjoints it stores are the gradients of the sum of the node energies. -/
theorem C104_readouts (hf : FileOk f) (hsrt : Poly.SortFn srt) (hL : load srt sph dsph f = some (P, s0)) (hs : Hist f P s0 s)
    (hT : SysIn f T NH) (hN : T.N ≤ NH) {H h E : List ℝ}
    (hH : H.length = NH * (netOf f).LM * (netOf f).C) (hh : h.length = T.N * (netOf f).C) (hE : E.length = T.N) :
    ∃ s1, computeReadouts P (T.graph X) { s with H1 := H, H2 := h, nodeEnergies := E } = some s1 ∧
      IsGrad (fun x => (computeReadouts P (T.graph X) { s with H1 := x, H2 := h, nodeEnergies := E }).map (·.nodeEnergies)) H
        (List.replicate T.N 1) s1.H1a ∧
      IsGrad (fun x => (computeReadouts P (T.graph X) { s with H1 := H, H2 := x, nodeEnergies := E }).map (·.nodeEnergies)) h
        (List.replicate T.N 1) s1.H2a := by
  obtain ⟨h2, h3⟩ := loaded_of hf hsrt hL
  exact tr_readouts hT hN h2 (hs.ok hf h2 h3) hH hh hE

/-- C104, `reverse_A0`: minus the gradient in the bond vectors is added to the forces. -/
theorem C104_A0 (hf : FileOk f) (hsrt : Poly.SortFn srt) (hL : load srt sph dsph f = some (P, s0))
    (hsph : IsSphGrad sph dsph ((f.lmax + 1) * (f.lmax + 1))) (hT : SysIn f T NH) (hX : Inside f T X) (s : State ℝ) {w F : List ℝ}
    (hw : w.length = T.N * (netOf f).M * (netOf f).C) (hF : F.length = T.E * 3) :
    ∃ s1 s2 G, toA0 P (T.graph X) s = some s1 ∧
      reverseA0 P (T.graph X) { s1 with A0a := w, nodeForces := F } = some s2 ∧ s2.nodeForces = plus F G ∧
      IsMinusGradX T.E (fun X => (toA0 P (T.graph X) s).map (·.A0)) X w G :=
  tr_A0 hf hT (loaded_of hf hsrt hL).1 hsph hX s hw hF

/-- C104, `reverse_A0_scaled`: in the bond vectors and in the buffer. -/
theorem C104_A0_scaled (hf : FileOk f) (hsrt : Poly.SortFn srt) (hL : load srt sph dsph f = some (P, s0))
    (hT : SysIn f T NH) (hX : Inside f T X) (hn : ScalesNonzero f sph T X) (s : State ℝ) {A w F : List ℝ}
    (hA : A.length = T.N * (netOf f).M * (netOf f).C) (hw : w.length = T.N * (netOf f).M * (netOf f).C) (hF : F.length = T.E * 3) :
    ∃ s1 s2 G, computeA0Scaled P (T.graph X) { s with A0 := A } = some s1 ∧
      reverseA0Scaled P (T.graph X) { s1 with A0a := w, nodeForces := F } = some s2 ∧ s2.nodeForces = plus F G ∧
      IsMinusGradX T.E (fun X => (computeA0Scaled P (T.graph X) { s with A0 := A }).map (·.A0)) X w G ∧
      IsGrad (fun x => (computeA0Scaled P (T.graph X) { s with A0 := x }).map (·.A0)) A w s2.A0a :=
  tr_A0Scaled hf hT (loaded_of hf hsrt hL).1 hX (fun i hi => (hn i hi).1) s hA hw hF

/-- C104, `reverse_Phi1` with its flags `zero_dxyz` and `zero_H1_adj`. -/
theorem C104_Phi1 (hf : FileOk f) (hsrt : Poly.SortFn srt) (hL : load srt sph dsph f = some (P, s0))
    (hsph : IsSphGrad sph dsph ((f.lmax + 1) * (f.lmax + 1))) (hT : SysIn f T NH) (hX : Inside f T X) (s : State ℝ) (zf zh : Bool)
    {H w F old : List ℝ} (hH : H.length = NH * (netOf f).LM * (netOf f).C) (hw : w.length = T.N * (netOf f).nOut * (netOf f).C)
    (hF : zf = false → F.length = T.E * 3) (ho : zh = false → old.length = NH * (netOf f).LM * (netOf f).C) :
    ∃ s1 s2 G Gh, toPhi1 P (T.graph X) { s with H1 := H } = some s1 ∧
      reversePhi1 P (T.graph X) zf zh { s1 with dPhi1 := w, nodeForces := F, H1a := old } = some s2 ∧
      s2.nodeForces = plus (startOf zf F (T.E * 3)) G ∧ s2.H1a = plus (startOf zh old (NH * (netOf f).LM * (netOf f).C)) Gh ∧
      IsMinusGradX T.E (fun X => (toPhi1 P (T.graph X) { s with H1 := H }).map (·.Phi1)) X w G ∧
      IsGrad (fun x => (toPhi1 P (T.graph X) { s with H1 := x }).map (·.Phi1)) H w Gh :=
  tr_Phi1 hf hT (loaded_of hf hsrt hL).1 hsph hX s zf zh hH hw hF ho

/-- C104, `reverse_A1_scaled`, accumulating (`zero_dxyz = false`). -/
theorem C104_A1_scaled (hf : FileOk f) (hsrt : Poly.SortFn srt) (hL : load srt sph dsph f = some (P, s0))
    (hT : SysIn f T NH) (hX : Inside f T X) (hn : ScalesNonzero f sph T X) (s : State ℝ) {A w F : List ℝ}
    (hA : A.length = T.N * (netOf f).M * (netOf f).C) (hw : w.length = T.N * (netOf f).M * (netOf f).C) (hF : F.length = T.E * 3) :
    ∃ s1 s2 G, computeA1Scaled P (T.graph X) { s with A1 := A } = some s1 ∧
      reverseA1Scaled P (T.graph X) false { s1 with A1a := w, nodeForces := F } = some s2 ∧ s2.nodeForces = plus F G ∧
      IsMinusGradX T.E (fun X => (computeA1Scaled P (T.graph X) { s with A1 := A }).map (·.A1)) X w G ∧
      IsGrad (fun x => (computeA1Scaled P (T.graph X) { s with A1 := x }).map (·.A1)) A w s2.A1a :=
  tr_A1Scaled hf hT (loaded_of hf hsrt hL).1 hX (fun i hi => (hn i hi).2) s false hA hw (fun _ => hF)

/-! ## C105: `reverse_A1_scaled` with `zero_dxyz` -/

/-- After `reverse_A1_scaled` with `zero_dxyz` (the default, and what the Python binding does) the forces are those of this stage,
whatever they were. -/
def A1ScaledClears (f : File) (sph : ℝ → ℝ → ℝ → ℕ → ℝ) (P : Params ℝ) (s0 : State ℝ) : Prop :=
  ∀ s, Hist f P s0 s → ∀ T, SysOk f T → ∀ X, Inside f T X → ScalesNonzero f sph T X → ∀ A w F : List ℝ,
    A.length = T.N * (netOf f).M * (netOf f).C → w.length = T.N * (netOf f).M * (netOf f).C → F.length = T.E * 3 →
    ∃ s1 s2, computeA1Scaled P (T.graph X) { s with A1 := A } = some s1 ∧
      reverseA1Scaled P (T.graph X) true { s1 with A1a := w, nodeForces := F } = some s2 ∧
      IsMinusGradX T.E (fun X => (computeA1Scaled P (T.graph X) { s with A1 := A }).map (·.A1)) X w s2.nodeForces

/-- C105 holds for files with a normalisation of the second layer. Missing: files without it, see `C105_violated`. -/
theorem C105_clears_partial (hf : FileOk f) (hsrt : Poly.SortFn srt) (hL : load srt sph dsph f = some (P, s0))
    (hsc : f.A1scaled = true) : A1ScaledClears f sph P s0 := by
  intro s hs T hT X hX hn A w F hA hw hF
  obtain ⟨s1, s2, G, h1, h2, h3, h4, -⟩ := tr_A1Scaled hf hT (loaded_of hf hsrt hL).1 hX (fun i hi => (hn i hi).2) s true hA hw
    (fun _ => hF)
  refine ⟨s1, s2, h1, h2, ?_⟩
  have hG : s2.nodeForces = G := by
    obtain ⟨g, rfl⟩ := ex_tab2 h4.1
    rw [h3, hsc]
    show plus (List.replicate (T.E * 3) 0) _ = _
    rw [← zeros_tab2, plus_tab2]
    exact tab2_congr (fun _ _ _ _ => zero_add _)
  rw [hG]
  exact h4

/-- C105 fails for files without that normalisation: the call returns before clearing, and forces of 1 stay. -/
theorem C105_violated : ∃ (f : File) (sph : ℝ → ℝ → ℝ → ℕ → ℝ) (dsph : ℝ → ℝ → ℝ → ℕ → ℕ → ℝ)
    (srt : List (List (List ℕ)) → List (List (List ℕ))), FileOk f ∧ Poly.SortFn srt ∧
    IsSphGrad sph dsph ((f.lmax + 1) * (f.lmax + 1)) ∧ ∃ P s0, load srt sph dsph f = some (P, s0) ∧ ¬ A1ScaledClears f sph P s0 := by
  obtain ⟨P, s0, h1, h2, h3⟩ := load_spec exFile_ok exSort exSph exDsph
  refine ⟨exFile, exSph, exDsph, _, exFile_ok, exSort, exSph_ok, P, s0, h1, fun h => ?_⟩
  obtain ⟨s1, s2, e1, e2, e3, e4⟩ := h s0 .init exSys exSys_ok exX exInside exScales
    (List.replicate (exSys.N * (netOf exFile).M * (netOf exFile).C) 0) (List.replicate (exSys.N * (netOf exFile).M * (netOf exFile).C) 0)
    (List.replicate (exSys.E * 3) 1) (by simp) (by simp) (by simp)
  have hsc : P.A1scaled = false := by rw [h2.A1s]; rfl
  have hF : s2.nodeForces = List.replicate (exSys.E * 3) 1 := by
    unfold reverseA1Scaled at e2
    rw [if_neg (by simp [hsc])] at e2
    cases e2
    rfl
  obtain ⟨y, k1, k2⟩ := e4 (fun e a => if e = 0 ∧ a = 0 then 1 else 0)
  have hy : ∀ b : List ℝ, dot (List.replicate (exSys.N * (netOf exFile).M * (netOf exFile).C) 0) b = 0 := by
    intro b
    unfold dot
    generalize exSys.N * (netOf exFile).M * (netOf exFile).C = n
    induction n generalizing b with
    | zero => simp
    | succ n ih =>
      cases b with
      | nil => simp
      | cons x b => rw [List.replicate_succ, List.zipWith_cons_cons, List.sum_cons, ih]; simp
  simp only [hy] at k2
  have := k2.unique (hasDerivAt_const _ _)
  rw [hF] at this
  have hE : exSys.E = 2 := rfl
  rw [hE] at this
  simp [Finset.sum_range_succ] at this

/-- The hypotheses are met by the example file and system, in a state with arbitrary buffers, with more nodes than centres. -/
example : ∃ srt P s0, load srt exSph exDsph exFile = some (P, s0) ∧ FileOk exFile ∧ Poly.SortFn srt ∧ SysIn exFile exSys 5 ∧
    exSys.N ≤ 5 ∧ Inside exFile exSys exX ∧ ScalesNonzero exFile exSph exSys exX ∧
    Hist exFile P s0 { s0 with A0 := [1, 2], M0a := [3] } := by
  obtain ⟨P, s0, h1, -, -⟩ := load_spec exFile_ok exSort exSph exDsph
  refine ⟨_, P, s0, h1, exFile_ok, exSort, ?_, by decide, exInside, exScales, .buffers .init rfl rfl rfl⟩
  exact ⟨exSys_ok.types, exSys_ok.typ, exSys_ok.nn, exSys_ok.idx, fun e he => (exSys_ok.nbr e he).trans (by decide), exSys_ok.ntypes,
    exSys_ok.nty⟩

/-- The example file with a normalisation of the second layer like that of the first. -/
noncomputable def exFileS : File := { exFile with A1scaled := true, A1h := exFile.A0h, A1vals := exFile.A0vals, A1ders := exFile.A0ders }

/-- The hypothesis of `C105_clears_partial` is met by a file that satisfies the format. -/
example : FileOk exFileS ∧ exFileS.A1scaled = true :=
  ⟨{ exFile_ok with A1s := fun _ => exFile_ok.A0s rfl }, rfl⟩

end Verif.Props
