import Verif.Lemmas.Num.SameAll
import Verif.Lemmas.Num.Safety

/-! # A loaded object fits a well-formed system -/

namespace Verif.Num
open Verif.Spline Verif.MACE Verif.Spec

variable {K : Type} [A : Arith K] {φ : ℝ → K} {sph : K → K → K → ℕ → K} {dsph : K → K → K → ℕ → ℕ → K} {nrm : K} {f : File}
  {srt : List (List (List ℕ)) → List (List (List ℕ))} {P : Params K} {s0 : State K} {P' : Params ℝ}
  {sph' : ℝ → ℝ → ℝ → ℕ → ℝ} {dsph' : ℝ → ℝ → ℝ → ℕ → ℕ → ℝ}

theorem set_of {spl : List (SplineSet K)} {spl' : List (SplineSet ℝ)} {S n : ℕ} {vals ders : List (List (List ℝ))} {h0 : Unit → K}
    (hs : RL (RSet (VT (ι := Unit)) h0) (fun _ => spl) spl') (hS : 0 < S) (hn : 0 < n)
    (hspl : ∀ i < (pairList f.nT).length, ∃ s, spl'[i]? = some s ∧ SplineSet.mk? f.splH (tbl vals i) (tbl ders i) = some s)
    (hr : ∀ i < (pairList f.nT).length, Rect S n (tbl vals i) (tbl ders i)) {i : ℕ} (hi : i < (pairList f.nT).length) {s : SplineSet K}
    (h : spl[i]? = some s) : s.num_splines = S := by
  obtain ⟨s', h1, h2⟩ := hspl i hi
  have h3 : RSet (VT (ι := Unit)) h0 (fun _ => s) s' := hs.at (a := fun _ => s) (fun _ => h) h1
  obtain ⟨s2, e1, -, -, e2, -⟩ := SplineSet.mk?_spec f.splH (hr i hi) hS hn
  rw [h2] at e1
  cases e1
  rw [h3.num_splines (), e2]

theorem fits_of (hf : FileOk f) (hP : Loaded f sph' dsph' P')
    (hL : RLoaded (fun _ : Unit => A) VT DT (fun _ => φ) f (fun _ => sph) (fun _ => dsph) sph' dsph' (fun _ => P) P')
    {T : Sys} (hT : SysOk f T) {xyz r : List K} (hx : xyz.length = 3 * T.E) (hr : r.length = T.E) : Fits f.nT T.E P (graphOf T xyz r) := by
  have hp := hL.params 0 (fun _ _ => 0) sph_true
  have an : P.atomicNumbers.length = f.nT := by rw [hp.atomicNumbers (), hP.an]; rfl
  have h0 : 0 < (pairList f.nT).length := by
    have := pairIndex_lt hf.nT hf.nT
    omega
  refine ⟨hT.nn, rfl, hr, hx, ?_, ?_, ?_, ?_, ?_, ?_⟩
  · intro i hi t ht
    have e1 := some_nthN (lt_of_lt_of_le hi hT.types)
    have t1 := hT.typ i hi
    rw [show T.types[i]? = some t from ht] at e1
    rwa [← Option.some.inj e1] at t1
  · intro e he t ht
    have e1 := some_nthN (lt_of_lt_of_le he hT.ntypes)
    have t1 := hT.nty e he
    rw [show T.ntypes[e]? = some t from ht] at e1
    rwa [← Option.some.inj e1] at t1
  · intro ti hti tj htj s s0 h1 h2
    rw [an] at h1
    have k := fun i (hi : i < (pairList f.nT).length) s h => set_of (f := f) (i := i) (s := s) hL.s0 (Nat.mul_pos (Nat.succ_pos _) hf.C) hf.nodes0 hP.spl0
      (fun i hi => ⟨(hf.rows0 i hi).1, (hf.rows0 i hi).2.1, (hf.rows0 i hi).2.2.1, (hf.rows0 i hi).2.2.2⟩) hi h
    rw [k _ (pairIndex_lt hti htj) _ h1, k _ h0 _ h2]
  · intro ti hti tj htj s s0 h1 h2
    rw [an] at h1
    have k := fun i (hi : i < (pairList f.nT).length) s h => set_of (f := f) (i := i) (s := s) hL.s1 (Nat.mul_pos hf.nP hf.C) hf.nodes1 hP.spl1
      (fun i hi => ⟨(hf.rows1 i hi).1, (hf.rows1 i hi).2.1, (hf.rows1 i hi).2.2.1, (hf.rows1 i hi).2.2.2⟩) hi h
    rw [k _ (pairIndex_lt hti htj) _ h1, k _ h0 _ h2]
  · refine ⟨(netOf f).nE, ?_, ?_⟩
    · rw [numE_eq (P := fun _ : Unit => P) hp (), hP.wok.numE, hp.lmax (), hP.wok.lmax]
    · rw [hp.phil (), hP.wok.nOut', hp.lmax (), hP.wok.lmax, Net.nOut, Net.base]
      rw [← List.sum_toFinset _ List.nodup_range]
      exact Finset.sum_congr (by ext; simp) fun _ _ => rfl
  · rw [hp.numLme (), hp.phil (), hP.wok.nOut, hP.wok.nOut']

theorem val_of {M : ℕ} {co : List ℝ} {mo : List (List ℕ)} {p : Poly.Poly K} {p' : Poly.Poly ℝ} (h : Poly.PolyIs M co mo p') (hr : RPoly (VT (ι := Unit)) (fun _ => p) p') : PolyVal p := by
  refine ⟨?_, fun i e he => ?_⟩
  · rw [hr.nodeCoefficients.length (), hr.numVariables (), hr.edges (), h.valid.clen, h.valid.len]
  · rw [hr.edges ()] at he
    have hi := (List.getElem?_eq_some_iff.mp he).1
    obtain ⟨e', _, _, _, h1, _, _, _, h2, h3, _⟩ := h.valid.edge i hi
    rw [he] at h1
    cases h1
    rw [hr.numVariables ()]
    exact ⟨h2, h3⟩

/-- The objects of a loaded state. -/
def refOf (φ : ℝ → K) (f : File) (s0 : State K) : Ref K := ⟨s0.P0, s0.P1, f.ro2w1.map φ, f.ro2w2.map φ, φ f.ro2scale⟩

theorem refOk_of (hP : Loaded f sph' dsph' P')
    (hL : RLoaded (fun _ : Unit => A) VT DT (fun _ => φ) f (fun _ => sph) (fun _ => dsph) sph' dsph' (fun _ => P) P') (hs : SizeOk f s0) :
    RefOk f.nT P (refOf φ f s0) := by
  have hp := hL.params 0 (fun _ _ => 0) sph_true
  obtain ⟨s', h1, h2⟩ := hs
  have eC : P.C = (netOf f).C := (hp.C ()).trans hP.wok.C
  have eL : P.LM = (netOf f).LM := by
    have : P.LM = P'.LM := by unfold Params.LM; rw [hp.Lmax ()]
    rw [this, hP.wok.LM]
  constructor
  · intro j hj q hq
    rw [eC, eL] at hj
    obtain ⟨p, e1, e2⟩ := h1.P0 j hj
    exact val_of e2 (h2.P0.at (a := fun _ => q) (fun _ => hq) e1)
  · intro j hj q hq
    rw [eC] at hj
    obtain ⟨p, e1, e2⟩ := h1.P1 j hj
    exact val_of e2 (h2.P1.at (a := fun _ => q) (fun _ => hq) e1)

theorem lk_of (h : load srt φ sph dsph nrm f = some (P, s0)) : Lk P.C (refOf φ f s0) s0 := by
  unfold load at h
  simp only [Option.bind_eq_bind, Option.bind_eq_some_iff, Option.pure_def, Option.some.injEq] at h
  obtain ⟨_, -, _, -, _, -, P0, -, _, -, _, -, P1, -, ro2, h, e⟩ := h
  simp only [Prod.mk.injEq] at e
  obtain ⟨rfl, rfl⟩ := e
  simp only [mlpMk?, List.getLast?_cons_cons, List.getLast?_singleton, Option.bind_eq_bind, Option.bind_some, Option.pure_def, Option.some.injEq] at h
  subst h
  refine ⟨⟨rfl, fun j p q h1 h2 => ?_⟩, ⟨rfl, fun j p q h1 h2 => ?_⟩, ⟨rfl, rfl, rfl, rfl, rfl, rfl⟩⟩
  · have h2 : P0[j]? = some q := h2
    have h1 : P0[j]? = some p := h1
    rw [h1] at h2
    cases h2
    exact PolyLk.refl _
  · have h2 : P1[j]? = some q := h2
    have h1 : P1[j]? = some p := h1
    rw [h1] at h2
    cases h2
    exact PolyLk.refl _

end Verif.Num
