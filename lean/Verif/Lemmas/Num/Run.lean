import Verif.Lemmas.Num.Eval
import Verif.Lemmas.MACE.LoadSpec
import Verif.Lemmas.MACE.Eval

/-!
# Families of runs: the tables of a loaded file

The relations between the evaluations of the tables on the edges give the hypotheses of `compute_rel`.
-/

namespace Verif.Num
open Filter Verif.Spline Verif.MACE Verif.Spec

variable {ι : Type} {l : Filter ι} {K : Type} {A : ι → Arith K} {V : (ι → K) → ℝ → Prop} {D : ℝ → Prop} {φ : ι → ℝ → K}
  {sph : ι → K → K → K → ℕ → K} {dsph : ι → K → K → K → ℕ → ℕ → K} {sph' : ℝ → ℝ → ℝ → ℕ → ℝ} {dsph' : ℝ → ℝ → ℝ → ℕ → ℕ → ℝ}
  {f : File} {T : Sys} {X : ℕ → ℕ → ℝ} {P : ι → Params K} {P' : Params ℝ} {g : ι → Graph K}

/-- The evaluations of the splines `vals` are related on the edges. -/
def SplRel (l : Filter ι) (A : ι → Arith K) (V : (ι → K) → ℝ → Prop) (h : ℝ) (h0 : ι → K) (vals : List (List ℝ)) (T : Sys) (X : ℕ → ℕ → ℝ)
    (g : ι → Graph K) : Prop :=
  ∀ e < T.E, ∀ r : ι → K, (∀ n, (g n).r[e]? = some (r n)) → ∀ w ∈ vals, ∀ d : List ℝ, w.length ≤ d.length →
    ∀ (s : ι → CubicSpline K) (s' : CubicSpline ℝ), CubicSpline.mk? h w d = some s' → RSpl V h0 s s' →
    RO l V (fun m => ofOut (splineValue (A := A m) (s m) (r m))) (ofOut (s'.evaluate (len (X e)))) ∧
    RO l (RP V V) (fun m => ofOut (splineDeriv (A := A m) (s m) (r m))) (ofOut (s'.evaluateDeriv (len (X e))))

/-- The evaluations of the tables of the file are related on the edges. -/
structure TabRel (l : Filter ι) (A : ι → Arith K) (V : (ι → K) → ℝ → Prop) (φ : ι → ℝ → K) (f : File) (T : Sys) (X : ℕ → ℕ → ℝ)
    (g : ι → Graph K) : Prop where
  set : ∀ e < T.E, ∀ r : ι → K, (∀ n, (g n).r[e]? = some (r n)) → ∀ (S n : ℕ) (vals ders : List (List ℝ)), (n = f.nodes0 ∨ n = f.nodes1) →
    Rect S n vals ders → 0 < S → ∀ (s : ι → SplineSet K) (s' : SplineSet ℝ), SplineSet.mk? f.splH vals ders = some s' →
    RSet V (fun n => φ n f.splH) s s' → ∀ base (st : ι → Bufs Bool K) (st' : Bufs Bool ℝ), RB V st st' →
    RO l (RB V) (fun m => setDerivs (A := A m) (s m) (r m) base (st m)) (s'.evaluateDerivs (len (X e)) base st')
  spl0 : f.A0scaled = true → SplRel l A V f.A0h (fun n => φ n f.A0h) f.A0vals T X g
  spl1 : f.A1scaled = true → SplRel l A V f.A1h (fun n => φ n f.A1h) f.A1vals T X g

theorem edgeOf_graph (hT : SysOk f T) {ti ij tj : ℕ} (h : EdgeOf (T.graph X) ti ij tj) :
    ij < T.E ∧ pairIndex f.nT ti tj < (pairList f.nT).length ∧ ti < f.nT ∧ tj < f.nT := by
  obtain ⟨i, hi, k, h1, h2, h3, h4, h5⟩ := h
  change i < T.N at hi
  change T.nn[i]? = some k at h2
  change off T.nn i ≤ ij at h3
  change ij < off T.nn i + k at h4
  have he : ij ∈ T.edg i := (mem_edges h2).mpr ⟨ij - off T.nn i, by omega, by omega⟩
  have hE := edg_lt hi he
  have e1 := some_nthN (lt_of_lt_of_le hi hT.types)
  have e2 := some_nthN (lt_of_lt_of_le hE hT.ntypes)
  rw [show T.types[i]? = some ti from h1] at e1
  rw [show T.ntypes[ij]? = some tj from h5] at e2
  have t1 := hT.typ i hi
  have t2 := hT.nty ij hE
  rw [← Option.some.inj e1] at t1
  rw [← Option.some.inj e2] at t2
  exact ⟨hE, pairIndex_lt t1 t2, t1, t2⟩

theorem RL.at {α β : Type} {R : (ι → α) → β → Prop} {xs : ι → List α} {ys : List β} (h : RL R xs ys) {i : ℕ} {a : ι → α} {b : β}
    (ha : ∀ n, (xs n)[i]? = Option.some (a n)) (hb : ys[i]? = Option.some b) : R a b := by
  obtain ⟨a', h1, h2⟩ := h.get' hb
  have : a = a' := funext fun n => Option.some.inj ((ha n).symm.trans (h1 n))
  rwa [this]

theorem graph_r {e : ℕ} {r : ℝ} (h : (T.graph X).r[e]? = some r) : r = len (X e) := by
  obtain ⟨h1, h2⟩ := List.getElem?_eq_some_iff.mp h
  rw [← h2]
  simp [Sys.graph]

theorem evalSet_of (hT : SysOk f T) (ht : TabRel l A V φ f T X g) {spl : ι → List (SplineSet K)} {spl' : List (SplineSet ℝ)}
    (hs : RL (RSet V (fun n => φ n f.splH)) spl spl') {S n : ℕ} (hn : n = f.nodes0 ∨ n = f.nodes1) (hS : 0 < S) {vals ders : List (List (List ℝ))}
    (hspl : ∀ i < (pairList f.nT).length, ∃ s, spl'[i]? = some s ∧ SplineSet.mk? f.splH (tbl vals i) (tbl ders i) = some s)
    (hr : ∀ i < (pairList f.nT).length, Rect S n (tbl vals i) (tbl ders i)) :
    REvalSet l A V f.nT g (T.graph X) spl spl' := by
  intro ti ij tj he s s' r r' h1 h2 h3 h4 base st st' hst
  obtain ⟨hE, hp, -⟩ := edgeOf_graph hT he
  obtain ⟨s2, e1, e2⟩ := hspl _ hp
  rw [h2] at e1
  cases e1
  rw [graph_r h4]
  exact ht.set ij hE r h3 S n _ _ hn (hr _ hp) hS s s' e2 (hs.at h1 h2) base st st' hst

theorem evalSpl_of (hT : SysOk f T) {h : ℝ} {h0 : ι → K} {vals ders : List (List ℝ)} (ht : SplRel l A V h h0 vals T X g) {spl : ι → List (CubicSpline K)}
    {spl' : List (CubicSpline ℝ)} (hs : RL (RSpl V h0) spl spl') (hv : vals.length = (pairList f.nT).length)
    (hspl : ∀ i < (pairList f.nT).length, ∃ s, spl'[i]? = some s ∧ CubicSpline.mk? h (row vals i) (row ders i) = some s)
    (hr : ∀ i < (pairList f.nT).length, 0 < (row vals i).length ∧ (row vals i).length ≤ (row ders i).length) :
    REvalVal l A V f.nT g (T.graph X) spl spl' ∧ REvalDer l A V f.nT g (T.graph X) spl spl' := by
  have : ∀ ti ij tj, EdgeOf (T.graph X) ti ij tj → ∀ (s : ι → CubicSpline K) (s' : CubicSpline ℝ) (r : ι → K) (r' : ℝ),
    (∀ n, (spl n)[pairIndex f.nT ti tj]? = some (s n)) → spl'[pairIndex f.nT ti tj]? = some s' →
    (∀ n, (g n).r[ij]? = some (r n)) → (T.graph X).r[ij]? = some r' →
    RO l V (fun n => MACE.ofOut (splineValue (A := A n) (s n) (r n))) (MACE.ofOut (s'.evaluate r')) ∧
    RO l (RP V V) (fun n => MACE.ofOut (splineDeriv (A := A n) (s n) (r n))) (MACE.ofOut (s'.evaluateDeriv r')) := by
    intro ti ij tj he s s' r r' h1 h2 h3 h4
    obtain ⟨hE, hp, -⟩ := edgeOf_graph hT he
    obtain ⟨s2, e1, e2⟩ := hspl _ hp
    rw [h2] at e1
    cases e1
    rw [graph_r h4]
    exact ht ij hE r h3 _ (row_mem (by omega)) _ (hr _ hp).2 s s' e2 (hs.at h1 h2)
  exact ⟨fun ti ij tj he s s' r r' h1 h2 h3 h4 => (this ti ij tj he s s' r r' h1 h2 h3 h4).1,
    fun ti ij tj he s s' r r' h1 h2 h3 h4 => (this ti ij tj he s s' r r' h1 h2 h3 h4).2⟩

theorem evals_of (hf : FileOk f) (hT : SysOk f T) (hP : Loaded f sph' dsph' P') (hL : RLoaded A V D φ f sph dsph sph' dsph' P P')
    (ht : TabRel l A V φ f T X g)
    (hd0 : f.A0scaled = true → RDen D f.nT (T.graph X) P'.A0splines) (hd1 : f.A1scaled = true → RDen D f.nT (T.graph X) P'.A1splines) :
    REvals l A V D g (T.graph X) P P' := by
  have en : P'.atomicNumbers.length = f.nT := by rw [hP.an]; rfl
  refine ⟨?_, ?_, hL.a0.mono fun _ _ _ _ => trivial, ?_, ?_, ?_, hL.a1.mono fun _ _ _ _ => trivial, ?_, ?_, ?_⟩ <;> rw [en]
  · exact evalSet_of hT ht hL.s0 (.inl rfl) (Nat.mul_pos (Nat.succ_pos _) hf.C) hP.spl0
      fun i hi => ⟨(hf.rows0 i hi).1, (hf.rows0 i hi).2.1, (hf.rows0 i hi).2.2.1, (hf.rows0 i hi).2.2.2⟩
  · exact evalSet_of hT ht hL.s1 (.inr rfl) (Nat.mul_pos hf.nP hf.C) hP.spl1
      fun i hi => ⟨(hf.rows1 i hi).1, (hf.rows1 i hi).2.1, (hf.rows1 i hi).2.2.1, (hf.rows1 i hi).2.2.2⟩
  · rw [hP.A0s]
    exact fun hs => (evalSpl_of hT (ht.spl0 hs) hL.a0 (hf.A0s hs).2.1 (hP.A0spl hs) (hf.A0s hs).2.2.2).1
  · rw [hP.A0s]
    exact fun hs => (evalSpl_of hT (ht.spl0 hs) hL.a0 (hf.A0s hs).2.1 (hP.A0spl hs) (hf.A0s hs).2.2.2).2
  · rw [hP.A0s]; exact hd0
  · rw [hP.A1s]
    exact fun hs => (evalSpl_of hT (ht.spl1 hs) hL.a1 (hf.A1s hs).2.1 (hP.A1spl hs) (hf.A1s hs).2.2.2).1
  · rw [hP.A1s]
    exact fun hs => (evalSpl_of hT (ht.spl1 hs) hL.a1 (hf.A1s hs).2.1 (hP.A1spl hs) (hf.A1s hs).2.2.2).2
  · rw [hP.A1s]; exact hd1

/-- The denominators are the normalisations. -/
theorem den_of (hf : FileOk f) (hT : SysOk f T) (hP : Loaded f sph' dsph' P') (hX : Inside f T X)
    (hs : ∀ i < T.N, D ((confOf f sph' T X).s0 i) ∧ D ((confOf f sph' T X).s1 i)) :
    (f.A0scaled = true → RDen D f.nT (T.graph X) P'.A0splines) ∧ (f.A1scaled = true → RDen D f.nT (T.graph X) P'.A1splines) := by
  have key : ∀ {spl' : List (CubicSpline ℝ)} {h : ℝ} {vals ders : List (List ℝ)}, 0 < h → vals.length = (pairList f.nT).length →
      (∀ i < (pairList f.nT).length, ∃ s, spl'[i]? = some s ∧ CubicSpline.mk? h (row vals i) (row ders i) = some s) →
      (∀ i < (pairList f.nT).length, 0 < (row vals i).length ∧ (row vals i).length ≤ (row ders i).length) →
      (∀ e < T.E, 0 < len (X e) ∧ ∀ w ∈ vals, len (X e) < h * (w.length - 1 : ℕ)) →
      (∀ i < T.N, D (1 + ∑ e ∈ T.edg i, hermite h (nth (row vals (edgePair f T e))) (nth (row ders (edgePair f T e))) (len (X e)))) →
      RDen D f.nT (T.graph X) spl' := by
    intro spl' h vals ders hh hv hspl hr hin hD i hi ti k q h1 h2 h3
    have hc := cubOk_of (sph := sph') (Ex := T.E) hT hh hv hspl hr hin
    have hsf := scaleFactor_spec (graph_ok (f := f) (sph := sph') (X := X) hT (le_refl T.E)) hc (i := i) hi
    have e1 := some_nthN (lt_of_lt_of_le (show i < T.N from hi) hT.types)
    have e2 := some_nthN (lt_of_lt_of_le (show i < T.N from hi) hT.nn)
    rw [show T.types[i]? = some ti from h1] at e1
    rw [show T.nn[i]? = some k from h2] at e2
    have e3 := h3
    rw [Option.some.inj e1, Option.some.inj e2] at e3
    have e4 := e3.symm.trans hsf
    rw [Option.some.inj e4]
    exact hD i hi
  constructor
  · intro hs0
    obtain ⟨h1, h2, h3, h4⟩ := hf.A0s hs0
    refine key h1 h2 (hP.A0spl hs0) h4 (fun e he => ⟨(hX e he).1, (hX e he).2.2.2.1 hs0⟩) fun i hi => ?_
    have := (hs i hi).1
    simp only [confOf, if_pos hs0] at this
    exact this
  · intro hs1
    obtain ⟨h1, h2, h3, h4⟩ := hf.A1s hs1
    refine key h1 h2 (hP.A1spl hs1) h4 (fun e he => ⟨(hX e he).1, (hX e he).2.2.2.2 hs1⟩) fun i hi => ?_
    have := (hs i hi).2
    simp only [confOf, if_pos hs1] at this
    exact this

end Verif.Num
