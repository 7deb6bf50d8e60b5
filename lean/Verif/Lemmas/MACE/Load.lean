import Verif.Lemmas.MACE.LoadBase
import Verif.Lemmas.MACE.Products
import Verif.Lemmas.MACE.Gradient
import Verif.Lemmas.Hermite
import Verif.Lemmas.PairIndex
import Verif.Lemmas.MLPGrad

/-! # A well-formed file loads, and the loaded object contains the network of the file -/

namespace Verif.MACE
open Verif.Spec Verif.Spline

theorem some_nth {l : List ℝ} {i : ℕ} (h : i < l.length) : l[i]? = some (nth l i) := by simp [nth, h]
theorem some_nthN {l : List ℕ} {i : ℕ} (h : i < l.length) : l[i]? = some (nthN l i) := by simp [nthN, h]
theorem some_row {l : List (List ℝ)} {i : ℕ} (h : i < l.length) : l[i]? = some (row l i) := by simp [row, h]
theorem some_tbl {l : List (List (List ℝ))} {i : ℕ} (h : i < l.length) : l[i]? = some (tbl l i) := by simp [tbl, h]

theorem nthN_mem {l : List ℕ} {i : ℕ} (h : i < l.length) : nthN l i ∈ l := by simp [nthN, h]
theorem row_mem {l : List (List ℝ)} {i : ℕ} (h : i < l.length) : row l i ∈ l := by simp [row, h]
theorem tbl_mem {l : List (List (List ℝ))} {i : ℕ} (h : i < l.length) : tbl l i ∈ l := by simp [tbl, h]

/-- Readout object of file `f`, in any state of its buffers. -/
def RoIs (f : File) (M : MLP.MLP ℝ) : Prop :=
  M.scale = f.ro2scale ∧ MLP.WF M 2 (MLP.width [f.numChannels, 16, 1])
    (MLP.entry [f.numChannels, 16, 1] [f.ro2w1, f.ro2w2])

/-- The object's polynomials and readout are those of the file. -/
structure StOk (f : File) (s : State ℝ) : Prop where
  P0 : P0Ok (netOf f) f.nT s.P0
  P1 : P1Ok (netOf f) f.nT s.P1
  ro2 : RoIs f s.ro2

/-- The parameters are those of the file. -/
structure Loaded (f : File) (sph : ℝ → ℝ → ℝ → ℕ → ℝ) (dsph : ℝ → ℝ → ℝ → ℕ → ℕ → ℝ) (P : Params ℝ) : Prop where
  wok : WOk P (netOf f) f.nT f.phil.length
  an : P.atomicNumbers = f.atomicNumbers
  sph : P.sph = sph
  dsph : P.dsph = dsph
  nrm : P.nrm = 2 * Real.sqrt Real.pi
  ex : P.ex = Real.exp
  spl0 : ∀ i < (pairList f.nT).length, ∃ s, P.splSet0[i]? = some s ∧ SplineSet.mk? f.splH (tbl f.vals0 i) (tbl f.ders0 i) = some s
  spl1 : ∀ i < (pairList f.nT).length, ∃ s, P.splSet1[i]? = some s ∧ SplineSet.mk? f.splH (tbl f.vals1 i) (tbl f.ders1 i) = some s
  A0s : P.A0scaled = f.A0scaled
  A1s : P.A1scaled = f.A1scaled
  A0spl : f.A0scaled = true → ∀ i < (pairList f.nT).length, ∃ s, P.A0splines[i]? = some s ∧
    CubicSpline.mk? f.A0h (row f.A0vals i) (row f.A0ders i) = some s
  A1spl : f.A1scaled = true → ∀ i < (pairList f.nT).length, ∃ s, P.A1splines[i]? = some s ∧
    CubicSpline.mk? f.A1h (row f.A1vals i) (row f.A1ders i) = some s

section counts

theorem count_sum {phil : List ℕ} {n : ℕ} (h : ∀ l ∈ phil, l < n) :
    (phil.map (fun l => 2 * l + 1)).sum = ∑ l ∈ Finset.range n, (2 * l + 1) * phil.count l := by
  induction phil with
  | nil => simp
  | cons x xs ih =>
    rw [List.map_cons, List.sum_cons, ih (fun l hl => h l (List.mem_cons_of_mem _ hl))]
    have hx : x ∈ Finset.range n := Finset.mem_range.mpr (h x List.mem_cons_self)
    have : ∀ l, (2 * l + 1) * (x :: xs).count l = (if l = x then 2 * x + 1 else 0) + (2 * l + 1) * xs.count l := by
      intro l
      rw [List.count_cons]
      by_cases e : l = x
      · subst e; simp; ring
      · have : ¬ x = l := fun h => e h.symm
        simp [e, this]
    simp only [this]
    rw [Finset.sum_add_distrib, Finset.sum_ite_eq' (Finset.range n) x, if_pos hx]

theorem count_loop {phil : List ℕ} {n : ℕ} (h : ∀ l ∈ phil, l < n) :
    loop phil.length (fun j ne => (phil[j]?).bind (fun l => ad ne l 1)) (List.replicate n 0) = some (tab n (fun l => phil.count l)) := by
  have := loop_eq (n := phil.length) (body := fun j ne => (phil[j]?).bind (fun l => ad ne l 1))
    (fun j => tab n (fun l => (phil.take j).count l)) ?_
  · simpa [replicate_eq_tab] using this
  · intro j hj
    rw [List.getElem?_eq_getElem hj, Option.bind_some, ad_tab 1 (h _ (List.getElem_mem hj))]
    refine congrArg some (tab_congr (fun l _ => ?_))
    rw [List.take_succ_eq_append_getElem hj, List.count_append]
    by_cases e : l = phil[j]
    · subst e; simp
    · have : ¬ phil[j] = l := fun h => e h.symm
      simp [e, this]

end counts

variable {f : File}

theorem couplings_mem (hf : FileOk f) {c : ℕ × ℕ × ℕ} (h : c ∈ f.couplings) :
    c.1 < f.phil.length ∧ c.2.1 < (f.lmax + 1) * (f.lmax + 1) ∧ c.2.2 < (f.Lmax + 1) * (f.Lmax + 1) := by
  unfold File.couplings at h
  simp only [List.mem_flatMap, List.mem_range, List.mem_map] at h
  obtain ⟨le, hle, m1, hm1, m2, hm2, rfl⟩ := h
  have b1 : nthN f.phil1 le ≤ f.lmax := hf.phil1.2 _ (nthN_mem (by have := hf.phil1.1; omega))
  have b2 : nthN f.phil2 le ≤ f.Lmax := hf.phil2.2 _ (nthN_mem (by have := hf.phil2.1; omega))
  refine ⟨hle, ?_, ?_⟩
  · dsimp only
    have := Nat.mul_le_mul (Nat.succ_le_succ b1) (Nat.succ_le_succ b1)
    have e : (nthN f.phil1 le).succ * (nthN f.phil1 le).succ = nthN f.phil1 le * nthN f.phil1 le + (2 * nthN f.phil1 le + 1) := by
      simp only [Nat.succ_eq_add_one]; ring
    simp only [Nat.succ_eq_add_one] at this e
    omega
  · dsimp only
    have := Nat.mul_le_mul (Nat.succ_le_succ b2) (Nat.succ_le_succ b2)
    have e : (nthN f.phil2 le).succ * (nthN f.phil2 le).succ = nthN f.phil2 le * nthN f.phil2 le + (2 * nthN f.phil2 le + 1) := by
      simp only [Nat.succ_eq_add_one]; ring
    simp only [Nat.succ_eq_add_one] at this e
    omega

theorem coupling_get (hf : FileOk f) {q : ℕ} (h : q < f.couplings.length) :
    (netOf f).qp q < f.phil.length ∧ (netOf f).q1 q < (f.lmax + 1) * (f.lmax + 1) ∧
      (netOf f).q2 q < (f.Lmax + 1) * (f.Lmax + 1) := by
  simp only [netOf, List.getElem?_eq_getElem h, Option.getD_some]
  exact couplings_mem hf (List.getElem_mem h)

theorem nOut_eq (hf : FileOk f) : (f.phil.map (fun l => 2 * l + 1)).sum = (netOf f).nOut :=
  count_sum (fun l hl => Nat.lt_succ_of_le (hf.phil l hl))

theorem netOk (hf : FileOk f) : NetOk (netOf f) where
  q1 q hq := (coupling_get hf hq).2.1
  q2 q hq := (coupling_get hf hq).2.2
  cgOut p hp := by
    have hp : p < f.cg.length := hp
    rw [← nOut_eq hf]
    exact hf.philme.2 _ (nthN_mem (by have := hf.philme.1; omega))
  cgIn p hp := by
    have hp : p < f.cg.length := hp
    exact hf.philelm.2 _ (nthN_mem (by have := hf.philelm.1; omega))
  mono0 LM hLM m hm v hv := ((hf.M0mon LM hLM).2 m hm).2 v hv
  mono1 m hm v hv := (hf.M1mon.2 m hm).2 v hv

theorem triple_eq (hf : FileOk f) {P : Params ℝ} (h : P.phil = f.phil) (hp1 : P.phil1 = f.phil1) (hp2 : P.phil2 = f.phil2)
    {σ : Type} (body : ℕ → ℕ → ℕ → ℕ → σ → Option σ) (s : σ) :
    tripleLoop P body s = loop (netOf f).nQ (fun q => body ((netOf f).qp q) ((netOf f).q1 q) ((netOf f).q2 q) q) s := by
  unfold tripleLoop
  rw [h, hp1, hp2]
  have e := loop_congr (σ := ℕ × σ) (n := f.phil.length)
    (body := fun le (q : ℕ × σ) => (f.phil1[le]?).bind fun l1 => (f.phil2[le]?).bind fun l2 =>
      loop (2 * l1 + 1) (fun m1 => cnt (2 * l2 + 1) (fun m2 c s => body le (l1 * l1 + m1) (l2 * l2 + m2) c s)) q)
    (body' := fun le => runL (fun (x : ℕ × ℕ × ℕ) c s => body x.1 x.2.1 x.2.2 c s)
      ((List.range (2 * nthN f.phil1 le + 1)).flatMap (fun m1 => (List.range (2 * nthN f.phil2 le + 1)).map
        (fun m2 => (le, nthN f.phil1 le * nthN f.phil1 le + m1, nthN f.phil2 le * nthN f.phil2 le + m2)))))
    (fun le hle q => by
      rw [some_nthN (l := f.phil1) (by have := hf.phil1.1; omega), Option.bind_some,
        some_nthN (l := f.phil2) (by have := hf.phil2.1; omega), Option.bind_some, ← loop_runL]
      refine loop_congr (fun m1 _ q => ?_) q
      rw [← cnt_runL]) (0, s)
  refine (congrArg (fun o => Option.bind o (fun q => some q.2)) e).trans ?_
  rw [loop_runL, runL_loop _ (0, 0, 0)]
  have e2 : (List.range f.phil.length).flatMap (fun le => (List.range (2 * nthN f.phil1 le + 1)).flatMap (fun m1 =>
      (List.range (2 * nthN f.phil2 le + 1)).map
        (fun m2 => (le, nthN f.phil1 le * nthN f.phil1 le + m1, nthN f.phil2 le * nthN f.phil2 le + m2)))) = f.couplings := rfl
  rw [e2]
  simp only [Nat.zero_add]
  change _ = loop f.couplings.length _ s
  have e3 : (fun q => body (f.couplings[q]?.getD (0, 0, 0)).1 (f.couplings[q]?.getD (0, 0, 0)).2.1
      (f.couplings[q]?.getD (0, 0, 0)).2.2 q)
      = (fun q => body ((netOf f).qp q) ((netOf f).q1 q) ((netOf f).q2 q) q) := rfl
  rw [e3]
  cases loop f.couplings.length (fun q => body ((netOf f).qp q) ((netOf f).q1 q) ((netOf f).q2 q) q) s <;> rfl

theorem numLelm_eq (hf : FileOk f) :
    loop f.phil.length (fun le n => (f.phil1[le]?).bind fun l1 => (f.phil2[le]?).bind fun l2 =>
      pure (n + (2 * l1 + 1) * (2 * l2 + 1))) 0 = some f.couplings.length := by
  have e : f.couplings.length = ∑ le ∈ Finset.range f.phil.length, (2 * nthN f.phil1 le + 1) * (2 * nthN f.phil2 le + 1) := by
    unfold File.couplings
    rw [List.length_flatMap, Finset.sum_range]
    simp only [List.length_flatMap, List.length_map, List.length_range, List.map_const', List.sum_replicate, smul_eq_mul]
    rw [← List.sum_ofFn, List.ofFn_eq_map]
    congr 1
    apply List.ext_getElem
    · simp
    · intro i _ _; simp
  rw [e]
  have := loop_eq (n := f.phil.length) (body := fun le n => (f.phil1[le]?).bind fun l1 => (f.phil2[le]?).bind fun l2 =>
      pure (n + (2 * l1 + 1) * (2 * l2 + 1)))
    (fun j => ∑ le ∈ Finset.range j, (2 * nthN f.phil1 le + 1) * (2 * nthN f.phil2 le + 1)) ?_
  · simpa using this
  · intro j hj
    rw [some_nthN (l := f.phil1) (by have := hf.phil1.1; omega), Option.bind_some,
        some_nthN (l := f.phil2) (by have := hf.phil2.1; omega), Option.bind_some, Finset.sum_range_succ]
    rfl

theorem roMatching (hf : FileOk f) : MLP.Matching [f.numChannels, 16, 1] [f.ro2w1, f.ro2w2] := by
  refine ⟨by simp, by simp, fun l w hw => ?_⟩
  match l with
  | 0 => simp at hw; subst hw; simp [MLP.width, hf.ro2w1]
  | 1 => simp at hw; subst hw; simp [MLP.width, hf.ro2w2]
  | l + 2 => simp at hw

theorem splines_load {h : ℝ} {S n m : ℕ} {vals ders : List (List (List ℝ))} (hv : vals.length = m) (hd : ders.length = m)
    (hr : ∀ i < m, Rect S n (tbl vals i) (tbl ders i)) (hS : 0 < S) (hn : 0 < n) :
    ∃ l, pushLoop vals.length (fun i => (vals[i]?).bind fun v => (ders[i]?).bind fun d => SplineSet.mk? h v d) [] = some l ∧
      ∀ i < m, ∃ s, l[i]? = some s ∧ s.num_splines = S ∧ SplineSet.mk? h (tbl vals i) (tbl ders i) = some s := by
  obtain ⟨l, h1, _, h2⟩ := pushLoop_spec (n := vals.length)
    (f := fun i => (vals[i]?).bind fun v => (ders[i]?).bind fun d => SplineSet.mk? h v d)
    (Q := fun i s => s.num_splines = S ∧ SplineSet.mk? h (tbl vals i) (tbl ders i) = some s) (fun i hi => by
      obtain ⟨s, e1, _, _, e2, _⟩ := SplineSet.mk?_spec h (hr i (by omega)) hS hn
      refine ⟨s, ?_, e2, e1⟩
      rw [some_tbl hi, Option.bind_some, some_tbl (l := ders) (by omega), Option.bind_some, e1]) []
  refine ⟨l, by simpa using h1, fun i hi => ?_⟩
  obtain ⟨s, e1, e2, e3⟩ := h2 i (by omega)
  exact ⟨s, e1, e2, e3⟩

theorem cubics_load {flag : Bool} {h : ℝ} {m : ℕ} {vals ders : List (List ℝ)}
    (H : flag = true → 0 < h ∧ vals.length = m ∧ ders.length = m ∧
      ∀ i < m, 0 < (row vals i).length ∧ (row vals i).length ≤ (row ders i).length) :
    ∃ l, (if flag = true then pushLoop vals.length (fun i => (vals[i]?).bind fun v => (ders[i]?).bind fun d =>
        CubicSpline.mk? h v d) [] else some []) = some l ∧
      (flag = true → ∀ i < m, ∃ s, l[i]? = some s ∧ CubicSpline.mk? h (row vals i) (row ders i) = some s) := by
  cases flag with
  | false => exact ⟨[], by simp, by simp⟩
  | true =>
    obtain ⟨-, hv, hd, hr⟩ := H rfl
    obtain ⟨l, h1, _, h2⟩ := pushLoop_spec (n := vals.length)
      (f := fun i => (vals[i]?).bind fun v => (ders[i]?).bind fun d => CubicSpline.mk? h v d)
      (Q := fun i s => CubicSpline.mk? h (row vals i) (row ders i) = some s) (fun i hi => by
        obtain ⟨s, e1, _⟩ := mk?_spec h _ _ (hr i (by omega)).1 (hr i (by omega)).2
        refine ⟨s, ?_, e1⟩
        rw [some_row hi, Option.bind_some, some_row (l := ders) (by omega), Option.bind_some, e1]) []
    refine ⟨l, by simpa using h1, fun _ i hi => h2 i (by omega)⟩

theorem P0_load (hf : FileOk f) {srt : List (List (List ℕ)) → List (List (List ℕ))} (hs : Poly.SortFn srt) :
    ∃ l, loop f.atomicNumbers.length (fun a => loop ((f.Lmax + 1) * (f.Lmax + 1)) (fun lm =>
      pushLoop f.numChannels (fun k => Poly.Poly.mk? srt ((f.lmax + 1) * (f.lmax + 1)) (f.M0w a lm k) (f.M0mon lm)))) []
        = some l ∧ P0Ok (netOf f) f.nT l := by
  obtain ⟨l, h1, _, h2⟩ := append_loop (n := f.nT) (m := (f.Lmax + 1) * (f.Lmax + 1) * f.numChannels)
    (body := fun a => loop ((f.Lmax + 1) * (f.Lmax + 1)) (fun lm =>
      pushLoop f.numChannels (fun k => Poly.Poly.mk? srt ((f.lmax + 1) * (f.lmax + 1)) (f.M0w a lm k) (f.M0mon lm))))
    (Q := P0At (netOf f)) (fun a ha out => by
      refine append_loop (n := (f.Lmax + 1) * (f.Lmax + 1)) (m := f.numChannels)
        (Q := fun p => P0At (netOf f) (a * ((f.Lmax + 1) * (f.Lmax + 1) * f.numChannels) + p)) (fun lm hlm out => ?_) out
      refine pushLoop_spec (fun k hk => ?_) out
      obtain ⟨p, e1, e2⟩ := Poly.PolyIs.mk? hs (hf.M0w a ha lm hlm k hk) (hf.M0mon lm hlm).1
        (fun m hm => ((hf.M0mon lm hlm).2 m hm).1) (fun m hm => ((hf.M0mon lm hlm).2 m hm).2)
      refine ⟨p, e1, ?_⟩
      unfold P0At
      have e : a * ((f.Lmax + 1) * (f.Lmax + 1) * f.numChannels) + (lm * f.numChannels + k)
        = (a * (netOf f).LM + lm) * (netOf f).C + k := by
          simp only [Net.LM, netOf]; ring
      have hk' : k < (netOf f).C := hk
      have hlm' : lm < (netOf f).LM := hlm
      rw [e, flat_div hk', flat_mod hk', flat_div hlm', flat_mod hlm']
      exact e2) []
  refine ⟨l, by simpa [File.nT] using h1, fun j hj => h2 j ?_⟩
  have : f.nT * (netOf f).LM * (netOf f).C = f.nT * ((f.Lmax + 1) * (f.Lmax + 1) * f.numChannels) := by
    simp only [Net.LM, netOf]; ring
  omega

theorem P1_load (hf : FileOk f) {srt : List (List (List ℕ)) → List (List (List ℕ))} (hs : Poly.SortFn srt) :
    ∃ l, loop f.atomicNumbers.length (fun a =>
      pushLoop f.numChannels (fun k => Poly.Poly.mk? srt ((f.lmax + 1) * (f.lmax + 1)) (f.M1w a k) f.M1mon)) []
        = some l ∧ P1Ok (netOf f) f.nT l := by
  obtain ⟨l, h1, _, h2⟩ := append_loop (n := f.nT) (m := f.numChannels)
    (body := fun a => pushLoop f.numChannels (fun k => Poly.Poly.mk? srt ((f.lmax + 1) * (f.lmax + 1)) (f.M1w a k) f.M1mon))
    (Q := P1At (netOf f)) (fun a ha out => by
      refine pushLoop_spec (Q := fun k => P1At (netOf f) (a * f.numChannels + k)) (fun k hk => ?_) out
      obtain ⟨p, e1, e2⟩ := Poly.PolyIs.mk? hs (hf.M1w a ha k hk) hf.M1mon.1
        (fun m hm => (hf.M1mon.2 m hm).1) (fun m hm => (hf.M1mon.2 m hm).2)
      refine ⟨p, e1, ?_⟩
      unfold P1At
      have hk' : k < (netOf f).C := hk
      change Poly.PolyIs _ ((netOf f).coef1 ((a * (netOf f).C + k) / (netOf f).C) ((a * (netOf f).C + k) % (netOf f).C)) _ _
      rw [flat_div hk', flat_mod hk']
      exact e2) []
  exact ⟨l, by simpa [File.nT] using h1, fun j hj => h2 j hj⟩

end Verif.MACE
