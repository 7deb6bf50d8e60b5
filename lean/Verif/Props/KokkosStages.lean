import Verif.Lemmas.Kokkos.StageFlags
import Verif.Props.Kokkos
import Verif.Props.Stages

/-! # C108: the stages of `MACEKokkos` one by one

The Python bindings (symmetrix/source/cpp/mace_kokkos.cpp) and the pair style call the stages of `MACEKokkos` one by one, with views
set by the caller. The theorems say that each forward and each reverse stage delivers the numbers of the stage of `MACE`, for
arbitrary contents of the views it reads, in every environment, whatever the output views contained before and however many rows they
have. With C104 the reverse stages of `MACEKokkos` therefore are the transposed derivatives of its forward stages. -/

namespace Verif.Props
open Verif.MACE Verif.Spec Verif.Par

/-- A view with at least `n` rows of shape `ns`; without rows the rest of the shape is free (views start empty). -/
def Shaped (v : View ℝ) (ns : List ℕ) (n : ℕ) : Prop := v.Ok ∧ ∃ x ms, v.ext = x :: ms ∧ n ≤ x ∧ (x = 0 ∨ ms = ns)

/-- The first `N` rows of the view, of shape `(n, m)`, are the row-major vector `x`. -/
def Holds3 (v : View ℝ) (x : List ℝ) (N n m : ℕ) : Prop := Shaped v [n, m] N ∧ SameRows v x N n m

/-- The first `N` rows of the view, of length `n`, are the row-major vector `x`. -/
def Holds2 (v : View ℝ) (x : List ℝ) (N n : ℕ) : Prop :=
  Shaped v [n] N ∧ x.length = N * n ∧ ∀ i < N, ∀ k < n, v.get [i, k] = x[i * n + k]?

/-- The one-dimensional view begins with `x`. -/
def Holds1 (v : View ℝ) (x : List ℝ) : Prop :=
  v.Ok ∧ ∃ n, v.ext = [n] ∧ x.length ≤ n ∧ ∀ p < x.length, v.get [p] = x[p]?

/-- A matrix, at least `B` rows of length `n`. -/
def Matrix (v : View ℝ) (B n : ℕ) : Prop := v.Ok ∧ ∃ a, v.ext = [a, n] ∧ B ≤ a

/-- Any matrix. -/
def AnyMatrix (v : View ℝ) : Prop := v.Ok ∧ ∃ a b, v.ext = [a, b]

/-- Any one-dimensional view. -/
def AnyVector (v : View ℝ) : Prop := v.Ok ∧ ∃ n, v.ext = [n]

section holds
variable {v : View ℝ} {x : List ℝ} {N n m : ℕ}

theorem holds3_of {F : ℕ → ℕ → ℕ → ℝ} (hr : Kokkos.Room v [n, m] N) (h : Kokkos.G3 v N n m F) : Holds3 v (T3 N n m F) N n m :=
  ⟨hr, sameRows_of h⟩

theorem Holds3.exists (h : Holds3 v x N n m) : ∃ F, x = T3 N n m F ∧ Kokkos.Room v [n, m] N ∧ Kokkos.G3 v N n m F := by
  obtain ⟨F, h1, h2⟩ := h.2.exists
  exact ⟨F, h1, h.1, h2⟩

theorem holds2_of {F : ℕ → ℕ → ℝ} (hr : Kokkos.Room v [n] N) (h : Kokkos.G2 v N n F) : Holds2 v (tab2 N n F) N n :=
  ⟨hr, by simp, fun i hi k hk => (h i hi k hk).trans (getElem?_tab2 hi hk).symm⟩

theorem Holds2.exists (h : Holds2 v x N n) : ∃ F, x = tab2 N n F ∧ Kokkos.Room v [n] N ∧ Kokkos.G2 v N n F := by
  obtain ⟨h1, h2, h3⟩ := h
  obtain ⟨F, rfl⟩ := ex_tab2 h2
  exact ⟨F, rfl, h1, fun i hi k hk => (h3 i hi k hk).trans (getElem?_tab2 hi hk)⟩

theorem Holds1.all (h : Holds1 v x) : ∃ F : ℕ → ℝ, x = tab x.length F ∧ Kokkos.All v x.length F := by
  obtain ⟨h1, n, h2, h3, h4⟩ := h
  have hg : ∀ p < n, v.get [p] = some ((v.get [p]).getD 0) := fun p hp => by
    obtain ⟨y, hy⟩ := View.exists_get h1 (is := [p]) (by rw [h2]; exact flat_one hp)
    rw [hy]; rfl
  refine ⟨fun p => (v.get [p]).getD 0, ?_, h1, n, h2, h3, hg⟩
  refine List.ext_getElem? (fun p => ?_)
  by_cases hp : p < x.length
  · rw [← h4 p hp, hg p (by omega)]
    simp [tab, hp]
  · rw [List.getElem?_eq_none (by omega), List.getElem?_eq_none (by simp [tab]; omega)]

theorem holds1_of {F : ℕ → ℝ} (h : Kokkos.All v n F) : Holds1 v (tab n F) := by
  obtain ⟨h1, x, h2, h3, h4⟩ := h
  refine ⟨h1, x, h2, by simpa [tab] using h3, fun p hp => ?_⟩
  have hp' : p < n := by simpa [tab] using hp
  rw [h4 p (by omega)]
  simp [tab, hp']

theorem holdsF_of {E : ℕ} {F : ℕ → ℕ → ℝ} (h : Kokkos.Fc v E F) : Holds1 v (tab2 E 3 F) := by
  have := holds1_of h
  rwa [show tab (3 * E) (fun p => F (p / 3) (p % 3)) = tab2 E 3 F by unfold tab2; rw [mul_comm]] at this

theorem Holds1.force {E : ℕ} (h : Holds1 v x) (hx : x.length = E * 3) : ∃ F, x = tab2 E 3 F ∧ Kokkos.Fc v E F := by
  obtain ⟨F, h1, h2⟩ := h.all
  rw [hx] at h1 h2
  have e : ∀ p, 3 * (p / 3) + p % 3 = p := fun p => by omega
  refine ⟨fun e a => F (3 * e + a), ?_, ?_⟩
  · rw [h1]
    unfold tab2
    simp only [e]
  · unfold Kokkos.Fc
    rw [mul_comm]
    simp only [e]
    exact h2

end holds

variable {f : File} {ne : ℕ} {sph : ℝ → ℝ → ℝ → ℕ → ℝ} {dsph : ℝ → ℝ → ℝ → ℕ → ℕ → ℝ} {srt : List (List (List ℕ)) → List (List (List ℕ))}
  {junk : ℕ → ℕ → ℝ} {P : Params ℝ} {s0 s : State ℝ} {Q : Kokkos.Params ℝ} {t0 t : Kokkos.State ℝ} {T : Sys} {X : ℕ → ℕ → ℝ} {NH : ℕ}

theorem loadedK_of (hf : FileOk f) (hk : FileOkK f ne) (hsrt : Poly.SortFn srt) (hQ : Kokkos.load srt sph dsph junk ne f = some (Q, t0)) :
    Kokkos.LoadedK f sph dsph Q ∧ t0 = Kokkos.State.init ℝ := by
  obtain ⟨Q', k1, k2⟩ := Kokkos.load_spec hf hk hsrt sph dsph junk
  rw [hQ] at k1
  cases k1
  exact ⟨k2, rfl⟩

/-- C108, `compute_M0` and `reverse_M0`. The reverse stage reads the values the forward stage stored (`vs`). -/
theorem C108_M0 (hf : FileOk f) (hk : FileOkK f ne) (hsrt : Poly.SortFn srt) (hL : load srt sph dsph f = some (P, s0))
    (hQ : Kokkos.load srt sph dsph junk ne f = some (Q, t0)) (hs : Hist f P s0 s) (hT : SysIn f T NH) (V V' : Kokkos.Env ℝ)
    {A0 M0 : View ℝ} {vs : ℕ → View ℝ} {x : List ℝ} (hA : Holds3 A0 x T.N Q.M Q.C) (hM : Shaped M0 [Q.LM, Q.C] 0)
    (hv : ∀ lm < Q.LM, Shaped (vs lm) [Q.M + (Q.M0spec lm).extent 0, Q.C] 0) :
    ∃ s1 M0' vs', computeM0 P (T.graph X) { s with A0 := x } = some s1 ∧
      Kokkos.computeM0 V Q.C Q.M Q.LM T.N T.types Q.M0spec Q.M0coeff A0 M0 vs = some (M0', vs') ∧
      Holds3 M0' s1.M0 T.N Q.LM Q.C ∧ (∀ lm < Q.LM, Shaped (vs' lm) [Q.M + (Q.M0spec lm).extent 0, Q.C] T.N) ∧
      ∀ {M0a A0a : View ℝ} {as : ℕ → View ℝ} {w : List ℝ}, Holds3 M0a w T.N Q.LM Q.C → Shaped A0a [Q.M, Q.C] 0 →
        (∀ lm < Q.LM, Shaped (as lm) [Q.M + (Q.M0spec lm).extent 0, Q.C] 0) →
        ∃ s2 A0a' as', reverseM0 P (T.graph X) { s1 with M0a := w } = some s2 ∧
          Kokkos.reverseM0 V' Q.C Q.M Q.LM T.N T.types Q.M0spec Q.M0coeff A0 A0a M0a vs' as = some (A0a', as') ∧
          Holds3 A0a' s2.A0a T.N Q.M Q.C ∧ ∀ lm < Q.LM, Shaped (as' lm) [Q.M + (Q.M0spec lm).extent 0, Q.C] T.N := by
  obtain ⟨h2, h3⟩ := loaded_of hf hsrt hL
  obtain ⟨k2, -⟩ := loadedK_of hf hk hsrt hQ
  have hs := hs.ok hf h2 h3
  have hw := k2.wok
  rw [hw.M, hw.LM, hw.C] at *
  obtain ⟨a, rfl, ra, ga⟩ := hA.exists
  have hg : GOk (T.graph X) f.nT NH (confOf f sph T X) (nthN T.nn) X (fun e => len (X e)) := graph_ok hT le_rfl
  obtain ⟨G, P0', c1, c2, c3⟩ := computeM0_spec h2.wok hg (s := { s with A0 := T3 T.N (netOf f).M (netOf f).C a }) (a := a) rfl hs.P0
  obtain ⟨nd0, cf0, hp0⟩ := hw.m0
  obtain ⟨M0', vs', f1, f2, f3, f4⟩ := Kokkos.computeM0_spec V hg.types hg.typ_lt hp0 ga hM hv
  refine ⟨_, M0', vs', c1, f1, holds3_of f2 f3, fun lm hlm => (f4 lm hlm).1, ?_⟩
  intro M0a A0a as w hw' hAa has
  obtain ⟨b, rfl, rb, gb⟩ := hw'.exists
  obtain ⟨A', as', v1, v2, v3, v4⟩ := Kokkos.reverseM0_spec V' hg.types hg.typ_lt hp0 ra hAa gb (fun lm hlm => (f4 lm hlm).2) has
  exact ⟨_, A', as', reverseM0_spec (g := T.graph X) h2.wok (A := a) (Ma := b) (G := g0 (netOf f) (confOf f sph T X) a) rfl rfl c3, v1,
    holds3_of v2 v3, v4⟩

/-- C108, `compute_M1` and `reverse_M1`. -/
theorem C108_M1 (hf : FileOk f) (hk : FileOkK f ne) (hsrt : Poly.SortFn srt) (hL : load srt sph dsph f = some (P, s0))
    (hQ : Kokkos.load srt sph dsph junk ne f = some (Q, t0)) (hs : Hist f P s0 s) (hT : SysIn f T NH) (V V' : Kokkos.Env ℝ)
    {A1 M1 vs : View ℝ} {x : List ℝ} (hA : Holds3 A1 x T.N Q.M Q.C) (hM : Shaped M1 [Q.C] 0)
    (hv : Shaped vs [Q.M + Q.M1spec.extent 0, Q.C] 0) :
    ∃ s1 M1' vs', computeM1 P (T.graph X) { s with A1 := x } = some s1 ∧
      Kokkos.computeM1 V Q.C Q.M T.N T.types Q.M1spec Q.M1coeff A1 M1 vs = some (M1', vs') ∧
      Holds2 M1' s1.M1 T.N Q.C ∧ Shaped vs' [Q.M + Q.M1spec.extent 0, Q.C] T.N ∧
      ∀ {M1a A1a as : View ℝ} {w : List ℝ}, Holds2 M1a w T.N Q.C → Shaped A1a [Q.M, Q.C] 0 →
        Shaped as [Q.M + Q.M1spec.extent 0, Q.C] 0 →
        ∃ s2 A1a' as', reverseM1 P (T.graph X) { s1 with M1a := w } = some s2 ∧
          Kokkos.reverseM1 V' Q.C Q.M T.N T.types Q.M1spec Q.M1coeff A1 A1a M1a vs' as = some (A1a', as') ∧
          Holds3 A1a' s2.A1a T.N Q.M Q.C ∧ Shaped as' [Q.M + Q.M1spec.extent 0, Q.C] T.N := by
  obtain ⟨h2, h3⟩ := loaded_of hf hsrt hL
  obtain ⟨k2, -⟩ := loadedK_of hf hk hsrt hQ
  have hs := hs.ok hf h2 h3
  have hw := k2.wok
  rw [hw.M, hw.C] at *
  obtain ⟨a, rfl, ra, ga⟩ := hA.exists
  have hg : GOk (T.graph X) f.nT NH (confOf f sph T X) (nthN T.nn) X (fun e => len (X e)) := graph_ok hT le_rfl
  obtain ⟨G, P1', c1, c2, c3⟩ := computeM1_spec h2.wok hg (s := { s with A1 := T3 T.N (netOf f).M (netOf f).C a }) (a := a) rfl hs.P1
  obtain ⟨nd, cf, hp⟩ := hw.m1
  obtain ⟨M1', vs', f1, f2, f3, f4, f5⟩ := Kokkos.computeM1_spec V hg.types hg.typ_lt hp ga hM hv
  refine ⟨_, M1', vs', c1, f1, holds2_of f2 f3, f4, ?_⟩
  intro M1a A1a as w hw' hAa has
  obtain ⟨b, rfl, rb, gb⟩ := hw'.exists
  obtain ⟨A', as', v1, v2, v3, v4⟩ := Kokkos.reverseM1_spec V' hg.types hg.typ_lt hp ra hAa gb f5 has
  exact ⟨_, A', as', reverseM1_spec (g := T.graph X) h2.wok (A := a) (Ma := b) (G := g1 (netOf f) (confOf f sph T X) a) rfl rfl c3, v1,
    holds3_of v2 v3, v4⟩

/-- C108, `compute_H1` and `reverse_H1`. -/
theorem C108_H1 (hf : FileOk f) (hk : FileOkK f ne) (hsrt : Poly.SortFn srt) (hL : load srt sph dsph f = some (P, s0))
    (hQ : Kokkos.load srt sph dsph junk ne f = some (Q, t0)) (s : State ℝ) (V V' : Kokkos.Env ℝ)
    {M0 H1 : View ℝ} {x : List ℝ} (hM : Holds3 M0 x T.N Q.LM Q.C) (hH : Shaped H1 [Q.LM, Q.C] 0) :
    ∃ s1 H1', computeH1 P (T.graph X) { s with M0 := x } = some s1 ∧ Kokkos.computeH1 V Q.C Q.Lmax T.N Q.H1w M0 H1 = some H1' ∧
      Holds3 H1' s1.H1 T.N Q.LM Q.C ∧
      ∀ {H1a M0a : View ℝ} {w : List ℝ}, T.N ≤ NH → Holds3 H1a w NH Q.LM Q.C → Shaped M0a [Q.LM, Q.C] 0 →
        ∃ s2 M0a', reverseH1 P (T.graph X) { s1 with H1a := w } = some s2 ∧
          Kokkos.reverseH1 V' Q.C Q.Lmax T.N Q.H1w M0 H1a M0a = some M0a' ∧ Holds3 M0a' s2.M0a T.N Q.LM Q.C := by
  obtain ⟨h2, -⟩ := loaded_of hf hsrt hL
  obtain ⟨k2, -⟩ := loadedK_of hf hk hsrt hQ
  have hw := k2.wok
  rw [hw.LM, hw.C, hw.Lmax] at *
  obtain ⟨a, rfl, ra, ga⟩ := hM.exists
  obtain ⟨H1', f1, f2, f3⟩ := Kokkos.computeH1_spec V (LM := (netOf f).LM) rfl hw.H1w ra ga hH
  refine ⟨_, H1', computeH1_spec (g := T.graph X) h2.wok (m := a) rfl, f1, holds3_of f2 f3, ?_⟩
  intro H1a M0a w hN hw' hMa
  obtain ⟨b, rfl, rb, gb⟩ := hw'.exists
  obtain ⟨M0', v1, v2, v3⟩ := Kokkos.reverseH1_spec V' (LM := (netOf f).LM) rfl hw.H1w ra (h := b)
    (fun i hi lm hlm k hk => gb i (by omega) lm hlm k hk) hMa
  exact ⟨_, M0', reverseH1_spec (g := T.graph X) h2.wok (m := a) (Ha := b) (NH := NH) rfl rfl hN, v1, holds3_of v2 v3⟩

/-- C108, `compute_A1` and `reverse_A1`. -/
theorem C108_A1 (hf : FileOk f) (hk : FileOkK f ne) (hsrt : Poly.SortFn srt) (hL : load srt sph dsph f = some (P, s0))
    (hQ : Kokkos.load srt sph dsph junk ne f = some (Q, t0)) (s : State ℝ) (V V' : Kokkos.Env ℝ)
    {Phi1 A1 : View ℝ} {x : List ℝ} (hP : Holds3 Phi1 x T.N Q.numLme Q.C) (hA : Shaped A1 [Q.M, Q.C] 0) :
    ∃ s1 A1', computeA1 P (T.graph X) { s with Phi1 := x } = some s1 ∧
      Kokkos.computeA1 V Q.C Q.M Q.lmax T.N Q.phil Q.A1w Phi1 A1 = some A1' ∧ Holds3 A1' s1.A1 T.N Q.M Q.C ∧
      ∀ {A1a dPhi1 : View ℝ} {w : List ℝ}, Holds3 A1a w T.N Q.M Q.C → Shaped dPhi1 [Q.numLme, Q.C] 0 →
        ∃ s2 dPhi1', reverseA1 P (T.graph X) { s1 with A1a := w } = some s2 ∧
          Kokkos.reverseA1 V' Q.C Q.numLme Q.lmax T.N Q.phil Q.A1wt A1a dPhi1 = some dPhi1' ∧
          Holds3 dPhi1' s2.dPhi1 T.N Q.numLme Q.C := by
  obtain ⟨h2, -⟩ := loaded_of hf hsrt hL
  obtain ⟨k2, -⟩ := loadedK_of hf hk hsrt hQ
  have hw := k2.wok
  rw [hw.M, hw.C, hw.lmax, hw.nOut] at *
  obtain ⟨a, rfl, ra, ga⟩ := hP.exists
  obtain ⟨A1', f1, f2, f3⟩ := Kokkos.computeA1_spec V hw.block hw.A1w ra ga hA
  refine ⟨_, A1', computeA1_spec (g := T.graph X) h2.wok (p := a) rfl, f1, holds3_of f2 f3, ?_⟩
  intro A1a dPhi1 w hw' hD
  obtain ⟨b, rfl, rb, gb⟩ := hw'.exists
  obtain ⟨D, v1, v2, v3⟩ := Kokkos.reverseA1_spec V' hw.block hw.A1wt gb hD
  exact ⟨_, D, reverseA1_spec (g := T.graph X) h2.wok (p := a) (A := b) rfl rfl, v1, holds3_of v2 v3⟩

/-- C108, `compute_H2` and `reverse_H2`, with and without `zero_H1_adj`; a view `H1a` that is too short is enlarged. -/
theorem C108_H2 (hf : FileOk f) (hk : FileOkK f ne) (hsrt : Poly.SortFn srt) (hL : load srt sph dsph f = some (P, s0))
    (hQ : Kokkos.load srt sph dsph junk ne f = some (Q, t0)) (hT : SysIn f T NH) (hN : T.N ≤ NH) (s : State ℝ) (V V' : Kokkos.Env ℝ)
    {H1 M1 H2 : View ℝ} {x y : List ℝ} (hH : Holds3 H1 x NH Q.LM Q.C) (hM : Holds2 M1 y T.N Q.C) (h2 : AnyMatrix H2) :
    ∃ s1 H2', computeH2 P (T.graph X) { s with H1 := x, M1 := y } = some s1 ∧
      Kokkos.computeH2 V Q.C T.N T.types Q.H2wH1 Q.H2wM1 H1 M1 H2 = some H2' ∧ Matrix H2' T.N Q.C ∧ Holds2 H2' s1.H2 T.N Q.C ∧
      ∀ {H2a H1a M1a : View ℝ} {w old : List ℝ} (z : Bool), Holds2 H2a w T.N Q.C → Shaped H1a [Q.LM, Q.C] 0 →
        (z = false → Holds3 H1a old NH Q.LM Q.C) → Shaped M1a [Q.C] 0 →
        ∃ s2 H1a' M1a', reverseH2 P (T.graph X) z { s1 with H2a := w, H1a := old } = some s2 ∧
          Kokkos.reverseH2 V' Q.C T.N T.types Q.H2wH1 Q.H2wM1 z H1 M1 H2a H1a M1a = some (H1a', M1a') ∧
          Holds3 H1a' s2.H1a NH Q.LM Q.C ∧ Holds2 M1a' s2.M1a T.N Q.C := by
  obtain ⟨hP, -⟩ := loaded_of hf hsrt hL
  obtain ⟨k2, -⟩ := loadedK_of hf hk hsrt hQ
  have hw := k2.wok
  rw [hw.LM, hw.C] at *
  obtain ⟨a, rfl, ra, ga⟩ := hH.exists
  obtain ⟨b, rfl, rb, gb⟩ := hM.exists
  have hg : GOk (T.graph X) f.nT NH (confOf f sph T X) (nthN T.nn) X (fun e => len (X e)) := graph_ok hT le_rfl
  have hLM : 0 < (netOf f).LM := LM_pos _
  obtain ⟨H2', m1, m2, m3⟩ := Kokkos.computeH2_spec V hg.types hg.typ_lt hw.H2wH1 hw.H2wM1 hLM (h := a)
    (fun i hi lm hlm k hk => ga i (lt_of_lt_of_le hi hN) lm hlm k hk) gb h2
  refine ⟨_, H2', computeH2_spec hP.wok hg hN (H := a) (m := b) rfl rfl, m1, m2, holds2_of m2.room m3, ?_⟩
  intro H2a H1a M1a w old z hw' hHa ho hMa
  obtain ⟨d, rfl, rd, gd⟩ := hw'.exists
  obtain ⟨Ha, e1, e2⟩ : ∃ Ha : ℕ → ℕ → ℕ → ℝ, ((z = true ∧ Ha = fun _ _ _ => 0) ∨ (z = false ∧ old = T3 NH (netOf f).LM (netOf f).C Ha)) ∧
      ((z = true ∧ Ha = fun _ _ _ => 0) ∨ (z = false ∧ Kokkos.G3 H1a NH (netOf f).LM (netOf f).C Ha)) := by
    cases z with
    | true => exact ⟨_, Or.inl ⟨rfl, rfl⟩, Or.inl ⟨rfl, rfl⟩⟩
    | false =>
      obtain ⟨o, h1, -, h3⟩ := (ho rfl).exists
      exact ⟨o, Or.inr ⟨rfl, h1⟩, Or.inr ⟨rfl, h3⟩⟩
  obtain ⟨p1, p2, p3⟩ := Kokkos.prepared_ok z hHa ra e2
  obtain ⟨H', M', o1, o2, -, o4, o5, o6⟩ := Kokkos.reverseH2_spec V' hg.types hg.typ_lt hw.H2wH1 hw.H2wM1 hN hLM p1 p2 p3 rb hMa gd
  exact ⟨_, H', M', reverseH2_spec hP.wok hg hN (H := a) (m := b) (Ga := d) (Ha := Ha) rfl rfl rfl z e1,
    (Kokkos.reverseH2_flag V' _ _ _ _ _ z H1 M1 H2a H1a M1a p2).trans o1, holds3_of o2 o4, holds2_of o5 o6⟩

/-- C108, `compute_readouts`: node energies, the total energy it returns, and both adjoints. -/
theorem C108_readouts (hf : FileOk f) (hk : FileOkK f ne) (hsrt : Poly.SortFn srt) (hL : load srt sph dsph f = some (P, s0))
    (hQ : Kokkos.load srt sph dsph junk ne f = some (Q, t0)) (hs : Hist f P s0 s) (hT : SysIn f T NH) (hN : T.N ≤ NH) (V : Kokkos.Env ℝ)
    {H1 H2 energies H1a H2a ro2 : View ℝ} {nv nd : ℕ → View ℝ} {x y E : List ℝ} (hH : Holds3 H1 x NH Q.LM Q.C)
    (h2 : Matrix H2 T.N Q.C) (h2' : Holds2 H2 y T.N Q.C) (hE : Holds1 energies E) (hE' : E.length = T.N) (hHa : Shaped H1a [Q.LM, Q.C] 0)
    (h2a : AnyMatrix H2a) (hro : Shaped ro2 [] 0) (hnv : ∀ l ≤ 2, AnyMatrix (nv l)) (hnd : ∀ l ≤ 2, AnyMatrix (nd l)) :
    ∃ s1 r, computeReadouts P (T.graph X) { s with H1 := x, H2 := y, nodeEnergies := E } = some s1 ∧
      Kokkos.computeReadouts V Q.C T.N T.types Q.atomicEnergies Q.ro1 Q.ex Q.mlp H1 H2 energies H1a H2a ro2 nv nd = some r ∧
      Holds1 r.energies s1.nodeEnergies ∧ r.energy = s1.nodeEnergies.sum ∧ Holds3 r.H1a s1.H1a NH Q.LM Q.C ∧
      Matrix r.H2a T.N Q.C ∧ Holds2 r.H2a s1.H2a T.N Q.C := by
  obtain ⟨hP, h3⟩ := loaded_of hf hsrt hL
  obtain ⟨k2, -⟩ := loadedK_of hf hk hsrt hQ
  have hs := hs.ok hf hP h3
  have hw := k2.wok
  rw [hw.LM, hw.C] at *
  obtain ⟨a, rfl, ra, ga⟩ := hH.exists
  obtain ⟨b, rfl, rb, gb⟩ := h2'.exists
  obtain ⟨e, he, ge⟩ := hE.all
  rw [hE'] at he ge
  subst he
  have hg : GOk (T.graph X) f.nT NH (confOf f sph T X) (nthN T.nn) X (fun e => len (X e)) := graph_ok hT le_rfl
  have hLM : 0 < (netOf f).LM := LM_pos _
  obtain ⟨ro, -, c1⟩ := computeReadouts_spec hP.wok hg hN
    (s := { s with H1 := T3 NH (netOf f).LM (netOf f).C a, H2 := tab2 T.N (netOf f).C b, nodeEnergies := tab T.N e })
    (H := a) (h := b) (E := e) (G := roGrad f) (I := RoIs f) rfl rfl rfl (by rw [hP.ex]; exact ro_ok f) hs.ro2
  obtain ⟨nn, Wt, hper, hL1, hn0, hnL, hro'⟩ := hw.ro2
  obtain ⟨HH, AD, r0, r1, r2, r3⟩ := hro' b
  obtain ⟨r, n1, n2, n2', n3, n4, n5, n6, n7, -⟩ := Kokkos.computeReadouts_spec V hg.types hg.typ_lt hw.atomE hw.ro1 hN hper hL1 hn0 hnL r1 r2 hLM
    ra (h := a) (fun i hi lm hlm k hk => ga i (lt_of_lt_of_le hi hN) lm hlm k hk) h2 (by rw [r0]; exact gb) ge hHa h2a hro hnv hnd
  have key : tab T.N (fun i => e i + (netOf f).atomE ((confOf f sph T X).typ i)
      + (∑ k ∈ Finset.range (netOf f).C, (netOf f).read1 k * a i 0 k) + (netOf f).read2 (b i))
      = tab T.N (fun i => e i + if i < T.N then (netOf f).atomE ((confOf f sph T X).typ i)
        + ∑ k ∈ Finset.range (netOf f).C, (netOf f).read1 k * a i 0 k + MLP.outF nn Wt HH 2 i 0 else 0) := by
    refine List.map_congr_left (fun i hi => ?_)
    rw [if_pos (List.mem_range.mp hi), (r3 i).1]
    ring
  refine ⟨_, r, c1, n1, ?_, ?_, holds3_of n3 n5, n6, ?_⟩
  · show Holds1 r.energies (tab T.N _)
    rw [key]
    exact holds1_of n2
  · rw [n2']
    show _ = (tab T.N _).sum
    rw [sum_tab]
    refine Finset.sum_congr rfl (fun i _ => ?_)
    rw [(r3 i).1]
    show _ = _
    ring
  · exact holds2_of n6.room (n7.congr (fun i _ k hk => ((r3 i).2 k hk).symm))

/-! ## Stages that read the geometry -/

/-- `compute_R0`, `compute_Y` and `compute_A0` of `MACEKokkos`. -/
noncomputable def kokkosToA0 (V : Kokkos.Env ℝ) (Q : Kokkos.Params ℝ) (g : Graph ℝ) (t : Kokkos.State ℝ) : Option (Kokkos.State ℝ) := do
  let r ← Kokkos.computeR0 V Q.C Q.lmax Q.atomicNumbers.length Q.R0h Q.R0c g t.R0 t.R0d
  let y ← Kokkos.computeY V Q.M Q.sph Q.dsph Q.nrm g.xyz t.Y t.Yg t.xs t.Ygs
  let A ← Kokkos.computeA0 V Q.C Q.M g r.1 y.1 t.A0
  some { t with R0 := r.1, R0d := r.2, Y := y.1, Yg := y.2.1, xs := y.2.2.1, Ygs := y.2.2.2, A0 := A }

/-- `compute_R1`, `compute_Y` and `compute_Phi1` of `MACEKokkos`. -/
noncomputable def kokkosToPhi1 (V : Kokkos.Env ℝ) (Q : Kokkos.Params ℝ) (g : Graph ℝ) (t : Kokkos.State ℝ) : Option (Kokkos.State ℝ) := do
  let r ← Kokkos.computeRadial V (Q.phil.length * Q.C) Q.radial1 g t.R1 t.R1d
  let y ← Kokkos.computeY V Q.M Q.sph Q.dsph Q.nrm g.xyz t.Y t.Yg t.xs t.Ygs
  let p ← Kokkos.computePhi1 V Q.C Q.M Q.numLelm Q.numLme Q.cg Q.tables g r.1 y.1 t.H1 t.Phi1r t.Phi1
  some { t with R1 := r.1, R1d := r.2, Y := y.1, Yg := y.2.1, xs := y.2.2.1, Ygs := y.2.2.2, Phi1r := p.1, Phi1 := p.2 }

/-- C108, `compute_A0` and `reverse_A0`. -/
theorem C108_A0 (hf : FileOk f) (hk : FileOkK f ne) (hsrt : Poly.SortFn srt) (hL : load srt sph dsph f = some (P, s0))
    (hQ : Kokkos.load srt sph dsph junk ne f = some (Q, t0)) (hT : SysIn f T NH) (hX : Inside f T X) (s : State ℝ) (ht : HistK f Q t)
    (V V' : Kokkos.Env ℝ) :
    ∃ s1 t1, toA0 P (T.graph X) s = some s1 ∧ kokkosToA0 V Q (T.graph X) t = some t1 ∧ Holds3 t1.A0 s1.A0 T.N Q.M Q.C ∧
      ∀ {A0a forces : View ℝ} {w F : List ℝ}, Holds3 A0a w T.N Q.M Q.C → Holds1 forces F → F.length = T.E * 3 →
        ∃ s2 forces', reverseA0 P (T.graph X) { s1 with A0a := w, nodeForces := F } = some s2 ∧
          Kokkos.reverseA0 V' Q.C Q.M (T.graph X) t1.R0 t1.R0d t1.Y t1.Yg A0a forces = some forces' ∧
          s2.nodeForces.length = T.E * 3 ∧ Holds1 forces' s2.nodeForces := by
  obtain ⟨h2, -⟩ := loaded_of hf hsrt hL
  obtain ⟨k2, -⟩ := loadedK_of hf hk hsrt hQ
  obtain ⟨hs1, -, -⟩ := ht.ok hf k2
  have hg : GOk (T.graph X) f.nT NH (confOf f sph T X) (nthN T.nn) (dconfOf f dsph T X).X (dconfOf f dsph T X).R := graph_ok hT le_rfl
  have hE : (T.graph X).Ex = (T.graph X).E := gx_Ex
  have hEx : (T.graph X).Ex = T.E := gx_Ex
  have hF : Kokkos.KFeat Q (netOf f) (T.graph X) f.phil.length (confOf f sph T X) (dconfOf f dsph T X) := Kokkos.kfeat hf hT k2 hX
  have hw := k2.wok
  obtain ⟨R0, R0d, a1, a2, a3, a4⟩ := Kokkos.computeR0_spec V hg (Kokkos.RadX.none hE) hs1.R0 hF.r0
  replace a3 := Kokkos.gl_of a3
  replace a4 := Kokkos.gl_of a4
  obtain ⟨Y, Yg, xs, Ygs, c1, c2, c3, c4, c5⟩ := Kokkos.computeY_spec V (M := (netOf f).M) (num := (T.graph X).E) (sph := Q.sph) (dsph := Q.dsph)
    (nrm := Q.nrm) (hg.xyz_len.trans (by rw [hE])) (fun e he a ha => hg.xyz_get' he ha) hs1.Y hs1.xs
  replace c4 : Kokkos.GF Y (T.graph X).E (netOf f).M (confOf f sph T X).Y := fun e he lm hlm => by rw [c4 e he lm hlm, hF.y e he lm hlm]
  replace c5 : Kokkos.GD Yg (T.graph X).E (netOf f).M (dconfOf f dsph T X).dY := fun e he a ha lm hlm => by
    rw [c5 e he a ha lm hlm, hF.dy e he a ha lm hlm]
  obtain ⟨A0, d1, d2, d3⟩ := Kokkos.computeA0_spec V (C := (netOf f).C) (lmax := (netOf f).lmax) rfl hg a3 c4 hs1.A0
  replace d3 : Kokkos.G3 A0 T.N (netOf f).M (netOf f).C (a0 (netOf f) (confOf f sph T X)) :=
    d3.congr (fun i hi lm _ k _ => (Kokkos.fold_a0 hg hi).symm)
  obtain ⟨Y', Yg', xs', o1, o2, e1, hY, hYg, r1, r2⟩ := toA0_spec hf hT h2 hX s
  rw [hw.M, hw.C]
  refine ⟨_, { t with R0 := R0, R0d := R0d, Y := Y, Yg := Yg, xs := xs, Ygs := Ygs, A0 := A0 }, e1, ?_, holds3_of d2 d3, ?_⟩
  · unfold kokkosToA0
    rw [hw.C, hw.M, hw.lmax]
    exact (bind_of_some a1 _).trans <| (bind_of_some c1 _).trans <| (bind_of_some d1 _).trans rfl
  · intro A0a forces w F hw' hfo hFl
    obtain ⟨b, rfl, rb, gb⟩ := hw'.exists
    obtain ⟨F, rfl, gF⟩ := hfo.force hFl
    obtain ⟨fo, x1, x2⟩ := Kokkos.reverseA0_spec V' (C := (netOf f).C) (lmax := (netOf f).lmax) rfl hg a3 a4 c4 c5 gb (by rw [hEx]; exact gF)
    refine ⟨_, fo, reverseA0_spec h2.wok hg (A := b) (F := F) (by rw [hEx]; exact hY) (by rw [hEx]; exact hYg) r1 r2 rfl (by rw [hEx]),
      x1, by rw [hEx]; simp, ?_⟩
    show Holds1 fo (tab2 (T.graph X).Ex 3 (fun e a => F e a
      + onE (T.graph X).nn (T.graph X).N (force0 (netOf f) (confOf f sph T X) (dconfOf f dsph T X) b) e a))
    refine holdsF_of (Kokkos.All.congr x2 (fun p => ?_))
    dsimp only
    rw [show ((netOf f).lmax + 1) * ((netOf f).lmax + 1) = (netOf f).M from rfl, Kokkos.fold_force]

/-- C108, `compute_A0_scaled` and `reverse_A0_scaled`. -/
theorem C108_A0_scaled (hf : FileOk f) (hk : FileOkK f ne) (hsrt : Poly.SortFn srt) (hL : load srt sph dsph f = some (P, s0))
    (hQ : Kokkos.load srt sph dsph junk ne f = some (Q, t0)) (hT : SysIn f T NH) (hX : Inside f T X) (_hn : ScalesNonzero f sph T X)
    (s : State ℝ) (ht : HistK f Q t) (V V' : Kokkos.Env ℝ) {A : View ℝ} {x : List ℝ} (hA : Holds3 A x T.N Q.M Q.C) :
    ∃ s1 sv sd A', computeA0Scaled P (T.graph X) { s with A0 := x } = some s1 ∧
      Kokkos.scaledFwd V Q.C Q.M Q.A0spl (T.graph X) t.A0sv t.A0sd A = some (sv, sd, A') ∧ Holds3 A' s1.A0 T.N Q.M Q.C ∧
      ∀ {Aa forces : View ℝ} {w F : List ℝ}, Holds3 Aa w T.N Q.M Q.C → Holds1 forces F → F.length = T.E * 3 →
        ∃ s2 forces' Aa', reverseA0Scaled P (T.graph X) { s1 with A0a := w, nodeForces := F } = some s2 ∧
          Kokkos.scaledBwd V' Q.C Q.M Q.A0spl (T.graph X) sv sd A' forces Aa = some (forces', Aa') ∧
          s2.nodeForces.length = T.E * 3 ∧ Holds1 forces' s2.nodeForces ∧ Holds3 Aa' s2.A0a T.N Q.M Q.C := by
  obtain ⟨h2, -⟩ := loaded_of hf hsrt hL
  obtain ⟨k2, -⟩ := loadedK_of hf hk hsrt hQ
  obtain ⟨hs1, -, -⟩ := ht.ok hf k2
  have hg : GOk (T.graph X) f.nT NH (confOf f sph T X) (nthN T.nn) (dconfOf f dsph T X).X (dconfOf f dsph T X).R := graph_ok hT le_rfl
  have hE : (T.graph X).Ex = (T.graph X).E := gx_Ex
  have hEx : (T.graph X).Ex = T.E := gx_Ex
  have hF : Kokkos.KFeat Q (netOf f) (T.graph X) f.phil.length (confOf f sph T X) (dconfOf f dsph T X) := Kokkos.kfeat hf hT k2 hX
  have hfe : FeatOk P (netOf f) (T.graph X) f.phil.length (confOf f sph T X) (dconfOf f dsph T X) := feat_ok hf hT h2 hX
  have hw := k2.wok
  rw [hw.M, hw.C] at *
  obtain ⟨a, rfl, ra, ga⟩ := hA.exists
  obtain ⟨sv, sd, A', e1, -, e3, e4, e5⟩ := Kokkos.scaledFwd_spec' V V' hg (Kokkos.ScX.none hE) hF.s0 hs1.A0s ra ga
  refine ⟨_, sv, sd, A', computeA0Scaled_spec (a := a) h2.wok hg hfe.s0 rfl, e1, holds3_of e3 e4, ?_⟩
  intro Aa forces w F hw' hfo hFl
  obtain ⟨b, rfl, rb, gb⟩ := hw'.exists
  obtain ⟨F, rfl, gF⟩ := hfo.force hFl
  obtain ⟨fo, Aa', w1, w2, w3, w4⟩ := e5 (dconfOf f dsph T X) rfl hg rb gb (by rw [hEx]; exact gF)
  refine ⟨_, fo, Aa', reverseA0Scaled_spec (d := dconfOf f dsph T X) h2.wok hg hfe.s0
    (A := fun i lm k => a i lm k / (confOf f sph T X).s0 i) (Aa := b) (F := F) rfl rfl (by rw [hEx]), w1, by rw [hEx]; simp,
    holdsF_of w2, holds3_of w3 w4⟩

/-- C108, `compute_A1_scaled` and `reverse_A1_scaled`, accumulating on both sides (`zero_dxyz = false` for `MACE`). -/
theorem C108_A1_scaled (hf : FileOk f) (hk : FileOkK f ne) (hsrt : Poly.SortFn srt) (hL : load srt sph dsph f = some (P, s0))
    (hQ : Kokkos.load srt sph dsph junk ne f = some (Q, t0)) (hT : SysIn f T NH) (hX : Inside f T X) (_hn : ScalesNonzero f sph T X)
    (s : State ℝ) (ht : HistK f Q t) (V V' : Kokkos.Env ℝ) {A : View ℝ} {x : List ℝ} (hA : Holds3 A x T.N Q.M Q.C) :
    ∃ s1 sv sd A', computeA1Scaled P (T.graph X) { s with A1 := x } = some s1 ∧
      Kokkos.scaledFwd V Q.C Q.M Q.A1spl (T.graph X) t.A1sv t.A1sd A = some (sv, sd, A') ∧ Holds3 A' s1.A1 T.N Q.M Q.C ∧
      ∀ {Aa forces : View ℝ} {w F : List ℝ}, Holds3 Aa w T.N Q.M Q.C → Holds1 forces F → F.length = T.E * 3 →
        ∃ s2 forces' Aa', reverseA1Scaled P (T.graph X) false { s1 with A1a := w, nodeForces := F } = some s2 ∧
          Kokkos.scaledBwd V' Q.C Q.M Q.A1spl (T.graph X) sv sd A' forces Aa = some (forces', Aa') ∧
          s2.nodeForces.length = T.E * 3 ∧ Holds1 forces' s2.nodeForces ∧ Holds3 Aa' s2.A1a T.N Q.M Q.C := by
  obtain ⟨h2, -⟩ := loaded_of hf hsrt hL
  obtain ⟨k2, -⟩ := loadedK_of hf hk hsrt hQ
  obtain ⟨hs1, -, -⟩ := ht.ok hf k2
  have hg : GOk (T.graph X) f.nT NH (confOf f sph T X) (nthN T.nn) (dconfOf f dsph T X).X (dconfOf f dsph T X).R := graph_ok hT le_rfl
  have hE : (T.graph X).Ex = (T.graph X).E := gx_Ex
  have hEx : (T.graph X).Ex = T.E := gx_Ex
  have hF : Kokkos.KFeat Q (netOf f) (T.graph X) f.phil.length (confOf f sph T X) (dconfOf f dsph T X) := Kokkos.kfeat hf hT k2 hX
  have hfe : FeatOk P (netOf f) (T.graph X) f.phil.length (confOf f sph T X) (dconfOf f dsph T X) := feat_ok hf hT h2 hX
  have hw := k2.wok
  rw [hw.M, hw.C] at *
  obtain ⟨a, rfl, ra, ga⟩ := hA.exists
  obtain ⟨sv, sd, A', e1, -, e3, e4, e5⟩ := Kokkos.scaledFwd_spec' V V' hg (Kokkos.ScX.none hE) hF.s1 hs1.A1s ra ga
  refine ⟨_, sv, sd, A', computeA1Scaled_spec (a := a) h2.wok hg hfe.s1 rfl, e1, holds3_of e3 e4, ?_⟩
  intro Aa forces w F hw' hfo hFl
  obtain ⟨b, rfl, rb, gb⟩ := hw'.exists
  obtain ⟨F, rfl, gF⟩ := hfo.force hFl
  obtain ⟨fo, Aa', w1, w2, w3, w4⟩ := e5 (dconfOf f dsph T X) rfl hg rb gb (by rw [hEx]; exact gF)
  refine ⟨_, fo, Aa', reverseA1Scaled_spec (d := dconfOf f dsph T X) h2.wok hg hfe.s1
    (A := fun i lm k => a i lm k / (confOf f sph T X).s1 i) (Aa := b) (F := F) rfl rfl (by rw [hEx]), w1, by rw [hEx]; simp,
    holdsF_of w2, holds3_of w3 w4⟩

/-- C108, `compute_Phi1` and `reverse_Phi1`, for all values of `zero_dxyz` and `zero_H1_adj`; views that are too short are enlarged. -/
theorem C108_Phi1 (hf : FileOk f) (hk : FileOkK f ne) (hsrt : Poly.SortFn srt) (hL : load srt sph dsph f = some (P, s0))
    (hQ : Kokkos.load srt sph dsph junk ne f = some (Q, t0)) (hT : SysIn f T NH) (hX : Inside f T X) (s : State ℝ) (ht : HistK f Q t)
    (V V' : Kokkos.Env ℝ) {H1 : View ℝ} {x : List ℝ} (hH : Holds3 H1 x NH Q.LM Q.C) :
    ∃ s1 t1, toPhi1 P (T.graph X) { s with H1 := x } = some s1 ∧ kokkosToPhi1 V Q (T.graph X) { t with H1 := H1 } = some t1 ∧
      Holds3 t1.Phi1r s1.Phi1r T.N Q.numLelm Q.C ∧ Holds3 t1.Phi1 s1.Phi1 T.N Q.numLme Q.C ∧
      ∀ {dPhi1 dPhi1r forces H1a : View ℝ} {w F old : List ℝ} (zf zh : Bool), Holds3 dPhi1 w T.N Q.numLme Q.C →
        Shaped dPhi1r [Q.numLelm, Q.C] 0 → AnyVector forces → (zf = false → Holds1 forces F ∧ F.length = T.E * 3) →
        Shaped H1a [Q.LM, Q.C] 0 → (zh = false → Holds3 H1a old NH Q.LM Q.C) →
        ∃ s2 dPhi1r' forces' H1a', reversePhi1 P (T.graph X) zf zh { s1 with dPhi1 := w, nodeForces := F, H1a := old } = some s2 ∧
          Kokkos.reversePhi1 V' Q.C Q.M Q.numLelm Q.cg Q.tables (T.graph X) zf zh t1.R1 t1.R1d t1.Y t1.Yg H1 t1.Phi1r dPhi1 dPhi1r forces H1a
            = some (dPhi1r', forces', H1a') ∧
          s2.nodeForces.length = T.E * 3 ∧ Holds1 forces' s2.nodeForces ∧ Holds3 H1a' s2.H1a NH Q.LM Q.C := by
  obtain ⟨h2, -⟩ := loaded_of hf hsrt hL
  obtain ⟨k2, -⟩ := loadedK_of hf hk hsrt hQ
  obtain ⟨hs1, -, -⟩ := ht.ok hf k2
  have hg : GOk (T.graph X) f.nT NH (confOf f sph T X) (nthN T.nn) (dconfOf f dsph T X).X (dconfOf f dsph T X).R := graph_ok hT le_rfl
  have hE : (T.graph X).Ex = (T.graph X).E := gx_Ex
  have hEx : (T.graph X).Ex = T.E := gx_Ex
  have hxl : (T.graph X).xyz.length = 3 * T.E := by rw [hg.xyz_len, hEx, mul_comm]
  have hF : Kokkos.KFeat Q (netOf f) (T.graph X) f.phil.length (confOf f sph T X) (dconfOf f dsph T X) := Kokkos.kfeat hf hT k2 hX
  have hw := k2.wok
  rw [hw.M, hw.C, hw.LM, hw.nQ, hw.nOut] at *
  obtain ⟨a, rfl, ra, ga⟩ := hH.exists
  obtain ⟨R1, R1d, b1, b2, b3, b4⟩ := Kokkos.computeRadial_spec V hF.n1 hg (Kokkos.RadX.none hE) hs1.R1 hF.r1
  replace b3 := Kokkos.gl_of b3
  replace b4 := Kokkos.gl_of b4
  obtain ⟨Y, Yg, xs, Ygs, c1, c2, c3, c4, c5⟩ := Kokkos.computeY_spec V (M := (netOf f).M) (num := (T.graph X).E) (sph := Q.sph) (dsph := Q.dsph)
    (nrm := Q.nrm) (hg.xyz_len.trans (by rw [hE])) (fun e he a ha => hg.xyz_get' he ha) hs1.Y hs1.xs
  replace c4 : Kokkos.GF Y (T.graph X).E (netOf f).M (confOf f sph T X).Y := fun e he lm hlm => by rw [c4 e he lm hlm, hF.y e he lm hlm]
  replace c5 : Kokkos.GD Yg (T.graph X).E (netOf f).M (dconfOf f dsph T X).dY := fun e he a ha lm hlm => by
    rw [c5 e he a ha lm hlm, hF.dy e he a ha lm hlm]
  obtain ⟨Pr, Ph, i1, i2, i3, i4, i5⟩ := Kokkos.computePhi1_spec V hw.tabs hg b3 c4 ga hs1.Phi1r hs1.Phi1
  obtain ⟨Y', Yg', xs', o1, o2, e1, hY, hYg, r1, r2⟩ := toPhi1_spec hf hT h2 hX { s with H1 := T3 NH (netOf f).LM (netOf f).C a } rfl
  refine ⟨_, { t with H1 := H1, R1 := R1, R1d := R1d, Y := Y, Yg := Yg, xs := xs, Ygs := Ygs, Phi1r := Pr, Phi1 := Ph }, e1, ?_,
    holds3_of i2 i3, holds3_of i4 i5, ?_⟩
  · unfold kokkosToPhi1
    rw [hw.C, hw.M, hw.len, hw.nQ, hw.nOut]
    exact (bind_of_some b1 _).trans <| (bind_of_some c1 _).trans <| (bind_of_some i1 _).trans rfl
  · intro dPhi1 dPhi1r forces H1a w F old zf zh hw' hDr hfo hfo' hHa hHa'
    obtain ⟨b, rfl, rb, gb⟩ := hw'.exists
    obtain ⟨F', f1, f2⟩ : ∃ F' : ℕ → ℕ → ℝ, ((zf = true ∧ F' = fun _ _ => 0) ∨ (zf = false ∧ F = tab2 T.E 3 F')) ∧
        ((zf = true ∧ F' = fun _ _ => 0) ∨ (zf = false ∧ Kokkos.Fc forces T.E F')) := by
      cases zf with
      | true => exact ⟨_, Or.inl ⟨rfl, rfl⟩, Or.inl ⟨rfl, rfl⟩⟩
      | false =>
        obtain ⟨F', h1, h3⟩ := (hfo' rfl).1.force (hfo' rfl).2
        exact ⟨F', Or.inr ⟨rfl, h1⟩, Or.inr ⟨rfl, h3⟩⟩
    obtain ⟨Ha, g1, g2⟩ : ∃ Ha : ℕ → ℕ → ℕ → ℝ, ((zh = true ∧ Ha = fun _ _ _ => 0) ∨ (zh = false ∧ old = T3 NH (netOf f).LM (netOf f).C Ha)) ∧
        ((zh = true ∧ Ha = fun _ _ _ => 0) ∨ (zh = false ∧ Kokkos.G3 H1a NH (netOf f).LM (netOf f).C Ha)) := by
      cases zh with
      | true => exact ⟨_, Or.inl ⟨rfl, rfl⟩, Or.inl ⟨rfl, rfl⟩⟩
      | false =>
        obtain ⟨o, h1, -, h3⟩ := (hHa' rfl).exists
        exact ⟨o, Or.inr ⟨rfl, h1⟩, Or.inr ⟨rfl, h3⟩⟩
    obtain ⟨p1, p2, p3⟩ := Kokkos.prepared_ok zh hHa ra g2
    have p4 := Kokkos.preparedF_ok zf hfo f2
    obtain ⟨Dr, fo, Ha', t1, t2, t3, t4, t5, t6⟩ := Kokkos.reversePhi1_spec V' hw.tabs hg b3 b4 c4 c5 ga i2 gb hDr
      (by rw [hEx]; exact p4) p1 p2 p3
    refine ⟨_, Dr, fo, Ha', reversePhi1_spec h2.wok hg (H := a) (D := b) (F := F') (Ha := Ha) (by rw [hEx]; exact hY) (by rw [hEx]; exact hYg)
      r1 r2 rfl rfl rfl zf zh (by rw [hEx]; exact f1) g1, ?_, by rw [hEx]; simp, ?_, holds3_of t4 t6⟩
    · rw [Kokkos.reversePhi1_flag V' _ _ _ _ _ _ zf zh _ _ _ _ _ _ _ _ _ _ p2, hxl]
      exact t1
    · exact holdsF_of t3

/-! ## The default call of `reverse_A1_scaled` -/

/-- The call of `reverse_A1_scaled` the Python bindings make leaves the same forces in `MACE` and in `MACEKokkos`. -/
def A1ScaledCallsAgree (f : File) (P : Params ℝ) (Q : Kokkos.Params ℝ) (T : Sys) (X : ℕ → ℕ → ℝ)
    (F : List ℝ) : Prop :=
  ∀ (s : State ℝ) (t : Kokkos.State ℝ), HistK f Q t → ∀ (V V' : Kokkos.Env ℝ) (A Aa forces : View ℝ) (x w : List ℝ),
    Holds3 A x T.N Q.M Q.C → Holds3 Aa w T.N Q.M Q.C → Holds1 forces F →
    ∃ s1 s2 sv sd A' forces' Aa', computeA1Scaled P (T.graph X) { s with A1 := x } = some s1 ∧
      reverseA1Scaled P (T.graph X) true { s1 with A1a := w, nodeForces := F } = some s2 ∧
      Kokkos.scaledFwd V Q.C Q.M Q.A1spl (T.graph X) t.A1sv t.A1sd A = some (sv, sd, A') ∧
      Kokkos.scaledBwd V' Q.C Q.M Q.A1spl (T.graph X) sv sd A' forces Aa = some (forces', Aa') ∧ Holds1 forces' s2.nodeForces

/-- C109 holds for files without that normalisation and for forces that are zero before the call.
Missing: other forces, see `C109_violated`. -/
theorem C109_default_call_partial (hf : FileOk f) (hk : FileOkK f ne) (hsrt : Poly.SortFn srt) (hL : load srt sph dsph f = some (P, s0))
    (hQ : Kokkos.load srt sph dsph junk ne f = some (Q, t0)) (hT : SysIn f T NH) (hX : Inside f T X) (hn : ScalesNonzero f sph T X)
    {F : List ℝ} (hF : F.length = T.E * 3) (h : f.A1scaled = false ∨ F = List.replicate (T.E * 3) 0) : A1ScaledCallsAgree f P Q T X F := by
  intro s t ht V V' A Aa forces x w hA hAa hfo
  obtain ⟨s1, sv, sd, A', c1, c2, c3, c4⟩ := C108_A1_scaled hf hk hsrt hL hQ hT hX hn s ht V V' hA
  obtain ⟨s2, fo, Aa', d1, d2, -, d3, -⟩ := c4 hAa hfo hF
  refine ⟨s1, s2, sv, sd, A', fo, Aa', c1, ?_, c2, d2, d3⟩
  rw [← d1]
  have hl : (T.graph X).xyz.length = T.E * 3 := by
    have hg : GOk (T.graph X) f.nT NH (confOf f sph T X) (nthN T.nn) X (fun e => len (X e)) := graph_ok hT le_rfl
    exact hg.xyz_len.trans (by rw [show (T.graph X).Ex = T.E from gx_Ex])
  by_cases hs : P.A1scaled = true
  · rw [reverseA1Scaled_flag P _ _ true hs, reverseA1Scaled_flag P _ _ false hs]
    have hF0 : F = List.replicate (T.E * 3) 0 := h.resolve_left (by rw [← (loaded_of hf hsrt hL).1.A1s, hs]; simp)
    rw [hl, hF0, if_pos rfl, if_neg (by simp)]
    dsimp only
    rw [resize_eq (by simp)]
  · unfold reverseA1Scaled
    rw [if_neg hs, if_neg hs]

/-- A view with `N` rows of zeros. -/
theorem holds3_zero (N n m : ℕ) : Holds3 ((View.new [N, n, m] 0).fill 0) (T3 N n m (fun _ _ _ => 0)) N n m :=
  holds3_of ((Kokkos.Room.new [n, m] N 0).fill 0) (Kokkos.G3.fill (Kokkos.Room.new [n, m] N 0))

/-- Two runs of `reverse_A1_scaled` of `MACE`: what they leave differs by the forces before. -/
theorem reverseA1Scaled_old (hf : FileOk f) (hP : Loaded f sph dsph P) (hT : SysIn f T NH) (hX : Inside f T X) (s : State ℝ)
    (a w : ℕ → ℕ → ℕ → ℝ) : ∃ s1, computeA1Scaled P (T.graph X) { s with A1 := T3 T.N (netOf f).M (netOf f).C a } = some s1 ∧
      ∃ G : ℕ → ℕ → ℝ, ∀ F : ℕ → ℕ → ℝ, ∃ s2, reverseA1Scaled P (T.graph X) false { s1 with
        A1a := T3 T.N (netOf f).M (netOf f).C w, nodeForces := tab2 T.E 3 F } = some s2 ∧ s2.nodeForces = tab2 T.E 3 (fun e a => F e a + G e a) := by
  have hg : GOk (T.graph X) f.nT NH (confOf f sph T X) (nthN T.nn) (dconfOf f dsph T X).X (dconfOf f dsph T X).R := graph_ok hT le_rfl
  have hEx : (T.graph X).Ex = T.E := gx_Ex
  have hfe : FeatOk P (netOf f) (T.graph X) f.phil.length (confOf f sph T X) (dconfOf f dsph T X) := feat_ok hf hT hP hX
  refine ⟨_, computeA1Scaled_spec (a := a) hP.wok hg hfe.s1 rfl, onE (T.graph X).nn (T.graph X).N (forceS (netOf f).M (netOf f).C
    (dconfOf f dsph T X) (confOf f sph T X).s1 (dconfOf f dsph T X).ds1 (fun i lm k => a i lm k / (confOf f sph T X).s1 i) w),
    fun F => ⟨_, reverseA1Scaled_spec (d := dconfOf f dsph T X) hP.wok hg hfe.s1
    (A := fun i lm k => a i lm k / (confOf f sph T X).s1 i) (Aa := w) (F := F) rfl rfl (by rw [hEx]), ?_⟩⟩
  rw [hEx]

/-- With that normalisation the calls agree only if the forces are zero before. -/
theorem C109_only_if_zero (hf : FileOk f) (hk : FileOkK f ne) (hsrt : Poly.SortFn srt) (hL : load srt sph dsph f = some (P, s0))
    (hQ : Kokkos.load srt sph dsph junk ne f = some (Q, t0)) (hT : SysIn f T NH) (hX : Inside f T X) (hn : ScalesNonzero f sph T X)
    {F : List ℝ} (hF : F.length = T.E * 3) (hs : f.A1scaled = true) (h : A1ScaledCallsAgree f P Q T X F) :
    F = List.replicate (T.E * 3) 0 := by
  obtain ⟨h2, -⟩ := loaded_of hf hsrt hL
  obtain ⟨k2, -⟩ := loadedK_of hf hk hsrt hQ
  have hA := holds3_zero T.N Q.M Q.C
  have hfo : Holds1 ⟨[F.length], F⟩ F := by
    refine ⟨by simp [View.Ok], _, rfl, le_rfl, fun p hp => ?_⟩
    unfold View.get
    show (flat [F.length] [p] 0).bind _ = _
    rw [flat_one hp]
    rfl
  obtain ⟨s1, s2, sv, sd, A', fo, Aa', e1, e2, e3, e4, e5⟩ := h s0 _ .init (Kokkos.Env.simple ℝ) (Kokkos.Env.simple ℝ) _ _ _ _ _ hA hA hfo
  obtain ⟨s1', sv', sd', A'', c1, c2, -, c4⟩ := C108_A1_scaled hf hk hsrt hL hQ hT hX hn s0 .init
    (Kokkos.Env.simple ℝ) (Kokkos.Env.simple ℝ) hA
  obtain rfl := Option.some.inj (e1.symm.trans c1)
  obtain ⟨rfl, rfl, rfl⟩ : sv = sv' ∧ sd = sd' ∧ A' = A'' := by simpa using e3.symm.trans c2
  obtain ⟨s2', fo', Aa'', d1, d2, -, d3, -⟩ := c4 hA hfo hF
  obtain ⟨rfl, -⟩ : fo = fo' ∧ Aa' = Aa'' := by simpa using e4.symm.trans d2
  have hw := k2.wok
  rw [hw.M, hw.C] at *
  obtain ⟨s1', q1, G, q2⟩ := reverseA1Scaled_old (X := X) hf h2 hT hX s0 (fun _ _ _ => 0) (fun _ _ _ => 0)
  obtain rfl := Option.some.inj (e1.symm.trans q1)
  have hg : GOk (T.graph X) f.nT NH (confOf f sph T X) (nthN T.nn) (dconfOf f dsph T X).X (dconfOf f dsph T X).R := graph_ok hT le_rfl
  have hl : (T.graph X).xyz.length = T.E * 3 := hg.xyz_len.trans (by rw [show (T.graph X).Ex = T.E from gx_Ex])
  obtain ⟨F, rfl⟩ := ex_tab2 hF
  rw [reverseA1Scaled_flag P _ _ true (by rw [h2.A1s]; exact hs), if_pos rfl, hl, ← zeros_tab2] at e2
  obtain ⟨u1, v1, m1⟩ := q2 (fun _ _ => 0)
  obtain ⟨u2, v2, m2⟩ := q2 F
  obtain rfl := Option.some.inj (v1.symm.trans e2)
  obtain rfl := Option.some.inj (v2.symm.trans d1)
  rw [m1] at e5
  rw [m2] at d3
  obtain ⟨-, n, -, -, x1⟩ := e5
  obtain ⟨-, n', -, -, x2⟩ := d3
  rw [← zeros_tab2]
  refine tab2_congr (fun e he a ha => ?_)
  have hp : e * 3 + a < T.E * 3 := by omega
  have y := (x1 (e * 3 + a) (by simpa using hp)).symm.trans (x2 (e * 3 + a) (by simpa using hp))
  rw [getElem?_tab2 he ha, getElem?_tab2 he ha, Option.some.injEq] at y
  linarith

theorem exFileS_ok : FileOk exFileS := { exFile_ok with A1s := fun _ => exFile_ok.A0s rfl }

theorem exFileS_okK : FileOkK exFileS 2 where
  elements := exFile_okK.elements
  mono0 := exFile_okK.mono0
  mono1 := exFile_okK.mono1
  A0s := exFile_okK.A0s
  A1s := fun _ => exFile_okK.A0s rfl

theorem exSysS_ok : SysOk exFileS exSys :=
  ⟨exSys_ok.types, exSys_ok.typ, exSys_ok.nn, exSys_ok.idx, exSys_ok.nbr, exSys_ok.ntypes, exSys_ok.nty⟩

theorem exInsideS : Inside exFileS exSys exX := by
  intro e he
  obtain ⟨h1, h2, h3, h4, -⟩ := exInside e he
  exact ⟨h1, h2, h3, h4, fun _ => h4 rfl⟩

theorem exScalesS : ScalesNonzero exFileS exSph exSys exX := fun i hi => ⟨(exScales i hi).1, (exScales i hi).1⟩

/-- C109 fails for the default calls: `MACE` clears the forces, `MACEKokkos` adds to them. -/
theorem C109_violated : ∃ (f : File) (ne : ℕ) (sph : ℝ → ℝ → ℝ → ℕ → ℝ) (dsph : ℝ → ℝ → ℝ → ℕ → ℕ → ℝ)
    (srt : List (List (List ℕ)) → List (List (List ℕ))) (P : Params ℝ) (s0 : State ℝ) (Q : Kokkos.Params ℝ) (T : Sys) (X : ℕ → ℕ → ℝ)
    (F : List ℝ), FileOk f ∧ FileOkK f ne ∧ Poly.SortFn srt ∧ load srt sph dsph f = some (P, s0) ∧
    Kokkos.load srt sph dsph (fun _ _ => 0) ne f = some (Q, Kokkos.State.init ℝ) ∧ SysOk f T ∧ Inside f T X ∧ ScalesNonzero f sph T X ∧
    F.length = T.E * 3 ∧ ¬ A1ScaledCallsAgree f P Q T X F := by
  obtain ⟨P, s0, l1, -, -⟩ := load_spec exFileS_ok exSort exSph exDsph
  obtain ⟨Q, k1, -⟩ := Kokkos.load_spec exFileS_ok exFileS_okK exSort exSph exDsph (fun _ _ => 0)
  refine ⟨exFileS, 2, exSph, exDsph, _, P, s0, Q, exSys, exX, List.replicate (exSys.E * 3) 1, exFileS_ok, exFileS_okK, exSort, l1, k1, exSysS_ok,
    exInsideS, exScalesS, by simp, fun h => ?_⟩
  have := C109_only_if_zero exFileS_ok exFileS_okK exSort l1 k1 exSysS_ok exInsideS exScalesS (by simp) rfl h
  simp [exSys, Sys.E] at this

/-- The hypotheses are met by the example file and system, for a state of views after a call-free history, with more nodes than centres. -/
example : ∃ srt P s0 Q, load srt exSph exDsph exFileS = some (P, s0) ∧
    Kokkos.load srt exSph exDsph (fun _ _ => 0) 2 exFileS = some (Q, Kokkos.State.init ℝ) ∧ FileOk exFileS ∧ FileOkK exFileS 2 ∧ Poly.SortFn srt ∧
    SysIn exFileS exSys 5 ∧ exSys.N ≤ 5 ∧ Inside exFileS exSys exX ∧ ScalesNonzero exFileS exSph exSys exX ∧
    HistK exFileS Q (Kokkos.State.init ℝ) ∧ Holds3 ((View.new [5, Q.LM, Q.C] 0).fill 0) (T3 5 Q.LM Q.C (fun _ _ _ => 0)) 5 Q.LM Q.C := by
  obtain ⟨P, s0, l1, -, -⟩ := load_spec exFileS_ok exSort exSph exDsph
  obtain ⟨Q, k1, -⟩ := Kokkos.load_spec exFileS_ok exFileS_okK exSort exSph exDsph (fun _ _ => 0)
  exact ⟨_, P, s0, Q, l1, k1, exFileS_ok, exFileS_okK, exSort, ⟨exSys_ok.types, exSys_ok.typ, exSys_ok.nn, exSys_ok.idx,
    fun e he => (exSys_ok.nbr e he).trans (by decide), exSys_ok.ntypes, exSys_ok.nty⟩, by decide, exInsideS, exScalesS, .init, holds3_zero _ _ _⟩

end Verif.Props
