import Verif.Lemmas.Kokkos.SplineClasses
import Verif.Props.Spline

/-! # Properties C83, C84: the spline classes of the Kokkos library -/

namespace Verif.Props
open Verif.Par Verif.Kokkos Verif.Spline

section
variable {K : Type} [Field K] [LinearOrder K] [IsStrictOrderedRing K] [FloorRing K]

/-- C83, what holds: in shared memory, whatever the order in which the constructor's kernel runs, `CubicSplineKokkos` built from node
data is the CPU spline of the same data: `evaluate` agrees at every `r`, including the exceptions; the two derivative evaluators agree
for `0 ≤ r < h*(n-1)`.  Missing: separate memories (`C83_violated`); the derivative evaluators beyond the table (C13). -/
theorem C83_spline_class_partial (V : Env K) (h : K) (hh : 0 < h) (vals derivs : List K) (hn : 2 ≤ vals.length)
    (hlen : vals.length = derivs.length) : ∃ s sc, SplineK.mk? V true h vals derivs = some s ∧ CubicSpline.mk? h vals derivs = some sc ∧
      (∀ r, s.evaluate r = sc.evaluate r) ∧
      ∀ r, 0 ≤ r → r < h * (vals.length - 1 : ℕ) →
        s.evaluateDeriv r = sc.evaluateDeriv r ∧ s.evaluateDerivDivided r = sc.evaluateDerivDivided r := by
  obtain ⟨s, sc, e1, e2, e3, e4, e5, e6, -⟩ := splineK_mk V true h (by omega) hlen.le
  have hm : s.mirror = sc := by
    unfold SplineK.mirror
    rw [e3, if_pos rfl, e4, e6, ← e5]
  refine ⟨s, sc, e1, e2, fun r => ?_, fun r h0 h1 => ?_⟩
  · unfold SplineK.evaluate
    rw [hm]
    rfl
  · unfold SplineK.evaluateDeriv SplineK.evaluateDerivDivided
    rw [hm]
    exact (C13_kokkos_bounds_partial h hh vals derivs hn hlen sc e2 r).2.1 h0 h1

example : (2 : ℕ) ≤ ([0, 1, 5] : List ℚ).length ∧ ([0, 1, 5] : List ℚ).length = ([1, 0, 1] : List ℚ).length ∧ (0 : ℚ) < 1 := by simp

end

/-- C83 fails when the device has its own memory: nothing is copied into the mirror of the coefficients, so the spline of the constant
`1` returns `0`. -/
theorem C83_violated (V : Env ℚ) : ∃ s sc, SplineK.mk? V false (1 : ℚ) [1, 1] [0, 0] = some s ∧ CubicSpline.mk? (1 : ℚ) [1, 1] [0, 0] = some sc ∧
    sc.evaluate 0 = .ret 1 ∧ s.evaluate 0 = .ret 0 := by
  obtain ⟨s, sc, e1, e2, e3, e4, e5, e6, e7⟩ := splineK_mk V false (1 : ℚ) (vals := [1, 1]) (derivs := [0, 0]) (by simp) le_rfl
  refine ⟨s, sc, e1, e2, ?_, ?_⟩
  · have := (eval_on (K := ℚ) (h := 1) (vals := [1, 1]) (derivs := [0, 0]) one_pos (by simp) le_rfl e2 (i := 0) (r := 0) (by simp) (by simp) (by simp)).1
    rw [this]
    simp [seg]
  · have hm : s.mirror = ⟨1, List.replicate 4 0⟩ := by
      unfold SplineK.mirror
      rw [e3, e4, e6, e7]
      simp
    unfold SplineK.evaluate
    rw [hm]
    have ht : truncInt (0 : ℚ) = 0 := by simp [truncInt]
    simp [CubicSpline.evaluateKokkos, CubicSpline.evaluate, ht, coeffs4]

section
variable {K : Type} [Field K] [LinearOrder K] [IsStrictOrderedRing K] [FloorRing K]

/-- `sj` is the single CPU spline of the `j`-th node data. -/
def IsMember (h : K) (vals derivs : List (List K)) (j : ℕ) (sj : CubicSpline K) : Prop :=
  ∃ v d, vals[j]? = some v ∧ derivs[j]? = some d ∧ CubicSpline.mk? h v d = some sj

/-- C84: for `0 ≤ r < h*(n-1)` (every entry of the batch, for the batched overload) and every execution order, slot `j` of
the outputs of `CubicSplineSetKokkos` is what the `j`-th single spline of the CPU library returns, and other cells keep their value.
`v`, `w` may be larger than needed and hold anything.  Objects built by the constructor from vectors; overloads on spans in shared memory. -/
theorem C84_spline_set_class (V : Env K) (S n : ℕ) (vals derivs : List (List K)) (H : Rect S n vals derivs) (hS : 0 < S)
    (hn : 2 ≤ n) (h : K) (hh : 0 < h) : ∃ s : SetK K, SetK.mk? h vals derivs = some s ∧
      (∀ r, 0 ≤ r → r < h * (n - 1 : ℕ) →
        (∀ v : View K, Room v [] S → ∃ v', s.evaluate V r v = some v' ∧ v'.ext = v.ext ∧
          (∀ j < S, ∃ sj y, IsMember h vals derivs j sj ∧ sj.evaluate r = .ret y ∧ v'.get [j] = some y) ∧
          ∀ c, (∀ j < S, c ≠ [j]) → v'.get c = v.get c) ∧
        (∀ v w : View K, Room v [] S → Room w [] S → ∃ v' w', s.evaluateDerivs V r v w = some (v', w') ∧ (v'.ext = v.ext ∧ w'.ext = w.ext) ∧
          (∀ j < S, ∃ sj y y', IsMember h vals derivs j sj ∧ sj.evaluateDeriv r = .ret (y, y') ∧ v'.get [j] = some y ∧ w'.get [j] = some y') ∧
          ∀ c, (∀ j < S, c ≠ [j]) → v'.get c = v.get c ∧ w'.get c = w.get c) ∧
        (∀ v : List K, S ≤ v.length → ∃ v', s.evaluateSpan V true r v = some v' ∧ v'.length = v.length ∧
          (∀ j < S, ∃ sj y, IsMember h vals derivs j sj ∧ sj.evaluate r = .ret y ∧ v'[j]? = some y) ∧
          ∀ j, S ≤ j → v'[j]? = v[j]?) ∧
        (∀ v w : List K, S ≤ v.length → S ≤ w.length → ∃ v' w', s.evaluateDerivsSpan V true r v w = some (v', w') ∧
          (v'.length = v.length ∧ w'.length = w.length) ∧
          (∀ j < S, ∃ sj y y', IsMember h vals derivs j sj ∧ sj.evaluateDeriv r = .ret (y, y') ∧ v'[j]? = some y ∧ w'[j]? = some y') ∧
          ∀ j, S ≤ j → v'[j]? = v[j]? ∧ w'[j]? = w[j]?)) ∧
      (∀ r : List K, (∀ x ∈ r, 0 ≤ x ∧ x < h * (n - 1 : ℕ)) → ∀ v w : View K, Room v [S] r.length → Room w [S] r.length →
        ∃ v' w', s.evaluateDerivsBatch V r v w = some (v', w') ∧ (v'.ext = v.ext ∧ w'.ext = w.ext) ∧
          (∀ m (hm : m < r.length), ∀ j < S, ∃ sj y y', IsMember h vals derivs j sj ∧ sj.evaluateDeriv r[m] = .ret (y, y') ∧
            v'.get [m, j] = some y ∧ w'.get [m, j] = some y') ∧
          ∀ c, (∀ m < r.length, ∀ j < S, c ≠ [m, j]) → v'.get c = v.get c ∧ w'.get c = w.get c) := by
  obtain ⟨s, e1, e2, e3, e4, e5, e6⟩ := setK_mk h H hS (by omega)
  have O : SetOkK s h vals derivs n S := ⟨e2, e4, e5, e6⟩
  have M : ∀ {i r}, i + 1 < n → h * (i : ℕ) ≤ r → r < h * (i + 1) → ∀ j < S, ∃ sj, IsMember h vals derivs j sj ∧
      sj.evaluateDeriv r = .ret (segAt h vals derivs r i j, segDAt h vals derivs r i j) ∧ sj.evaluate r = .ret (segAt h vals derivs r i j) := by
    intro i r hi hl hr j hj
    obtain ⟨sj, a1, a2⟩ := member_eval H hn hh hi hl hr hj
    exact ⟨sj, ⟨_, _, List.getElem?_eq_getElem _, List.getElem?_eq_getElem _, a1⟩, a2⟩
  have hroom : ∀ v : List K, S ≤ v.length → Room (⟨[v.length], v⟩ : View K) [] S :=
    fun v hv => ⟨by simp [View.Ok], v.length, [], rfl, hv, Or.inr rfl⟩
  have hdat : ∀ (v : List K) (v' : View K), v'.ext = [v.length] → v'.Ok → v'.data.length = v.length ∧ ∀ j, v'.data[j]? = v'.get [j] := by
    intro v v' h1 h2
    have hl : v'.data.length = v.length := by
      rw [View.Ok, h1] at h2
      simpa using h2
    refine ⟨hl, fun j => ?_⟩
    unfold View.get
    rw [h1]
    by_cases hj : j < v.length
    · rw [flat_one hj]; rfl
    · rw [List.getElem?_eq_none (by omega)]
      simp [flat, hj]
  have hget : ∀ (v : List K) j, (⟨[v.length], v⟩ : View K).get [j] = v[j]? := fun v j =>
    ((hdat v ⟨[v.length], v⟩ rfl (by simp [View.Ok])).2 j).symm
  refine ⟨s, e1, fun r h0 h1 => ?_, fun r hr v w hv hw => ?_⟩
  · obtain ⟨i, hi, hl, hr⟩ := exists_interval hh h0 h1
    have hi' : i + 1 < n := by omega
    refine ⟨fun v hv => ?_, fun v w hv hw => ?_, fun v hv => ?_, fun v w hv hw => ?_⟩
    · obtain ⟨v', k1, k2, -, k4, k5⟩ := setK_evaluate V O hh hi' hl hr hv
      refine ⟨v', k1, k2, fun j hj => ?_, k5⟩
      obtain ⟨sj, a1, a2, a3⟩ := M hi' hl hr j hj
      exact ⟨sj, _, a1, a3, k4 j hj⟩
    · obtain ⟨v', w', k1, k2, -, k4, k5⟩ := setK_derivs V O hh hi' hl hr hv hw
      refine ⟨v', w', k1, k2, fun j hj => ?_, k5⟩
      obtain ⟨sj, a1, a2, a3⟩ := M hi' hl hr j hj
      exact ⟨sj, _, _, a1, a2, k4 j hj⟩
    · obtain ⟨v', k1, k2, k3, k4, k5⟩ := setK_evaluate V O hh hi' hl hr (hroom v hv)
      obtain ⟨d1, d2⟩ := hdat v v' k2 k3
      refine ⟨v'.data, ?_, d1, fun j hj => ?_, fun j hj => ?_⟩
      · unfold SetK.evaluateSpan
        simp only [if_true, Option.bind_eq_bind, Option.bind_some]
        rw [k1]
        rfl
      · obtain ⟨sj, a1, a2, a3⟩ := M hi' hl hr j hj
        exact ⟨sj, _, a1, a3, (d2 j).trans (k4 j hj)⟩
      · rw [d2, k5 [j] (fun j' h' e => by simp at e; omega), hget]
    · obtain ⟨v', w', k1, ⟨k2, k2'⟩, ⟨k3, k3'⟩, k4, k5⟩ := setK_derivs V O hh hi' hl hr (hroom v hv) (hroom w hw)
      obtain ⟨d1, d2⟩ := hdat v v' k2 k3
      obtain ⟨d1', d2'⟩ := hdat w w' k2' k3'
      refine ⟨v'.data, w'.data, ?_, ⟨d1, d1'⟩, fun j hj => ?_, fun j hj => ?_⟩
      · unfold SetK.evaluateDerivsSpan
        simp only [if_true, Option.bind_eq_bind, Option.bind_some]
        rw [k1]
        rfl
      · obtain ⟨sj, a1, a2, a3⟩ := M hi' hl hr j hj
        exact ⟨sj, _, _, a1, a2, (d2 j).trans (k4 j hj).1, (d2' j).trans (k4 j hj).2⟩
      · have := k5 [j] (fun j' h' e => by simp at e; omega)
        rw [d2, d2', this.1, this.2, hget, hget]
        exact ⟨rfl, rfl⟩
  · have hI : ∀ m, ∃ i, ∀ hm : m < r.length, i + 1 < n ∧ h * (i : ℕ) ≤ r[m] ∧ r[m] < h * (i + 1) := by
      intro m
      by_cases hm : m < r.length
      · obtain ⟨h0, h1⟩ := hr r[m] (List.getElem_mem hm)
        obtain ⟨i, hi, hl, hr⟩ := exists_interval hh h0 h1
        exact ⟨i, fun _ => ⟨by omega, hl, hr⟩⟩
      · exact ⟨0, fun h => absurd h hm⟩
    choose I hI using hI
    have hR : ∀ m (hm : m < r.length), r[m]?.getD 0 = r[m] := fun m hm => by rw [List.getElem?_eq_getElem hm]; rfl
    obtain ⟨v', w', k1, k2, -, k4, k5⟩ := setK_batch V O hh (r := r) (I := I) (R := fun m => r[m]?.getD 0) (fun m hm => by
      rw [hR m hm]
      exact ⟨List.getElem?_eq_getElem hm, hI m hm⟩) hv hw
    refine ⟨v', w', k1, k2, fun m hm j hj => ?_, k5⟩
    obtain ⟨b1, b2, b3⟩ := hI m hm
    obtain ⟨sj, a1, a2, -⟩ := M b1 b2 b3 j hj
    have := k4 m hm j hj
    simp only [hR m hm] at this
    exact ⟨sj, _, _, a1, a2, this⟩

/-- The hypotheses hold for a table of two splines with three nodes and output views of exactly the needed size. -/
example : Rect 2 3 ([[0, 1, 2], [5, 5, 5]] : List (List ℚ)) [[1, 1, 1], [0, 0, 0]] ∧ Room (View.new [2] (0 : ℚ)) [] 2 ∧
    Room (View.new [4, 2] (7 : ℚ)) [2] 4 := ⟨⟨rfl, rfl, by simp, by simp⟩, Room.new [] 2 0, Room.new [2] 4 7⟩

end

end Verif.Props
