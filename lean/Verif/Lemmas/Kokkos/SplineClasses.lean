import Verif.Model.Kokkos.Classes
import Verif.Lemmas.Kokkos.LoadTab
import Verif.Lemmas.SplineSet

/-! # The spline classes of the Kokkos library -/

namespace Verif.Kokkos
open Par Prog Spline

variable {K : Type} [Field K]

/-! ## Single spline -/

theorem genK_lc {h : K} {vals derivs c : List K} (hd : vals.length ≤ derivs.length)
    (hc : generateCoefficients h vals derivs = some c) (E : Unit → List ℕ) :
    Lc E (genK h vals derivs E) (ex (vals.length - 1) fun i => {((), [4 * i])} ∪ ({((), [4 * i + 1])} ∪ ({((), [4 * i + 2])} ∪ {((), [4 * i + 3])})))
      (fun a _ => d1 (fun p => c[p]?.getD 0) a.2) := by
  by_cases h0 : vals.length = 0
  · rw [generateCoefficients, if_pos h0] at hc
    exact absurd hc (by simp)
  obtain ⟨c', e1, e2, e3⟩ := generateCoefficients_spec h vals derivs (by omega) hd
  rw [hc, Option.some.injEq] at e1
  subst e1
  refine Lc.parFor (fun i hi => ?_) ?_
  · obtain ⟨a0, a1, a2, a3⟩ := e3 i (by omega)
    refine Lc.opt (a := ((vals[i], derivs[i]), (vals[i + 1], derivs[i + 1]))) ?_ ?_
    · rw [List.getElem?_eq_getElem (by omega), List.getElem?_eq_getElem (by omega), List.getElem?_eq_getElem (by omega),
        List.getElem?_eq_getElem (by omega)]
      rfl
    refine Lc.seqDisj (Lc.put (fun _ => ?_)) (Lc.seqDisj (Lc.put (fun _ => ?_)) (Lc.seqDisj (Lc.put (fun _ => ?_)) (Lc.put (fun _ => ?_)) ?_) ?_) ?_
    · show c[4 * i]?.getD 0 = _
      rw [a0]; rfl
    · show c[4 * i + 1]?.getD 0 = _
      rw [a1]; rfl
    · show c[4 * i + 2]?.getD 0 = _
      rw [a2]; rfl
    · show c[4 * i + 3]?.getD 0 = _
      rw [a3]; rfl
    all_goals
      rintro a rfl
      simp
  · intro i _ j _ a h1 h2
    simp only [Set.mem_union, Set.mem_singleton_iff] at h1 h2
    rcases h1 with rfl | rfl | rfl | rfl <;> simp at h2 <;> omega

/-- Every execution order gives the coefficients of the CPU class. -/
theorem splineK_mk (V : Env K) (shared : Bool) (h : K) {vals derivs : List K} (hv : 0 < vals.length) (hd : vals.length ≤ derivs.length) :
    ∃ s sc, SplineK.mk? V shared h vals derivs = some s ∧ CubicSpline.mk? h vals derivs = some sc ∧ s.shared = shared ∧ s.h = h ∧
      sc.h = h ∧ s.c.data = sc.c ∧ sc.c.length = 4 * (vals.length - 1) := by
  obtain ⟨c, e1, e2, e3⟩ := generateCoefficients_spec h vals derivs hv hd
  obtain ⟨v, k1, k2, k3, k4, -⟩ := launch1_any V.L (v := View.new [4 * (vals.length - 1)] (0 : K)) (genK_lc hd e1 _) (by
    rintro a ⟨i, hi, ha⟩
    simp only [Set.mem_union, Set.mem_singleton_iff, Prod.mk.injEq, true_and] at ha
    rcases ha with rfl | rfl | rfl | rfl <;> exact ⟨0, View.get_new (flat_one (by omega)) 0⟩)
  refine ⟨⟨shared, h, v⟩, ⟨h, c⟩, ?_, by simp [CubicSpline.mk?, e1], rfl, rfl, rfl, ?_, e2⟩
  · unfold SplineK.mk?
    rw [if_neg (by omega)]
    exact congrArg (Option.map _) k1
  · have hok := k3 (View.new_ok _ _)
    have hlen : v.data.length = 4 * (vals.length - 1) := by
      have := hok
      rw [View.Ok, k2, View.new_ext] at this
      simpa using this
    refine List.ext_getElem? (fun p => ?_)
    show v.data[p]? = c[p]?
    by_cases hp : p < 4 * (vals.length - 1)
    · have hg : v.get [p] = some (c[p]?.getD 0) := by
        refine k4 [p] 0 ⟨p / 4, by omega, ?_⟩ (View.get_new (flat_one hp) 0)
        simp only [Set.mem_union, Set.mem_singleton_iff, Prod.mk.injEq, true_and, List.cons.injEq, and_true]
        omega
      have hg' : v.get [p] = v.data[p]? := by
        unfold View.get
        rw [k2, View.new_ext, flat_one hp]
        rfl
      rw [← hg', hg, List.getElem?_eq_getElem (by omega)]
      rfl
    · rw [List.getElem?_eq_none (by omega), List.getElem?_eq_none (by omega)]

/-! ## Set of splines -/

/-- Cells of interval `i` of spline `j`. -/
def Q3 (i j : ℕ) : Set (List ℕ) := {[i, 0, j]} ∪ ({[i, 1, j]} ∪ ({[i, 2, j]} ∪ {[i, 3, j]}))

theorem mem_Q3 {i j : ℕ} {c : List ℕ} : c ∈ Q3 i j ↔ ∃ q < 4, c = [i, q, j] := by
  unfold Q3
  simp only [Set.mem_union, Set.mem_singleton_iff]
  constructor
  · rintro (rfl | rfl | rfl | rfl)
    · exact ⟨0, by omega, rfl⟩
    · exact ⟨1, by omega, rfl⟩
    · exact ⟨2, by omega, rfl⟩
    · exact ⟨3, by omega, rfl⟩
  · rintro ⟨q, hq, rfl⟩
    interval_cases q <;> simp

theorem setK_mk {S n : ℕ} {vals derivs : List (List K)} (h : K) (H : Rect S n vals derivs) (hS : 0 < S) (hn : 0 < n) :
    ∃ s : SetK K, SetK.mk? h vals derivs = some s ∧ s.h = h ∧ s.numNodes = n ∧ s.numSplines = S ∧ s.c.ext = [n - 1, 4, S] ∧
      ∀ i < n - 1, ∀ q < 4, ∀ j < S, s.c.get [i, q, j] = some (coefOf h vals derivs i q j) := by
  have hl : 0 < vals.length := by rw [H.hS]; exact hS
  have hrow : (vals[0]).length = n := H.hv _ (List.getElem_mem hl)
  obtain ⟨c, k1, k2, -, k4⟩ := Tr.run (E := [n - 1, 4, S]) (D := un (n - 1) fun i => un S fun j => Q3 i j)
    (B := Verif.loop (n - 1) (fun i => Verif.loop S (setCells h vals derivs i))) (g := d3 (coefOf h vals derivs)) (by
      intro f
      refine Tr.loop (fun i hi => Tr.loop (fun j hj => ?_) ?_) ?_
      · obtain ⟨vj, dj, a1, a2, a3, a4⟩ := H.get hj (show i < n by omega)
        obtain ⟨vj', dj', b1, b2, b3, b4⟩ := H.get hj (show i + 1 < n by omega)
        rw [a1, Option.some.injEq] at b1
        rw [a2, Option.some.injEq] at b2
        subst b1
        subst b2
        unfold setCells Q3
        simp only [Option.bind_eq_bind]
        refine Tr.opt a1 (Tr.opt a2 (Tr.opt a3 (Tr.disj (Tr.set (flat_three hi (by omega) hj) rfl) ?_ (by simp))))
        refine Tr.opt a4 (Tr.disj (Tr.set (flat_three hi (by omega) hj) rfl) ?_ (by simp))
        refine Tr.opt b3 (Tr.opt b4 (Tr.disj (Tr.set (flat_three hi (by omega) hj) rfl) ?_ (by simp)))
        exact Tr.set (flat_three hi (by omega) hj) rfl
      all_goals
        intro x _ y _ hxy
        refine disj_cells (fun c => ?_)
        simp only [mem_un, mem_Q3]
        grind) (v := View.new [n - 1, 4, S] 0) rfl (View.new_ok _ _) (by
      rintro c ⟨i, hi, j, hj, hc⟩
      obtain ⟨q, hq, rfl⟩ := mem_Q3.mp hc
      exact ⟨_, flat_three hi hq hj⟩)
  refine ⟨⟨h, n, S, c⟩, ?_, rfl, rfl, rfl, k2, fun i hi q hq j hj => k4 _ ⟨i, hi, j, hj, mem_Q3.mpr ⟨q, hq, rfl⟩⟩⟩
  unfold SetK.mk?
  rw [List.getElem?_eq_getElem hl]
  simp only [Option.bind_eq_bind, Option.bind_some]
  rw [less1, if_neg (by omega), Option.bind_some, H.hS, hrow, k1]
  rfl

/-- Objects with the coefficients of the node data. -/
structure SetOkK (s : SetK K) (h : K) (vals derivs : List (List K)) (n S : ℕ) : Prop where
  hh : s.h = h
  hS : s.numSplines = S
  ext : s.c.ext = [n - 1, 4, S]
  get : ∀ i < n - 1, ∀ q < 4, ∀ j < S, s.c.get [i, q, j] = some (coefOf h vals derivs i q j)

section
variable [LinearOrder K] [IsStrictOrderedRing K] [FloorRing K]
variable {s : SetK K} {h : K} {vals derivs : List (List K)} {n S : ℕ}

/-- Value of spline `j` in interval `i`. -/
def segAt (h : K) (vals derivs : List (List K)) (r : K) (i j : ℕ) : K :=
  seg h (at2 vals j i) (at2 derivs j i) (at2 vals j (i + 1)) (at2 derivs j (i + 1)) (r - h * i)

/-- Its derivative. -/
def segDAt (h : K) (vals derivs : List (List K)) (r : K) (i j : ℕ) : K :=
  segD h (at2 vals j i) (at2 derivs j i) (at2 vals j (i + 1)) (at2 derivs j (i + 1)) (r - h * i)

omit [LinearOrder K] [IsStrictOrderedRing K] [FloorRing K] in
theorem SetOkK.coeffs (H : SetOkK s h vals derivs n S) {i j : ℕ} (hi : i + 1 < n) (hj : j < S) :
    s.coeffs (i : ℤ) j = some ((coefOf h vals derivs i 0 j, coefOf h vals derivs i 1 j), (coefOf h vals derivs i 2 j, coefOf h vals derivs i 3 j)) := by
  unfold SetK.coeffs
  rw [if_neg (by omega), Int.toNat_natCast, H.get i (by omega) 0 (by omega) j hj, H.get i (by omega) 1 (by omega) j hj,
    H.get i (by omega) 2 (by omega) j hj, H.get i (by omega) 3 (by omega) j hj]
  rfl

omit [LinearOrder K] [IsStrictOrderedRing K] [FloorRing K] in
theorem SetOkK.coef (H : SetOkK s h vals derivs n S) {i q j : ℕ} (hi : i + 1 < n) (hq : q < 4) (hj : j < S) :
    s.coef (i : ℤ) q j = some (coefOf h vals derivs i q j) := by
  unfold SetK.coef
  rw [if_neg (by omega), Int.toNat_natCast, H.get i (by omega) q hq j hj]

theorem setK_evaluate (V : Env K) (H : SetOkK s h vals derivs n S) (hh : 0 < h) {r : K} {i : ℕ} (hi : i + 1 < n) (h1 : h * i ≤ r)
    (h2 : r < h * (i + 1)) {v : View K} (hv : Room v [] S) :
    ∃ v', s.evaluate V r v = some v' ∧ v'.ext = v.ext ∧ v'.Ok ∧ (∀ j < S, v'.get [j] = some (segAt h vals derivs r i j)) ∧
      ∀ c, (∀ j < S, c ≠ [j]) → v'.get c = v.get c := by
  have ht : truncInt (r / h) = i := truncInt_div hh i h1 h2
  have hp : Lc (fun _ => v.ext) (s.evalK r (fun _ => v.ext)) (ex S fun j => {((), [j])}) (fun a _ => d1 (segAt h vals derivs r i) a.2) := by
    unfold SetK.evalK
    dsimp only
    rw [H.hS, H.hh, ht]
    refine Lc.parFor (fun j hj => Lc.opt (H.coeffs hi hj) (Lc.put (fun _ => ?_))) (fun a _ b _ c h1 h2 => ?_)
    · show seg _ _ _ _ _ _ = _
      simp only [Int.cast_natCast]
      rfl
    · rw [Set.mem_singleton_iff] at h1 h2
      rw [h1] at h2
      simpa using h2
  obtain ⟨v', k1, k2, k3, k4, k5⟩ := launch1_any V.L hp (by
    rintro c ⟨j, hj, hc⟩
    rw [Set.mem_singleton_iff, Prod.mk.injEq] at hc
    rw [hc.2]
    exact hv.has1 hj)
  refine ⟨v', k1, k2, k3 hv.1, fun j hj => ?_, fun c hc => k5 c ?_⟩
  · obtain ⟨x, hx⟩ := hv.has1 hj
    exact k4 [j] x ⟨j, hj, rfl⟩ hx
  · rintro ⟨j, hj, e⟩
    rw [Set.mem_singleton_iff, Prod.mk.injEq] at e
    exact hc j hj e.2

theorem setK_derivs (V : Env K) (H : SetOkK s h vals derivs n S) (hh : 0 < h) {r : K} {i : ℕ} (hi : i + 1 < n) (h1 : h * i ≤ r)
    (h2 : r < h * (i + 1)) {v w : View K} (hv : Room v [] S) (hw : Room w [] S) :
    ∃ v' w', s.evaluateDerivs V r v w = some (v', w') ∧ (v'.ext = v.ext ∧ w'.ext = w.ext) ∧ (v'.Ok ∧ w'.Ok) ∧
      (∀ j < S, v'.get [j] = some (segAt h vals derivs r i j) ∧ w'.get [j] = some (segDAt h vals derivs r i j)) ∧
      ∀ c, (∀ j < S, c ≠ [j]) → v'.get c = v.get c ∧ w'.get c = w.get c := by
  have ht : truncInt (r / h) = i := truncInt_div hh i h1 h2
  have hp : Lc (fun b => if b then w.ext else v.ext) (s.derivK r (fun b => if b then w.ext else v.ext))
      (ex S fun j => {(false, [j])} ∪ {(true, [j])})
      (fun a _ => d1 (if a.1 then segDAt h vals derivs r i else segAt h vals derivs r i) a.2) := by
    unfold SetK.derivK
    dsimp only
    rw [H.hS, H.hh, ht]
    refine Lc.parFor (fun j hj => Lc.opt (H.coeffs hi hj) (Lc.seqDisj (Lc.put (fun _ => ?_)) (Lc.put (fun _ => ?_)) ?_)) (fun a _ b _ c h1 h2 => ?_)
    · show seg _ _ _ _ _ _ = _
      simp only [Int.cast_natCast]
      rfl
    · show segD _ _ _ _ _ _ = _
      simp only [Int.cast_natCast, segD, coefOf]
      ring
    · rintro c rfl h
      simp at h
    · rcases h1 with rfl | rfl <;> simpa using h2
  obtain ⟨v', w', k1, k2, ⟨k3, k3'⟩, ⟨k4, k4'⟩, k5, k5'⟩ := launch2_any V.L hp (by
      rintro c ⟨j, hj, hc⟩
      simp only [Set.mem_union, Set.mem_singleton_iff, Prod.mk.injEq, true_and, Bool.false_eq_true, false_and, or_false] at hc
      rw [hc]
      exact hv.has1 hj) (by
      rintro c ⟨j, hj, hc⟩
      simp only [Set.mem_union, Set.mem_singleton_iff, Prod.mk.injEq, true_and, Bool.true_eq_false, false_and, false_or] at hc
      rw [hc]
      exact hw.has1 hj)
  refine ⟨v', w', k1, k2, ⟨k3 hv.1, k3' hw.1⟩, fun j hj => ⟨?_, ?_⟩, fun c hc => ⟨k5 c ?_, k5' c ?_⟩⟩
  · obtain ⟨x, hx⟩ := hv.has1 hj
    exact k4 [j] x ⟨j, hj, Or.inl rfl⟩ hx
  · obtain ⟨x, hx⟩ := hw.has1 hj
    exact k4' [j] x ⟨j, hj, Or.inr rfl⟩ hx
  all_goals
    rintro ⟨j, hj, e⟩
    simp only [Set.mem_union, Set.mem_singleton_iff, Prod.mk.injEq, true_and, Bool.false_eq_true, Bool.true_eq_false, false_and, or_false, false_or] at e
    exact hc j hj e

/-- Cells of row `m` of both outputs. -/
def R2 (S m : ℕ) : Set (Bool × List ℕ) := ex S fun j => {(false, [m, j])} ∪ {(true, [m, j])}

omit [LinearOrder K] [IsStrictOrderedRing K] [FloorRing K] in
/-- One range of the batched kernel. -/
theorem pass_lc (H : SetOkK s h vals derivs n S) {E : Bool → List ℕ} {m i : ℕ} (hi : i + 1 < n) (b : Bool) {q : ℕ} (hq : q < 4) (f : K → K → K) :
    Lc E (s.passK E b m (i : ℤ) q f) (R2 S m)
      (fun a x => if a.1 = b then f x (d2 (fun _ j => coefOf h vals derivs i q j) a.2) else x) := by
  have h1 : Lc E (s.passK E b m (i : ℤ) q f) (ex S fun j => {(b, [m, j])})
      (fun a x => if a.1 = b then f x (d2 (fun _ j => coefOf h vals derivs i q j) a.2) else x) := by
    unfold SetK.passK
    rw [H.hS]
    refine Lc.parFor (fun j hj => Lc.opt (H.coef hi hq hj) (Lc.upd (fun y => if_pos rfl))) (fun a _ c _ d h1 h2 => ?_)
    rw [Set.mem_singleton_iff] at h1 h2
    rw [h1] at h2
    simpa using h2
  refine h1.frame (fun c hc => ?_) (fun _ _ _ => rfl) (fun c hc hn x => if_neg (fun hb => hn ?_))
  · obtain ⟨j, hj, rfl⟩ := hc
    exact ⟨j, hj, by cases b <;> simp⟩
  · obtain ⟨j, hj, hc⟩ := hc
    refine ⟨j, hj, ?_⟩
    subst hb
    rcases hc with rfl | rfl <;> rfl

theorem setK_batch (V : Env K) (H : SetOkK s h vals derivs n S) (hh : 0 < h) {r : List K} {I : ℕ → ℕ} {R : ℕ → K}
    (hr : ∀ m < r.length, r[m]? = some (R m) ∧ I m + 1 < n ∧ h * I m ≤ R m ∧ R m < h * (I m + 1)) {v w : View K}
    (hv : Room v [S] r.length) (hw : Room w [S] r.length) :
    ∃ v' w', s.evaluateDerivsBatch V r v w = some (v', w') ∧ (v'.ext = v.ext ∧ w'.ext = w.ext) ∧ (v'.Ok ∧ w'.Ok) ∧
      (∀ m < r.length, ∀ j < S, v'.get [m, j] = some (segAt h vals derivs (R m) (I m) j) ∧
        w'.get [m, j] = some (segDAt h vals derivs (R m) (I m) j)) ∧
      ∀ c, (∀ m < r.length, ∀ j < S, c ≠ [m, j]) → v'.get c = v.get c ∧ w'.get c = w.get c := by
  have hp : Lc (fun b => if b then w.ext else v.ext) (s.batchK r (fun b => if b then w.ext else v.ext))
      (ex r.length (R2 S))
      (fun a _ => d2 (fun m j => if a.1 then segDAt h vals derivs (R m) (I m) j else segAt h vals derivs (R m) (I m) j) a.2) := by
    unfold SetK.batchK
    refine Lc.parFor (fun m hm => ?_) (fun a _ b _ c h1 h2 => ?_)
    · obtain ⟨e1, e2, e3, e4⟩ := hr m hm
      refine Lc.opt e1 ?_
      dsimp only
      rw [H.hh, truncInt_div hh (I m) e3 e4]
      refine Lc.seq (pass_lc H e2 false (by omega) _) (Lc.seq (pass_lc H e2 false (by omega) _) (Lc.seq (pass_lc H e2 false (by omega) _)
        (Lc.seq (pass_lc H e2 false (by omega) _) (Lc.seq (pass_lc H e2 true (by omega) _) (Lc.seq (pass_lc H e2 true (by omega) _)
          (pass_lc H e2 true (by omega) _) (fun _ _ _ => rfl)) (fun _ _ _ => rfl)) (fun _ _ _ => rfl)) (fun _ _ _ => rfl)) (fun _ _ _ => rfl)) ?_
      rintro c ⟨j, hj, rfl | rfl⟩ x
      · simp only [Bool.false_eq_true, if_false, if_true, d2, segAt, seg, coefOf, Int.cast_natCast]
      · simp only [Bool.true_eq_false, if_false, if_true, d2, segDAt, segD, coefOf, Int.cast_natCast]
        ring
    · obtain ⟨j, _, h1⟩ := h1
      obtain ⟨j', _, h2⟩ := h2
      rcases h1 with rfl | rfl <;> (simp at h2; exact h2.1)
  obtain ⟨v', w', k1, k2, ⟨k3, k3'⟩, ⟨k4, k4'⟩, k5, k5'⟩ := launch2_any V.L hp (by
      rintro c ⟨m, hm, j, hj, hc⟩
      simp only [Set.mem_union, Set.mem_singleton_iff, Prod.mk.injEq, true_and, Bool.false_eq_true, false_and, or_false] at hc
      rw [hc]
      exact hv.has2 hm hj) (by
      rintro c ⟨m, hm, j, hj, hc⟩
      simp only [Set.mem_union, Set.mem_singleton_iff, Prod.mk.injEq, true_and, Bool.true_eq_false, false_and, false_or] at hc
      rw [hc]
      exact hw.has2 hm hj)
  refine ⟨v', w', k1, k2, ⟨k3 hv.1, k3' hw.1⟩, fun m hm j hj => ⟨?_, ?_⟩, fun c hc => ⟨k5 c ?_, k5' c ?_⟩⟩
  · obtain ⟨x, hx⟩ := hv.has2 hm hj
    exact k4 [m, j] x ⟨m, hm, j, hj, Or.inl rfl⟩ hx
  · obtain ⟨x, hx⟩ := hw.has2 hm hj
    exact k4' [m, j] x ⟨m, hm, j, hj, Or.inr rfl⟩ hx
  all_goals
    rintro ⟨m, hm, j, hj, e⟩
    simp only [Set.mem_union, Set.mem_singleton_iff, Prod.mk.injEq, true_and, Bool.false_eq_true, Bool.true_eq_false, false_and, or_false, false_or] at e
    exact hc m hm j hj e

/-- The `j`-th single spline of the CPU library on interval `i`. -/
theorem member_eval (H : Rect S n vals derivs) (hn : 2 ≤ n) (hh : 0 < h) {i : ℕ} (hi : i + 1 < n) {r : K} (hl : h * i ≤ r) (hr : r < h * (i + 1))
    {j : ℕ} (hj : j < S) :
    ∃ sj, CubicSpline.mk? h (vals[j]'(by rw [H.hS]; exact hj)) (derivs[j]'(by rw [H.hS']; exact hj)) = some sj ∧
      sj.evaluateDeriv r = .ret (segAt h vals derivs r i j, segDAt h vals derivs r i j) ∧ sj.evaluate r = .ret (segAt h vals derivs r i j) := by
  have hjv : j < vals.length := by rw [H.hS]; exact hj
  have hjd : j < derivs.length := by rw [H.hS']; exact hj
  have lv : (vals[j]).length = n := H.hv _ (List.getElem_mem hjv)
  have ld : (derivs[j]).length = n := H.hd _ (List.getElem_mem hjd)
  obtain ⟨sj, hsj, -⟩ := mk?_spec h vals[j] derivs[j] (by omega) (by omega)
  have hev := eval_on hh (by omega) (by omega) hsj (show i + 1 < (vals[j]).length by omega) hl hr
  refine ⟨sj, hsj, ?_, ?_⟩
  · rw [hev.2.1]
    simp [segAt, segDAt, at2, hjv, hjd, lv, ld, hi, show i < n by omega]
  · rw [hev.1]
    simp [segAt, at2, hjv, hjd, lv, ld, hi, show i < n by omega]

end

end Verif.Kokkos
