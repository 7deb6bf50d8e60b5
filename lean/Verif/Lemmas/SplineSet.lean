import Verif.Lemmas.CubicSpline

/-! # Helper lemmas: spline sets (C12) -/

namespace Verif.Spline

section
variable {K : Type*} [Field K]

/-- Rectangular node data: `S` rows of `n` values and derivatives. -/
structure Rect (S n : ℕ) (vals derivs : List (List K)) : Prop where
  hS : vals.length = S
  hS' : derivs.length = S
  hv : ∀ row ∈ vals, row.length = n
  hd : ∀ row ∈ derivs, row.length = n

/-- Value of node `i` of spline `j` in rectangular data. -/
def at2 (vals : List (List K)) (j i : ℕ) : K := ((vals[j]?.getD [])[i]?).getD 0

/-- Coefficient `q` of interval `i` of spline `j`. -/
def coefOf (h : K) (vals derivs : List (List K)) (i q j : ℕ) : K :=
  match q with
  | 0 => at2 vals j i
  | 1 => at2 derivs j i
  | 2 => herm2 h (at2 vals j i) (at2 derivs j i) (at2 vals j (i + 1)) (at2 derivs j (i + 1))
  | _ => herm3 h (at2 vals j i) (at2 derivs j i) (at2 vals j (i + 1)) (at2 derivs j (i + 1))

theorem Rect.get {S n : ℕ} {vals derivs : List (List K)} (H : Rect S n vals derivs) {i j : ℕ} (hj : j < S)
    (hi : i < n) : ∃ vj dj, vals[j]? = some vj ∧ derivs[j]? = some dj ∧ vj[i]? = some (at2 vals j i) ∧
      dj[i]? = some (at2 derivs j i) := by
  have h1 : j < vals.length := by rw [H.hS]; exact hj
  have h2 : j < derivs.length := by rw [H.hS']; exact hj
  have h3 : i < (vals[j]).length := by rw [H.hv _ (List.getElem_mem h1)]; exact hi
  have h4 : i < (derivs[j]).length := by rw [H.hd _ (List.getElem_mem h2)]; exact hi
  exact ⟨vals[j], derivs[j], by simp [h1], by simp [h2], by simp [at2, h1, h3], by simp [at2, h2, h4]⟩

theorem setBody_acts {S n : ℕ} {vals derivs : List (List K)} (h : K) (H : Rect S n vals derivs)
    {i j : ℕ} (hi : i + 1 < n) (hj : j < S) :
    Acts1 (4 * S * (n - 1)) (setBody h vals derivs S i j)
      (fun p x => if p = (4 * i + 3) * S + j then coefOf h vals derivs i 3 j else
        if p = (4 * i + 2) * S + j then coefOf h vals derivs i 2 j else
        if p = (4 * i + 1) * S + j then coefOf h vals derivs i 1 j else
        if p = (4 * i) * S + j then coefOf h vals derivs i 0 j else x) := by
  have hL : ∀ q < 4, (4 * i + q) * S + j < 4 * S * (n - 1) := by
    intro q hq
    have : 4 * S * (n - 1) = (4 * (n - 1)) * S := by ring
    rw [this]; exact flat_lt (by omega) hj
  obtain ⟨vj, dj, e1, e2, e3, e4⟩ := H.get hj (show i < n by omega)
  obtain ⟨vj', dj', e1', e2', e5, e6⟩ := H.get hj hi
  rw [e1] at e1'; rw [e2] at e2'
  obtain rfl := Option.some.inj e1'
  obtain rfl := Option.some.inj e2'
  unfold setBody
  simp only [e1, e2, e3, e4, e5, e6, Option.bind_eq_bind, Option.bind_some]
  have w0 := Acts1.wr (hL 0 (by omega)) (coefOf h vals derivs i 0 j)
  have w1 := Acts1.wr (hL 1 (by omega)) (coefOf h vals derivs i 1 j)
  have w2 := Acts1.wr (hL 2 (by omega)) (coefOf h vals derivs i 2 j)
  have w3 := Acts1.wr (hL 3 (by omega)) (coefOf h vals derivs i 3 j)
  exact w0.bind (w1.bind (w2.bind w3))

theorem SplineSet.mk?_spec {S n : ℕ} {vals derivs : List (List K)} (h : K) (H : Rect S n vals derivs)
    (hS : 0 < S) (hn : 0 < n) :
    ∃ s : SplineSet K, SplineSet.mk? h vals derivs = some s ∧ s.h = h ∧ s.num_nodes = n ∧ s.num_splines = S ∧
      s.c.length = 4 * S * (n - 1) ∧
      ∀ i j q, i + 1 < n → j < S → q < 4 → s.c[(4 * i + q) * S + j]? = some (coefOf h vals derivs i q j) := by
  have hlen0 : 0 < vals.length := by rw [H.hS]; exact hS
  have e0 : vals[0]? = some vals[0] := by simp [hlen0]
  have hrow : (vals[0]).length = n := H.hv _ (List.getElem_mem hlen0)
  have hacts := Acts1.loop (L := 4 * S * (n - 1)) (n := n - 1)
    (body := fun i => loop S (setBody h vals derivs S i))
    (fun i hi => Acts1.loop (fun j hj => setBody_acts h H (by omega) hj))
  have hrun := hacts (List.replicate (4 * S * (n - 1)) 0) (by simp)
  generalize hC : List.mapIdx _ _ = C at hrun
  refine ⟨⟨h, n, S, C⟩, ?_, rfl, rfl, rfl, ?_, ?_⟩
  · unfold SplineSet.mk?
    rw [e0]
    simp only [hrow, H.hS]
    rw [if_neg (by omega), hrun]
    rfl
  · show C.length = _
    rw [← hC]; simp
  · intro i0 j0 q0 hi0 hj0 hq0
    have hlt : (4 * i0 + q0) * S + j0 < 4 * S * (n - 1) := by
      have : 4 * S * (n - 1) = (4 * (n - 1)) * S := by ring
      rw [this]; exact flat_lt (by omega) hj0
    show C[(4 * i0 + q0) * S + j0]? = _
    rw [← hC, List.getElem?_mapIdx, List.getElem?_replicate, if_pos hlt]
    simp only [Option.map_some]
    congr 1
    rw [iter_single i0 (by omega), iter_single j0 hj0]
    · simp only [flat_inj hj0 hj0, and_true]
      rcases q0 with _ | _ | _ | _ | q
      · rw [if_neg (by omega), if_neg (by omega), if_neg (by omega), if_pos (by omega)]
      · rw [if_neg (by omega), if_neg (by omega), if_pos (by omega)]
      · rw [if_neg (by omega), if_pos (by omega)]
      · rw [if_pos (by omega)]
      · omega
    · intro j hj hne x
      simp only [flat_inj hj0 hj]
      rw [if_neg (by omega), if_neg (by omega), if_neg (by omega), if_neg (by omega)]
    · intro i hi hne x
      apply iter_id
      intro j hj x
      simp only [flat_inj hj0 hj]
      rw [if_neg (by omega), if_neg (by omega), if_neg (by omega), if_neg (by omega)]

theorem rowPass_acts {ι : Type} [DecidableEq ι] {L : ι → ℕ} {b : ι} {base n : ℕ} {c : List K} {off : ℤ}
    {f : K → K → K} {g : ℕ → K} (hL : base + n ≤ L b) (hg : ∀ j < n, readOff c off j = some (g j)) :
    Acts L (rowPass b base c off n f)
      (fun b' p x => if b' = b ∧ base ≤ p ∧ p < base + n then f x (g (p - base)) else x) := by
  have h1 : Acts L (rowPass b base c off n f)
      (fun b' p x => iter n (fun j x => if b' = b ∧ p = base + j then f x (g j) else x) x) := by
    unfold rowPass
    apply Acts.loop
    intro j hj
    simp only [hg j hj, Option.bind_eq_bind, Option.bind_some]
    exact Acts.modAt (by omega) (fun y => f y (g j))
  refine h1.congr ?_
  intro b' p hp x
  by_cases hb : b' = b ∧ base ≤ p ∧ p < base + n
  · rw [if_pos hb, iter_single (p - base) (by omega)]
    · rw [if_pos ⟨hb.1, by omega⟩]
    · intro j _ hne y
      rw [if_neg (by rintro ⟨_, h⟩; omega)]
  · rw [if_neg hb]
    apply iter_id
    intro j hj y
    rw [if_neg (by rintro ⟨h1, h2⟩; exact hb ⟨h1, by omega, by omega⟩)]

variable [LinearOrder K] [IsStrictOrderedRing K] [FloorRing K]

theorem readOff_row {c : List K} {S i j q : ℕ} :
    readOff c (4 * (i : ℤ) * S + q * S) j = c[(4 * i + q) * S + j]? := by
  unfold readOff
  rw [if_neg (not_lt.mpr (by positivity))]
  congr 1
  have : (4 * (i : ℤ) * S + q * S + j) = (((4 * i + q) * S + j : ℕ) : ℤ) := by push_cast; ring
  rw [this, Int.toNat_natCast]

theorem SplineSet.evaluateDerivs_acts {S n : ℕ} {vals derivs : List (List K)} {h : K} (hh : 0 < h)
    (H : Rect S n vals derivs) (hS : 0 < S) (hn : 0 < n) {s : SplineSet K}
    (hs : SplineSet.mk? h vals derivs = some s) {r : K} {i : ℕ} (hi : i + 1 < n) (h1 : h * i ≤ r)
    (h2 : r < h * (i + 1)) {L : Bool → ℕ} {base : ℕ} (hL : ∀ b, base + S ≤ L b) :
    Acts L (s.evaluateDerivs r base)
      (fun b p x => if base ≤ p ∧ p < base + S then
        (let j := p - base
         let g := fun (f : K → K → K → K → K → K → K) => f h (at2 vals j i) (at2 derivs j i)
           (at2 vals j (i + 1)) (at2 derivs j (i + 1)) (r - h * i)
         if b = false then g seg else g segD) else x) := by
  obtain ⟨s', hs', eh, en, eS, elen, ec⟩ := SplineSet.mk?_spec h H hS hn
  rw [hs] at hs'
  obtain rfl := Option.some.inj hs'
  have ht : truncInt (r / h) = i := by exact truncInt_div hh i h1 h2
  have hread : ∀ q : ℕ, q < 4 → ∀ j < S, readOff s.c (4 * (i : ℤ) * S + q * S) j = some (coefOf h vals derivs i q j) := by
    intro q hq j hj
    rw [readOff_row, ec i j q hi hj hq]
  unfold SplineSet.evaluateDerivs
  simp only [eS, eh, ht]
  have o0 : 4 * (i : ℤ) * S = 4 * (i : ℤ) * S + (0 : ℕ) * S := by push_cast; ring
  have o1 : 4 * (i : ℤ) * S + S = 4 * (i : ℤ) * S + (1 : ℕ) * S := by push_cast; ring
  have o2 : 4 * (i : ℤ) * S + S + S = 4 * (i : ℤ) * S + (2 : ℕ) * S := by push_cast; ring
  have o3 : 4 * (i : ℤ) * S + S + S + S = 4 * (i : ℤ) * S + (3 : ℕ) * S := by push_cast; ring
  have p1 : (4 * (i : ℤ) + 1) * S = 4 * (i : ℤ) * S + (1 : ℕ) * S := by push_cast; ring
  have p2 : (4 * (i : ℤ) + 1) * S + S = 4 * (i : ℤ) * S + (2 : ℕ) * S := by push_cast; ring
  have p3 : (4 * (i : ℤ) + 1) * S + S + S = 4 * (i : ℤ) * S + (3 : ℕ) * S := by push_cast; ring
  set x := r - h * ((i : ℤ) : K) with hx
  have A0 := rowPass_acts (f := fun _ c => c) (hL false) (fun j hj => (congrArg (readOff s.c · j) o0).trans (hread 0 (by omega) j hj))
  have A1 := rowPass_acts (f := fun y c => y + x * c) (hL false) (fun j hj => (congrArg (readOff s.c · j) o1).trans (hread 1 (by omega) j hj))
  have A2 := rowPass_acts (f := fun y c => y + x * x * c) (hL false) (fun j hj => (congrArg (readOff s.c · j) o2).trans (hread 2 (by omega) j hj))
  have A3 := rowPass_acts (f := fun y c => y + x * x * x * c) (hL false) (fun j hj => (congrArg (readOff s.c · j) o3).trans (hread 3 (by omega) j hj))
  have B1 := rowPass_acts (f := fun _ c => c) (hL true) (fun j hj => (congrArg (readOff s.c · j) p1).trans (hread 1 (by omega) j hj))
  have B2 := rowPass_acts (f := fun y c => y + 2 * x * c) (hL true) (fun j hj => (congrArg (readOff s.c · j) p2).trans (hread 2 (by omega) j hj))
  have B3 := rowPass_acts (f := fun y c => y + 3 * (x * x) * c) (hL true) (fun j hj => (congrArg (readOff s.c · j) p3).trans (hread 3 (by omega) j hj))
  have hall := A0.bind (A1.bind (A2.bind (A3.bind (B1.bind (B2.bind B3)))))
  refine Acts.congr hall ?_
  intro b p hp y
  by_cases hr : base ≤ p ∧ p < base + S
  · cases b <;> simp [hr, coefOf, seg, segD, hx, mul_comm, mul_assoc, mul_left_comm]
  · simp [hr]

theorem SplineSet.evaluateDerivs_oob {S n : ℕ} {vals derivs : List (List K)} {h : K} (hh : 0 < h)
    (H : Rect S n vals derivs) (hS : 0 < S) (hn : 1 < n) {s : SplineSet K}
    (hs : SplineSet.mk? h vals derivs = some s) {r : K} (hr : r ≤ -h ∨ h * (n - 1 : ℕ) ≤ r) (base : ℕ)
    (st : Bufs Bool K) (v : List K) : s.evaluateDerivs r base st = none ∧ s.evaluate r v = none := by
  obtain ⟨s', hs', eh, en, eS, elen, ec⟩ := SplineSet.mk?_spec h H hS (by omega)
  rw [hs] at hs'
  obtain rfl := Option.some.inj hs'
  have hread : readOff s.c (4 * truncInt (r / h) * S) 0 = none := by
    unfold readOff
    rcases hr with hr | hr
    · have : truncInt (r / h) < 0 := by
        rw [truncInt_neg_iff, div_le_iff₀ hh]; linarith
      rw [if_pos]
      have : 4 * truncInt (r / h) * (S : ℤ) < 0 := mul_neg_of_neg_of_pos (by omega) (by exact_mod_cast hS)
      simpa using this
    · have : ¬ truncInt (r / h) < ((n - 1 : ℕ) : ℤ) := by
        rw [truncInt_div_lt_iff hh (by omega)]; exact not_lt.mpr hr
      have h3 : ((4 * S * (n - 1) : ℕ) : ℤ) ≤ 4 * truncInt (r / h) * S := by
        push_cast
        have : ((n - 1 : ℕ) : ℤ) ≤ truncInt (r / h) := by omega
        calc (4 : ℤ) * S * ((n - 1 : ℕ) : ℤ) = 4 * ((n - 1 : ℕ) : ℤ) * S := by ring
          _ ≤ 4 * truncInt (r / h) * S := by
            apply mul_le_mul_of_nonneg_right _ (by positivity)
            omega
      rw [if_neg (by omega), List.getElem?_eq_none]
      rw [elen]; omega
  have hpass : ∀ {ι : Type} [DecidableEq ι] (b : ι) (base : ℕ) (f : K → K → K) (st : Bufs ι K),
      rowPass b base s.c (4 * truncInt (r / h) * S) S f st = none := by
    intro ι _ b base f st
    unfold rowPass
    obtain ⟨S', rfl⟩ : ∃ S', S = S' + 1 := ⟨S - 1, by omega⟩
    have hany : ∀ m, loop (m + 1) (fun j s' => do
        let x ← readOff s.c (4 * truncInt (r / h) * ((S' + 1 : ℕ) : ℤ)) j
        modAt b (base + j) (fun y => f y x) s') st = none := by
      intro m
      induction m with
      | zero => rw [loop_succ, loop_zero, Option.bind_some, hread]; rfl
      | succ m ih => rw [loop_succ, ih]; rfl
    exact hany S'
  constructor
  · unfold SplineSet.evaluateDerivs
    simp only [eh, eS, hpass]
    rfl
  · unfold SplineSet.evaluate
    simp only [eh, eS, hpass]
    rfl

theorem SplineSet.evaluate_run {S n : ℕ} {vals derivs : List (List K)} {h : K} (hh : 0 < h)
    (H : Rect S n vals derivs) (hS : 0 < S) (hn : 0 < n) {s : SplineSet K}
    (hs : SplineSet.mk? h vals derivs = some s) {r : K} {i : ℕ} (hi : i + 1 < n) (h1 : h * i ≤ r)
    (h2 : r < h * (i + 1)) (v : List K) (hv : S ≤ v.length) :
    s.evaluate r v = some (v.mapIdx (fun j x => if j < S then
        seg h (at2 vals j i) (at2 derivs j i) (at2 vals j (i + 1)) (at2 derivs j (i + 1)) (r - h * i) else x)) := by
  obtain ⟨s', hs', eh, en, eS, elen, ec⟩ := SplineSet.mk?_spec h H hS hn
  rw [hs] at hs'
  obtain rfl := Option.some.inj hs'
  have ht : truncInt (r / h) = i := by exact truncInt_div hh i h1 h2
  have hread : ∀ q : ℕ, q < 4 → ∀ j < S, readOff s.c (4 * (i : ℤ) * S + q * S) j = some (coefOf h vals derivs i q j) := by
    intro q hq j hj
    rw [readOff_row, ec i j q hi hj hq]
  unfold SplineSet.evaluate
  simp only [eS, eh, ht]
  have o0 : 4 * (i : ℤ) * S = 4 * (i : ℤ) * S + (0 : ℕ) * S := by push_cast; ring
  have o1 : 4 * (i : ℤ) * S + S = 4 * (i : ℤ) * S + (1 : ℕ) * S := by push_cast; ring
  have o2 : 4 * (i : ℤ) * S + S + S = 4 * (i : ℤ) * S + (2 : ℕ) * S := by push_cast; ring
  have o3 : 4 * (i : ℤ) * S + S + S + S = 4 * (i : ℤ) * S + (3 : ℕ) * S := by push_cast; ring
  set x := r - h * ((i : ℤ) : K) with hx
  have hL : 0 + S ≤ v.length := by simpa using hv
  have A0 := rowPass_acts (L := fun _ : Unit => v.length) (b := ()) (f := fun _ c => c) hL (fun j hj => (congrArg (readOff s.c · j) o0).trans (hread 0 (by omega) j hj))
  have A1 := rowPass_acts (L := fun _ : Unit => v.length) (b := ()) (f := fun y c => y + c * x) hL (fun j hj => (congrArg (readOff s.c · j) o1).trans (hread 1 (by omega) j hj))
  have A2 := rowPass_acts (L := fun _ : Unit => v.length) (b := ()) (f := fun y c => y + c * (x * x)) hL (fun j hj => (congrArg (readOff s.c · j) o2).trans (hread 2 (by omega) j hj))
  have A3 := rowPass_acts (L := fun _ : Unit => v.length) (b := ()) (f := fun y c => y + c * (x * x * x)) hL (fun j hj => (congrArg (readOff s.c · j) o3).trans (hread 3 (by omega) j hj))
  have hall := (A0.bind (A1.bind (A2.bind A3))) (fun _ => v) (fun _ => rfl)
  simp only [Option.bind_eq_bind]
  have hassoc : ∀ (a : Option (Bufs Unit K)) (f1 f2 f3 : Bufs Unit K → Option (Bufs Unit K)),
      (a.bind fun st => (f1 st).bind fun st => (f2 st).bind fun st => (f3 st).bind fun st => pure (st ())) =
      (a.bind fun st => (f1 st).bind fun st => (f2 st).bind f3).bind fun st => pure (st ()) := by
    intro a f1 f2 f3
    cases a with
    | none => rfl
    | some a =>
      simp only [Option.bind_some]
      cases f1 a with
      | none => rfl
      | some b =>
        simp only [Option.bind_some]
        cases f2 b with
        | none => rfl
        | some c => rfl
  rw [hassoc]
  beta_reduce at hall
  rw [hall]
  simp only [Option.bind_some]
  show some _ = some _
  congr 1
  apply List.ext_getElem?
  intro j
  rw [List.getElem?_mapIdx, List.getElem?_mapIdx]
  congr 1
  funext y
  by_cases hj : j < S
  · simp [hj, coefOf, seg, hx]
  · simp [hj]

end

end Verif.Spline
