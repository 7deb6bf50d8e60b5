import Verif.Lemmas.Num.Load
import Verif.Lemmas.SplineSet

/-!
# Families of runs: evaluation of the tables

The index of the interval may differ between the runs.  `setRun i x`, `valRun i x`, `derRun i x` are the evaluations with a given index
and a given local coordinate.
-/

namespace Verif.Num
open Filter Verif.Spline

variable {ι : Type} {l : Filter ι} {K : Type} {A : ι → Arith K} {V : (ι → K) → ℝ → Prop} {D : ℝ → Prop}

/-! ## Mixing two families -/

/-- `V` is closed under choosing between two families. -/
def Mix (V : (ι → K) → ℝ → Prop) : Prop :=
  ∀ (c : ι → Prop) [DecidablePred c] (a b : ι → K) (x : ℝ), V a x → V b x → V (fun n => if c n then a n else b n) x

theorem RL.mix {α β : Type} {R : (ι → α) → β → Prop} {c : ι → Prop} [DecidablePred c]
    (h : ∀ a b x, R a x → R b x → R (fun n => if c n then a n else b n) x) {xs xs' : ι → List α} {ys : List β} (h1 : RL R xs ys) (h2 : RL R xs' ys) :
    RL R (fun n => if c n then xs n else xs' n) ys := by
  induction ys generalizing xs xs' with
  | nil => rw [h1.nil_inv, h2.nil_inv]; simpa using RL.nil
  | cons y ys ih =>
    obtain ⟨f, fs, rfl, hf, hfs⟩ := h1.cons_inv
    obtain ⟨f', fs', rfl, hf', hfs'⟩ := h2.cons_inv
    have := RL.cons (h f f' y hf hf') (ih hfs hfs')
    refine cast (congrArg (fun z => RL R z (y :: ys)) (funext fun n => ?_)) this
    split_ifs <;> rfl

theorem RO.mix {α β : Type} {R : (ι → α) → β → Prop} {c : ι → Prop} [DecidablePred c]
    (h : ∀ a b x, R a x → R b x → R (fun n => if c n then a n else b n) x) {o o' : ι → Option α} {p : Option β} (h1 : RO l R o p) (h2 : RO l R o' p) :
    RO l R (fun n => if c n then o n else o' n) p := by
  intro b hb
  obtain ⟨a, e1, r1⟩ := h1 b hb
  obtain ⟨a', e2, r2⟩ := h2 b hb
  refine ⟨fun n => if c n then a n else a' n, ?_, h a a' b r1 r2⟩
  filter_upwards [e1, e2] with n h1 h2
  split_ifs <;> assumption

theorem Mix.RB {κ : Type} (h : Mix V) (c : ι → Prop) [DecidablePred c] (a b : ι → Bufs κ K) (x : Bufs κ ℝ) (h1 : RB V a x) (h2 : RB V b x) :
    RB V (fun n => if c n then a n else b n) x := fun k => by
  have := RL.mix (c := c) (fun a b x => h c a b x) (h1 k) (h2 k)
  refine cast (congrArg (fun z => RL V z (x k)) (funext fun n => ?_)) this
  dsimp only
  split_ifs <;> rfl

theorem Mix.RP (h : Mix V) (c : ι → Prop) [DecidablePred c] (a b : ι → K × K) (x : ℝ × ℝ) (h1 : RP V V a x) (h2 : RP V V b x) :
    RP V V (fun n => if c n then a n else b n) x := by
  obtain ⟨a1, a2, rfl, p1, p2⟩ := h1
  obtain ⟨b1, b2, rfl, q1, q2⟩ := h2
  refine ⟨_, _, ?_, h c _ _ _ p1 q1, h c _ _ _ p2 q2⟩
  funext n
  split_ifs <;> rfl

/-! ## Spline sets -/

/-- `CubicSplineSet::evaluate_derivs` after the index and the local coordinate have been computed. -/
def setRun [A : Arith K] (s : Spline.SplineSet K) (i : ℤ) (x : K) (base : ℕ) (st : Bufs Bool K) : Option (Bufs Bool K) := do
  let S : ℤ := s.num_splines
  let o := 4 * i * S
  let st ← rowPass false base s.c o s.num_splines (fun _ c => c) st
  let st ← rowPass false base s.c (o + S) s.num_splines (fun y c => y + x * c) st
  let st ← rowPass false base s.c (o + S + S) s.num_splines (fun y c => y + (x * x) * c) st
  let st ← rowPass false base s.c (o + S + S + S) s.num_splines (fun y c => y + (x * x * x) * c) st
  let o' := (4 * i + 1) * S
  let st ← rowPass true base s.c o' s.num_splines (fun _ c => c) st
  let st ← rowPass true base s.c (o' + S) s.num_splines (fun y c => y + (A.lit 2 * x) * c) st
  rowPass true base s.c (o' + S + S) s.num_splines (fun y c => y + (A.lit 3 * (x * x)) * c) st

/-- The exact counterpart. -/
noncomputable def setRun' (s : Spline.SplineSet ℝ) (i : ℤ) (x : ℝ) (base : ℕ) (st : Bufs Bool ℝ) : Option (Bufs Bool ℝ) := do
  let S : ℤ := s.num_splines
  let o := 4 * i * S
  let st ← Spline.rowPass false base s.c o s.num_splines (fun _ c => c) st
  let st ← Spline.rowPass false base s.c (o + S) s.num_splines (fun y c => y + x * c) st
  let st ← Spline.rowPass false base s.c (o + S + S) s.num_splines (fun y c => y + (x * x) * c) st
  let st ← Spline.rowPass false base s.c (o + S + S + S) s.num_splines (fun y c => y + (x * x * x) * c) st
  let o' := (4 * i + 1) * S
  let st ← Spline.rowPass true base s.c o' s.num_splines (fun _ c => c) st
  let st ← Spline.rowPass true base s.c (o' + S) s.num_splines (fun y c => y + (2 * x) * c) st
  Spline.rowPass true base s.c (o' + S + S) s.num_splines (fun y c => y + (3 * (x * x)) * c) st

theorem setDerivs_run [A : Arith K] (s : Spline.SplineSet K) (r : K) (base : ℕ) (st : Bufs Bool K) :
    setDerivs s r base st = setRun s (A.trunc (A.div r s.h)) (A.sub r (A.mul s.h (A.ofInt (A.trunc (A.div r s.h))))) base st := rfl

theorem setDerivs_run' (s : Spline.SplineSet ℝ) (r : ℝ) (base : ℕ) (st : Bufs Bool ℝ) :
    s.evaluateDerivs r base st = setRun' s (truncInt (r / s.h)) (r - s.h * (truncInt (r / s.h) : ℤ)) base st := rfl

theorem rowPass_rel {κ : Type} [DecidableEq κ] {b : κ} {base S : ℕ} {c : ι → List K} {c' : List ℝ} {o : ι → ℤ} {o' : ℤ} {f : ι → K → K → K}
    {f' : ℝ → ℝ → ℝ} (hf : ∀ y y' x x', V y y' → V x x' → V (fun n => f n (y n) (x n)) (f' y' x'))
    (hr : ∀ j < S, RO l V (fun n => readOff (c n) (o n) j) (Spline.readOff c' o' j)) {st : ι → Bufs κ K} {st' : Bufs κ ℝ} (hst : RB V st st') :
    RO l (RB V) (fun n => rowPass b base (c n) (o n) S (f n) (st n)) (Spline.rowPass b base c' o' S f' st') := by
  unfold rowPass Spline.rowPass
  exact RO.loop' (fun _ => RB V) hst fun j hj st st' hst => RO.bind (hr j hj) fun x x' hx => RO.modAt hst fun y y' hy => hf _ _ _ _ hy hx

theorem setRun_rel (hS : Sound A V D) {s : ι → Spline.SplineSet K} {s' : Spline.SplineSet ℝ} {h0 : ι → K} (hs : RSet V h0 s s') {i : ι → ℤ} {i' : ℤ}
    (hr : ∀ q < 4, ∀ j < s'.num_splines, RO l V (fun n => readOff (s n).c (4 * i n * s'.num_splines + (q : ℕ) * s'.num_splines) j)
      (Spline.readOff s'.c (4 * i' * s'.num_splines + (q : ℕ) * s'.num_splines) j)) {x : ι → K} {x' : ℝ} (hx : V x x') {base : ℕ}
    {st : ι → Bufs Bool K} {st' : Bufs Bool ℝ} (hst : RB V st st') :
    RO l (RB V) (fun n => setRun (A := A n) (s n) (i n) (x n) base (st n)) (setRun' s' i' x' base st') := by
  have l2 := hS.litN 2
  have l3 := hS.litN 3
  unfold setRun setRun'
  simp only [hs.num_splines]
  have o0 : ∀ i : ℤ, 4 * i * s'.num_splines = 4 * i * s'.num_splines + (0 : ℕ) * s'.num_splines := fun i => by push_cast; ring
  have o1 : ∀ i : ℤ, 4 * i * s'.num_splines + s'.num_splines = 4 * i * s'.num_splines + (1 : ℕ) * s'.num_splines := fun i => by push_cast; ring
  have o2 : ∀ i : ℤ, 4 * i * s'.num_splines + s'.num_splines + s'.num_splines = 4 * i * s'.num_splines + (2 : ℕ) * s'.num_splines :=
    fun i => by push_cast; ring
  have o3 : ∀ i : ℤ, 4 * i * s'.num_splines + s'.num_splines + s'.num_splines + s'.num_splines
    = 4 * i * s'.num_splines + (3 : ℕ) * s'.num_splines := fun i => by push_cast; ring
  have p1 : ∀ i : ℤ, (4 * i + 1) * s'.num_splines = 4 * i * s'.num_splines + (1 : ℕ) * s'.num_splines := fun i => by push_cast; ring
  have p2 : ∀ i : ℤ, (4 * i + 1) * s'.num_splines + s'.num_splines = 4 * i * s'.num_splines + (2 : ℕ) * s'.num_splines := fun i => by push_cast; ring
  have p3 : ∀ i : ℤ, (4 * i + 1) * s'.num_splines + s'.num_splines + s'.num_splines = 4 * i * s'.num_splines + (3 : ℕ) * s'.num_splines :=
    fun i => by push_cast; ring
  refine RO.bind (rowPass_rel (fun y y' z z' _ hz => hz) (fun j hj => by have := hr 0 (by omega) j hj; simpa only [← o0] using this) hst) fun st st' hst => ?_
  refine RO.bind (rowPass_rel (fun y y' z z' hy hz => ?_) (fun j hj => by simpa only [o1] using hr 1 (by omega) j hj) hst) fun st st' hst => ?_
  · rel
  refine RO.bind (rowPass_rel (fun y y' z z' hy hz => ?_) (fun j hj => by simpa only [o2] using hr 2 (by omega) j hj) hst) fun st st' hst => ?_
  · rel
  refine RO.bind (rowPass_rel (fun y y' z z' hy hz => ?_) (fun j hj => by simpa only [o3] using hr 3 (by omega) j hj) hst) fun st st' hst => ?_
  · rel
  refine RO.bind (rowPass_rel (fun y y' z z' _ hz => hz) (fun j hj => by simpa only [p1] using hr 1 (by omega) j hj) hst) fun st st' hst => ?_
  refine RO.bind (rowPass_rel (fun y y' z z' hy hz => ?_) (fun j hj => by simpa only [p2] using hr 2 (by omega) j hj) hst) fun st st' hst => ?_
  · rel
  refine rowPass_rel (fun y y' z z' hy hz => ?_) (fun j hj => by simpa only [p3] using hr 3 (by omega) j hj) hst
  rel

theorem readOff_rel {c : ι → List K} {c' : List ℝ} (hc : RL V c c') (o : ℤ) (j : ℕ) :
    RO l V (fun n => readOff (c n) o j) (Spline.readOff c' o j) := by
  unfold readOff Spline.readOff
  exact RO.ite RO.none (hc.get _)

theorem rowPass_len {b : Bool} {base S : ℕ} {c : List ℝ} {o : ℤ} {f : ℝ → ℝ → ℝ} {st st2 : Bufs Bool ℝ}
    (h : Spline.rowPass b base c o S f st = some st2) : (∀ b', (st2 b').length = (st b').length) ∧ (0 < S → base + S ≤ (st b).length) := by
  unfold Spline.rowPass at h
  induction S generalizing st2 with
  | zero => cases h; exact ⟨fun _ => rfl, fun h => absurd h (lt_irrefl 0)⟩
  | succ S ih =>
    obtain ⟨st1, h1, h2⟩ := Option.bind_eq_some_iff.mp h
    obtain ⟨x, -, h3⟩ := Option.bind_eq_some_iff.mp h2
    obtain ⟨e1, -⟩ := ih h1
    unfold modAt at h3
    split at h3
    · cases h3
    · rename_i y hy
      cases h3
      have hlt := (List.getElem?_eq_some_iff.mp hy).1
      rw [e1] at hlt
      refine ⟨fun b' => ?_, fun _ => by omega⟩
      by_cases hb : b' = b
      · subst hb; simp [e1]
      · simp [Function.update_of_ne hb, e1]

theorem setRun'_len {s : Spline.SplineSet ℝ} {i : ℤ} {x : ℝ} {base : ℕ} {st st2 : Bufs Bool ℝ} (hS : 0 < s.num_splines)
    (h : setRun' s i x base st = some st2) (b : Bool) : base + s.num_splines ≤ (st b).length := by
  unfold setRun' at h
  obtain ⟨s1, h1, h⟩ := Option.bind_eq_some_iff.mp h
  obtain ⟨s2, h2, h⟩ := Option.bind_eq_some_iff.mp h
  obtain ⟨s3, h3, h⟩ := Option.bind_eq_some_iff.mp h
  obtain ⟨s4, h4, h⟩ := Option.bind_eq_some_iff.mp h
  obtain ⟨s5, h5, h⟩ := Option.bind_eq_some_iff.mp h
  cases b
  · exact (rowPass_len h1).2 hS
  · have := (rowPass_len h5).2 hS
    rwa [(rowPass_len h4).1, (rowPass_len h3).1, (rowPass_len h2).1, (rowPass_len h1).1] at this

theorem setRun'_acts {S n : ℕ} {vals derivs : List (List ℝ)} {h : ℝ} (H : Rect S n vals derivs) (hS : 0 < S) (hn : 0 < n) {s : SplineSet ℝ}
    (hs : SplineSet.mk? h vals derivs = some s) {i : ℕ} (hi : i + 1 < n) (x : ℝ) {L : Bool → ℕ} {base : ℕ} (hL : ∀ b, base + S ≤ L b) :
    Acts L (setRun' s i x base)
      (fun b p y => if base ≤ p ∧ p < base + S then
        (let j := p - base
         let g := fun (f : ℝ → ℝ → ℝ → ℝ → ℝ → ℝ → ℝ) => f h (at2 vals j i) (at2 derivs j i)
           (at2 vals j (i + 1)) (at2 derivs j (i + 1)) x
         if b = false then g seg else g segD) else y) := by
  obtain ⟨s', hs', eh, en, eS, elen, ec⟩ := SplineSet.mk?_spec h H hS hn
  rw [hs] at hs'
  obtain rfl := Option.some.inj hs'
  have hread : ∀ q : ℕ, q < 4 → ∀ j < S, Spline.readOff s.c (4 * (i : ℤ) * S + q * S) j = some (coefOf h vals derivs i q j) := by
    intro q hq j hj
    rw [readOff_row, ec i j q hi hj hq]
  unfold setRun'
  simp only [eS]
  have o0 : 4 * (i : ℤ) * S = 4 * (i : ℤ) * S + (0 : ℕ) * S := by push_cast; ring
  have o1 : 4 * (i : ℤ) * S + S = 4 * (i : ℤ) * S + (1 : ℕ) * S := by push_cast; ring
  have o2 : 4 * (i : ℤ) * S + S + S = 4 * (i : ℤ) * S + (2 : ℕ) * S := by push_cast; ring
  have o3 : 4 * (i : ℤ) * S + S + S + S = 4 * (i : ℤ) * S + (3 : ℕ) * S := by push_cast; ring
  have p1 : (4 * (i : ℤ) + 1) * S = 4 * (i : ℤ) * S + (1 : ℕ) * S := by push_cast; ring
  have p2 : (4 * (i : ℤ) + 1) * S + S = 4 * (i : ℤ) * S + (2 : ℕ) * S := by push_cast; ring
  have p3 : (4 * (i : ℤ) + 1) * S + S + S = 4 * (i : ℤ) * S + (3 : ℕ) * S := by push_cast; ring
  have A0 := rowPass_acts (f := fun _ c => c) (hL false) (fun j hj => (congrArg (Spline.readOff s.c · j) o0).trans (hread 0 (by omega) j hj))
  have A1 := rowPass_acts (f := fun y c => y + x * c) (hL false) (fun j hj => (congrArg (Spline.readOff s.c · j) o1).trans (hread 1 (by omega) j hj))
  have A2 := rowPass_acts (f := fun y c => y + x * x * c) (hL false) (fun j hj => (congrArg (Spline.readOff s.c · j) o2).trans (hread 2 (by omega) j hj))
  have A3 := rowPass_acts (f := fun y c => y + x * x * x * c) (hL false) (fun j hj => (congrArg (Spline.readOff s.c · j) o3).trans (hread 3 (by omega) j hj))
  have B1 := rowPass_acts (f := fun _ c => c) (hL true) (fun j hj => (congrArg (Spline.readOff s.c · j) p1).trans (hread 1 (by omega) j hj))
  have B2 := rowPass_acts (f := fun y c => y + 2 * x * c) (hL true) (fun j hj => (congrArg (Spline.readOff s.c · j) p2).trans (hread 2 (by omega) j hj))
  have B3 := rowPass_acts (f := fun y c => y + 3 * (x * x) * c) (hL true) (fun j hj => (congrArg (Spline.readOff s.c · j) p3).trans (hread 3 (by omega) j hj))
  have hall := A0.bind (A1.bind (A2.bind (A3.bind (B1.bind (B2.bind B3)))))
  refine Acts.congr hall ?_
  intro b p hp y
  by_cases hr : base ≤ p ∧ p < base + S
  · cases b <;> simp [hr, coefOf, seg, segD, mul_comm, mul_assoc, mul_left_comm]
  · simp [hr]

/-- The index agrees, or the point is a node of the table and the index is one less. -/
def IdxNear (h r : ℝ) (i : ℕ) (t : ℤ) : Prop := t = i ∨ r = h * i ∧ 1 ≤ i ∧ t = ((i - 1 : ℕ) : ℤ)

theorem setDerivs_near (hS : Sound A V D) (hM : Mix V) {S n : ℕ} {vals derivs : List (List ℝ)} {h : ℝ} (hh : 0 < h) (H : Rect S n vals derivs)
    (hS0 : 0 < S) {s' : SplineSet ℝ} (hs' : SplineSet.mk? h vals derivs = some s') {s : ι → SplineSet K} {h0 : ι → K} (hs : RSet V h0 s s')
    {r : ι → K} {r' : ℝ} (hr : V r r') {i : ℕ} (hi : i + 1 < n) (h1 : h * i ≤ r') (h2 : r' < h * (i + 1))
    (ht : ∀ᶠ m in l, IdxNear h r' i ((A m).trunc ((A m).div (r m) (s m).h))) {base : ℕ} {st : ι → Bufs Bool K} {st' : Bufs Bool ℝ}
    (hst : RB V st st') :
    RO l (RB V) (fun m => setDerivs (A := A m) (s m) (r m) base (st m)) (s'.evaluateDerivs r' base st') := by
  have eh : s'.h = h ∧ s'.num_splines = S := by
    obtain ⟨s1, e1, e2, -, e3, -⟩ := SplineSet.mk?_spec h H hS0 (by omega)
    rw [hs'] at e1; cases e1; exact ⟨e2, e3⟩
  rw [setDerivs_run', eh.1, truncInt_div hh i h1 h2]
  have hat : ∀ k : ℕ, RO l (RB V) (fun m => setRun (A := A m) (s m) k ((A m).sub (r m) ((A m).mul (s m).h ((A m).ofInt k))) base (st m))
      (setRun' s' k (r' - h * ((k : ℤ) : ℝ)) base st') := fun k => by
    refine setRun_rel hS hs (fun q _ j _ => readOff_rel hs.c _ _) (hS.sub hr (hS.mul ?_ (hS.ofInt _))) hst
    have := hs.h
    rwa [eh.1] at this
  by_cases hk : r' = h * i ∧ 1 ≤ i
  · have e : setRun' s' ((i - 1 : ℕ) : ℤ) (r' - h * (((i - 1 : ℕ) : ℤ) : ℝ)) base st' = setRun' s' i (r' - h * ((i : ℤ) : ℝ)) base st' ∨
        setRun' s' i (r' - h * ((i : ℤ) : ℝ)) base st' = none := by
      cases hb : setRun' s' i (r' - h * ((i : ℤ) : ℝ)) base st' with
      | none => exact .inr rfl
      | some st2 =>
        left
        have hl := fun b => setRun'_len (by rw [eh.2]; exact hS0) hb b
        rw [eh.2] at hl
        rw [← hb, setRun'_acts H hS0 (by omega) hs' (i := i - 1) (by omega) _ hl st' fun _ => rfl,
          setRun'_acts H hS0 (by omega) hs' (i := i) (by omega) _ hl st' fun _ => rfl]
        congr 1
        funext b
        apply List.ext_getElem?
        intro p
        simp only [List.getElem?_mapIdx]
        congr 1
        funext y
        have e1 : r' - h * (((i - 1 : ℕ) : ℤ) : ℝ) = h := by
          rw [hk.1, Int.cast_natCast, Nat.cast_sub hk.2]; push_cast; ring
        have e2 : r' - h * ((i : ℤ) : ℝ) = 0 := by rw [hk.1, Int.cast_natCast]; ring
        rw [e1, e2]
        simp only [seg_zero, segD_zero, seg_h hh.ne', segD_h hh.ne', Nat.sub_add_cancel hk.2]
    rcases e with e | e
    · refine RO.congr ?_ (RO.mix (c := fun m => (A m).trunc ((A m).div (r m) (s m).h) = i) (fun a b x => hM.RB _ a b x) (hat i)
        (by rw [← e]; exact hat (i - 1)))
      filter_upwards [ht] with m hm
      rw [setDerivs_run (A := A m)]
      rcases hm with hm | hm
      · rw [if_pos hm, hm]
      · rw [if_neg (by rw [hm.2.2]; have := hk.2; omega), hm.2.2]
    · rw [e]; exact RO.none
  · refine RO.congr ?_ (hat i)
    filter_upwards [ht] with m hm
    rw [setDerivs_run (A := A m)]
    rcases hm with hm | hm
    · rw [hm]
    · exact absurd ⟨hm.1, hm.2.1⟩ hk

/-! ## Single splines -/

/-- The value with a given index. -/
def valRun [A : Arith K] (c : List K) (i : ℤ) (x : K) : Option K :=
  if i < 0 ∨ i ≥ (c.length / 4 : ℕ) then none
  else (coeffs4 c i).map fun q => q.1 + q.2.1 * x + q.2.2.1 * (x * x) + q.2.2.2 * (x * x * x)

/-- Value and derivative with a given index. -/
def derRun [A : Arith K] (c : List K) (i : ℤ) (x : K) : Option (K × K) :=
  if i < 0 ∨ i ≥ (c.length / 4 : ℕ) then none
  else (coeffs4 c i).map fun q => (q.1 + q.2.1 * x + q.2.2.1 * (x * x) + q.2.2.2 * (x * x * x), q.2.1 + A.lit 2 * q.2.2.1 * x + A.lit 3 * q.2.2.2 * (x * x))

/-- The exact counterparts. -/
noncomputable def valRun' (c : List ℝ) (i : ℤ) (x : ℝ) : Option ℝ :=
  if i < 0 ∨ i ≥ (c.length / 4 : ℕ) then none
  else (Spline.coeffs4 c i).map fun q => q.1 + q.2.1 * x + q.2.2.1 * (x * x) + q.2.2.2 * (x * x * x)

noncomputable def derRun' (c : List ℝ) (i : ℤ) (x : ℝ) : Option (ℝ × ℝ) :=
  if i < 0 ∨ i ≥ (c.length / 4 : ℕ) then none
  else (Spline.coeffs4 c i).map fun q => (q.1 + q.2.1 * x + q.2.2.1 * (x * x) + q.2.2.2 * (x * x * x), q.2.1 + 2 * q.2.2.1 * x + 3 * q.2.2.2 * (x * x))

theorem splineValue_run [A : Arith K] (s : CubicSpline K) (r : K) :
    MACE.ofOut (splineValue s r) = valRun s.c (A.trunc (A.div r s.h)) (A.sub r (A.mul s.h (A.ofInt (A.trunc (A.div r s.h))))) := by
  unfold splineValue valRun
  change MACE.ofOut (if A.trunc (r / s.h) < 0 ∨ A.trunc (r / s.h) ≥ (s.c.length / 4 : ℕ) then _ else _) = 
    (if A.trunc (r / s.h) < 0 ∨ A.trunc (r / s.h) ≥ (s.c.length / 4 : ℕ) then _ else Option.map _ (coeffs4 s.c (A.trunc (r / s.h))))
  split_ifs
  · rfl
  · dsimp only
    cases coeffs4 s.c (A.trunc (r / s.h)) <;> rfl

theorem splineDeriv_run [A : Arith K] (s : CubicSpline K) (r : K) :
    MACE.ofOut (splineDeriv s r) = derRun s.c (A.trunc (A.div r s.h)) (A.sub r (A.mul s.h (A.ofInt (A.trunc (A.div r s.h))))) := by
  unfold splineDeriv derRun
  change MACE.ofOut (if A.trunc (r / s.h) < 0 ∨ A.trunc (r / s.h) ≥ (s.c.length / 4 : ℕ) then _ else _) = 
    (if A.trunc (r / s.h) < 0 ∨ A.trunc (r / s.h) ≥ (s.c.length / 4 : ℕ) then _ else Option.map _ (coeffs4 s.c (A.trunc (r / s.h))))
  split_ifs
  · rfl
  · dsimp only
    cases coeffs4 s.c (A.trunc (r / s.h)) <;> rfl

theorem splineValue_run' (s : CubicSpline ℝ) (r : ℝ) :
    MACE.ofOut (s.evaluate r) = valRun' s.c (truncInt (r / s.h)) (r - s.h * (truncInt (r / s.h) : ℤ)) := by
  unfold CubicSpline.evaluate valRun'
  dsimp only
  split_ifs
  · rfl
  · cases Spline.coeffs4 s.c (truncInt (r / s.h)) <;> rfl

theorem splineDeriv_run' (s : CubicSpline ℝ) (r : ℝ) :
    MACE.ofOut (s.evaluateDeriv r) = derRun' s.c (truncInt (r / s.h)) (r - s.h * (truncInt (r / s.h) : ℤ)) := by
  unfold CubicSpline.evaluateDeriv derRun'
  dsimp only
  split_ifs
  · rfl
  · cases Spline.coeffs4 s.c (truncInt (r / s.h)) <;> rfl

/-- Four related numbers. -/
abbrev R4 (V : (ι → K) → ℝ → Prop) : (ι → K × K × K × K) → ℝ × ℝ × ℝ × ℝ → Prop := RP V (RP V (RP V V))

theorem coeffs4_rel {c : ι → List K} {c' : List ℝ} (hc : RL V c c') (i : ℤ) :
    RO l (R4 V) (fun n => coeffs4 (c n) i) (Spline.coeffs4 c' i) := by
  unfold coeffs4 Spline.coeffs4
  refine RO.ite RO.none ?_
  exact RO.bind (hc.get _) fun a a' ha => RO.bind (hc.get _) fun b b' hb => RO.bind (hc.get _) fun d d' hd => RO.bind (hc.get _) fun e e' he =>
    RO.pure (RP.mk ha (RP.mk hb (RP.mk hd he)))

theorem valRun_rel (hS : Sound A V D) {c : ι → List K} {c' : List ℝ} {i : ι → ℤ} {i' : ℤ} (hi : ∀ n, 0 ≤ i n ∧ i n < ((c n).length / 4 : ℕ))
    (hc : RO l (R4 V) (fun n => coeffs4 (c n) (i n)) (Spline.coeffs4 c' i')) {x : ι → K} {x' : ℝ} (hx : V x x') :
    RO l V (fun n => valRun (A := A n) (c n) (i n) (x n)) (valRun' c' i' x') := by
  unfold valRun valRun'
  have e : ∀ n, ¬ (i n < 0 ∨ i n ≥ ((c n).length / 4 : ℕ)) := fun n => by have := hi n; omega
  simp only [e, if_false]
  split_ifs
  · exact RO.none
  · refine RO.map hc fun q q' hq => ?_
    have h0 := hq.fst
    have h1 := hq.snd.fst
    have h2 := hq.snd.snd.fst
    have h3 := hq.snd.snd.snd
    rel

theorem derRun_rel (hS : Sound A V D) {c : ι → List K} {c' : List ℝ} {i : ι → ℤ} {i' : ℤ} (hi : ∀ n, 0 ≤ i n ∧ i n < ((c n).length / 4 : ℕ))
    (hc : RO l (R4 V) (fun n => coeffs4 (c n) (i n)) (Spline.coeffs4 c' i')) {x : ι → K} {x' : ℝ} (hx : V x x') :
    RO l (RP V V) (fun n => derRun (A := A n) (c n) (i n) (x n)) (derRun' c' i' x') := by
  unfold derRun derRun'
  have e : ∀ n, ¬ (i n < 0 ∨ i n ≥ ((c n).length / 4 : ℕ)) := fun n => by have := hi n; omega
  simp only [e, if_false]
  have l2 := hS.litN 2
  have l3 := hS.litN 3
  split_ifs
  · exact RO.none
  · refine RO.map hc fun q q' hq => ?_
    have h0 := hq.fst
    have h1 := hq.snd.fst
    have h2 := hq.snd.snd.fst
    have h3 := hq.snd.snd.snd
    rel

section near
variable {vals derivs : List ℝ} {h : ℝ} {s' : CubicSpline ℝ} {s : ι → CubicSpline K} {r : ι → K} {r' : ℝ} {i : ℕ}

theorem spline_near (hS : Sound A V D) (hM : Mix V) (hh : 0 < h) (hl : vals.length ≤ derivs.length) (hs' : CubicSpline.mk? h vals derivs = some s')
    {h0 : ι → K} (hs : RSpl V h0 s s') (hr : V r r') (hi : i + 1 < vals.length) (h1 : h * i ≤ r') (h2 : r' < h * (i + 1))
    (ht : ∀ᶠ m in l, IdxNear h r' i ((A m).trunc ((A m).div (r m) (s m).h))) :
    RO l V (fun m => MACE.ofOut (splineValue (A := A m) (s m) (r m))) (MACE.ofOut (s'.evaluate r')) ∧
    RO l (RP V V) (fun m => MACE.ofOut (splineDeriv (A := A m) (s m) (r m))) (MACE.ofOut (s'.evaluateDeriv r')) := by
  obtain ⟨s1, e1, eh, elen, ec⟩ := Spline.mk?_spec h vals derivs (by omega) hl
  rw [hs'] at e1
  cases e1
  have hlt : ∀ k : ℕ, k + 1 < vals.length → ∀ n, 0 ≤ (k : ℤ) ∧ (k : ℤ) < ((s n).c.length / 4 : ℕ) := fun k hk n => by
    rw [hs.c.length, elen]; omega
  have hx : ∀ k : ℕ, V (fun m => (A m).sub (r m) ((A m).mul (s m).h ((A m).ofInt k))) (r' - h * ((k : ℤ) : ℝ)) := fun k => by
    refine hS.sub hr (hS.mul ?_ (hS.ofInt _))
    have := hs.h
    rwa [eh] at this
  have hrun : ∀ k, k + 1 < vals.length → ¬ ((k : ℤ) < 0 ∨ (k : ℤ) ≥ (s'.c.length / 4 : ℕ)) := fun k hk => by rw [elen]; omega
  rw [splineValue_run', splineDeriv_run', eh, truncInt_div hh i h1 h2]
  simp only [splineValue_run, splineDeriv_run]
  by_cases hk : r' = h * i ∧ 1 ≤ i
  · have d1 : r' - h * (((i - 1 : ℕ) : ℤ) : ℝ) = h := by
      rw [hk.1, Int.cast_natCast, Nat.cast_sub hk.2]; push_cast; ring
    have d2 : r' - h * ((i : ℤ) : ℝ) = 0 := by rw [hk.1, Int.cast_natCast]; ring
    have c1 := ec i hi
    have c2 := ec (i - 1) (by omega)
    have hl0 : ∀ k : ℕ, k < vals.length → k < derivs.length := fun k hk => by omega
    have hidx : i - 1 + 1 = i := by omega
    have ev : valRun' s'.c ((i - 1 : ℕ) : ℤ) (r' - h * (((i - 1 : ℕ) : ℤ) : ℝ)) = valRun' s'.c i (r' - h * ((i : ℤ) : ℝ)) := by
      unfold valRun'
      rw [if_neg (hrun _ (by omega)), if_neg (hrun _ hi), c1, c2, d1, d2]
      simp only [Option.map_some, mul_zero, add_zero]
      have := seg_h hh.ne' vals[i - 1] derivs[i - 1] vals[i - 1 + 1] derivs[i - 1 + 1]
      unfold seg at this
      rw [this]
      simp only [hidx]
    have ed : derRun' s'.c ((i - 1 : ℕ) : ℤ) (r' - h * (((i - 1 : ℕ) : ℤ) : ℝ)) = derRun' s'.c i (r' - h * ((i : ℤ) : ℝ)) := by
      unfold derRun'
      rw [if_neg (hrun _ (by omega)), if_neg (hrun _ hi), c1, c2, d1, d2]
      simp only [Option.map_some, mul_zero, add_zero]
      have := seg_h hh.ne' vals[i - 1] derivs[i - 1] vals[i - 1 + 1] derivs[i - 1 + 1]
      unfold seg at this
      rw [this]
      have := segD_h hh.ne' vals[i - 1] derivs[i - 1] vals[i - 1 + 1] derivs[i - 1 + 1]
      unfold segD at this
      rw [this]
      simp only [hidx]
    constructor
    · refine RO.congr ?_ (RO.mix (c := fun m => (A m).trunc ((A m).div (r m) (s m).h) = i) (fun a b x => hM _ a b x)
        (valRun_rel hS (hlt i hi) (coeffs4_rel hs.c _) (hx i)) (by rw [← ev]; exact valRun_rel hS (hlt (i - 1) (by omega)) (coeffs4_rel hs.c _) (hx (i - 1))))
      filter_upwards [ht] with m hm
      rcases hm with hm | hm
      · rw [if_pos hm, hm]
      · rw [if_neg (by rw [hm.2.2]; have := hk.2; omega), hm.2.2]
    · refine RO.congr ?_ (RO.mix (c := fun m => (A m).trunc ((A m).div (r m) (s m).h) = i) (fun a b x => hM.RP _ a b x)
        (derRun_rel hS (hlt i hi) (coeffs4_rel hs.c _) (hx i)) (by rw [← ed]; exact derRun_rel hS (hlt (i - 1) (by omega)) (coeffs4_rel hs.c _) (hx (i - 1))))
      filter_upwards [ht] with m hm
      rcases hm with hm | hm
      · rw [if_pos hm, hm]
      · rw [if_neg (by rw [hm.2.2]; have := hk.2; omega), hm.2.2]
  · have hev : ∀ᶠ m in l, (A m).trunc ((A m).div (r m) (s m).h) = i := by
      filter_upwards [ht] with m hm
      rcases hm with hm | hm
      · exact hm
      · exact absurd ⟨hm.1, hm.2.1⟩ hk
    constructor
    · refine RO.congr ?_ (valRun_rel hS (hlt i hi) (coeffs4_rel hs.c _) (hx i))
      filter_upwards [hev] with m hm
      rw [hm]
    · refine RO.congr ?_ (derRun_rel hS (hlt i hi) (coeffs4_rel hs.c _) (hx i))
      filter_upwards [hev] with m hm
      rw [hm]

end near

end Verif.Num
