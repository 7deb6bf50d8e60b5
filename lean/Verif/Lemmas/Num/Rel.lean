import Verif.Model.Num
import Mathlib.Order.Filter.Basic

/-!
# Families of runs and one exact run

A family of runs of the evaluator, one for each `n : ι` with its own arithmetic `A n`, is compared with one run over a field `F`.
`V a x` relates a family of numbers with an exact number; `RL`, `RB`, `RP`, `RE` lift it to buffers, tuples and equal data, and
`RO l R o p` says: if the exact run yields a value, so does the run of almost every `n` (with respect to the filter `l`), and the
values are related.  The lemmas follow the constructs of the model.
-/

namespace Verif.Num
open Filter

variable {ι : Type} {l : Filter ι} {α β γ δ : Type}

/-- Related outcomes. -/
def RO (l : Filter ι) (R : (ι → α) → β → Prop) (o : ι → Option α) (p : Option β) : Prop :=
  ∀ b, p = some b → ∃ a : ι → α, (∀ᶠ n in l, o n = some (a n)) ∧ R a b

/-- Related lists. -/
def RL (R : (ι → α) → β → Prop) (xs : ι → List α) (ys : List β) : Prop :=
  ∃ fs : List (ι → α), List.Forall₂ R fs ys ∧ xs = fun n => fs.map (fun f => f n)

/-- The same value in every run. -/
def RE (a : ι → α) (b : α) : Prop := a = fun _ => b

/-- Related pairs. -/
def RP (R : (ι → α) → β → Prop) (S : (ι → γ) → δ → Prop) (q : ι → α × γ) (q' : β × δ) : Prop :=
  ∃ a b, q = (fun n => (a n, b n)) ∧ R a q'.1 ∧ S b q'.2

/-- Related families of buffers. -/
def RB {κ : Type} (R : (ι → α) → β → Prop) (st : ι → Bufs κ α) (st' : Bufs κ β) : Prop :=
  ∀ b, RL R (fun n => st n b) (st' b)

section outcomes
variable {R : (ι → α) → β → Prop} {S : (ι → γ) → δ → Prop}

theorem RO.some {a : ι → α} {b : β} (h : R a b) : RO l R (fun n => some (a n)) (some b) := by
  rintro _ ⟨⟩; exact ⟨a, Eventually.of_forall fun _ => rfl, h⟩

theorem RO.pure {a : ι → α} {b : β} (h : R a b) : RO l R (fun n => (pure (a n) : Option α)) (pure b) := RO.some h

theorem RO.none {o : ι → Option α} : RO l R o none := fun _ h => by cases h

theorem RO.congr {o o' : ι → Option α} {p : Option β} (he : ∀ᶠ n in l, o n = o' n) (h : RO l R o' p) : RO l R o p := by
  intro b hb
  obtain ⟨a, h1, h2⟩ := h b hb
  exact ⟨a, by filter_upwards [he, h1] with n e1 e2; rw [e1, e2], h2⟩

theorem RO.mono {R' : (ι → α) → β → Prop} {o : ι → Option α} {p : Option β} (h : RO l R o p) (hR : ∀ a b, p = .some b → R a b → R' a b) :
    RO l R' o p := by
  intro b hb
  obtain ⟨a, h1, h2⟩ := h b hb
  exact ⟨a, h1, hR _ _ hb h2⟩

theorem RO.bind {o : ι → Option α} {p : Option β} {f : ι → α → Option γ} {g : β → Option δ} (h : RO l R o p)
    (hf : ∀ a b, R a b → RO l S (fun n => f n (a n)) (g b)) : RO l S (fun n => o n >>= f n) (p >>= g) := by
  intro d hd
  obtain ⟨b, h1, h2⟩ := Option.bind_eq_some_iff.mp hd
  obtain ⟨a, h3, h4⟩ := h b h1
  obtain ⟨c, h5, h6⟩ := hf a b h4 d h2
  refine ⟨c, ?_, h6⟩
  filter_upwards [h3, h5] with n e1 e2
  show (o n).bind (f n) = _
  rw [e1, Option.bind_some, e2]

/-- As `RO.bind`, with the equation of the exact run. -/
theorem RO.bind' {o : ι → Option α} {p : Option β} {f : ι → α → Option γ} {g : β → Option δ} (h : RO l R o p)
    (hf : ∀ a b, p = .some b → R a b → RO l S (fun n => f n (a n)) (g b)) : RO l S (fun n => o n >>= f n) (p >>= g) := by
  refine RO.bind (R := fun a b => p = .some b ∧ R a b) (h.mono fun a b hb hR => ⟨hb, hR⟩) ?_
  rintro a b ⟨h1, h2⟩
  exact hf a b h1 h2

theorem RO.map {o : ι → Option α} {p : Option β} {f : ι → α → γ} {g : β → δ} (h : RO l R o p)
    (hf : ∀ a b, R a b → S (fun n => f n (a n)) (g b)) : RO l S (fun n => (o n).map (f n)) (p.map g) := by
  intro d hd
  obtain ⟨b, h1, rfl⟩ := Option.map_eq_some_iff.mp hd
  obtain ⟨a, h3, h4⟩ := h b h1
  refine ⟨_, ?_, hf a b h4⟩
  filter_upwards [h3] with n e1
  rw [e1, Option.map_some]

theorem RO.loop' {N : ℕ} {f : ι → ℕ → α → Option α} {g : ℕ → β → Option β} {a : ι → α} {b : β} (R : ℕ → (ι → α) → β → Prop)
    (h0 : R 0 a b) (hs : ∀ i < N, ∀ a b, R i a b → RO l (R (i + 1)) (fun n => f n i (a n)) (g i b)) :
    RO l (R N) (fun n => loop N (f n) (a n)) (loop N g b) := by
  induction N with
  | zero => exact RO.some h0
  | succ N ih => exact RO.bind (ih fun i hi => hs i (by omega)) (fun a b h => hs N (by omega) a b h)

theorem RO.loop {N : ℕ} {f : ι → ℕ → α → Option α} {g : ℕ → β → Option β} {a : ι → α} {b : β}
    (hs : ∀ i, ∀ a b, R a b → RO l R (fun n => f n i (a n)) (g i b)) (h0 : R a b) :
    RO l R (fun n => loop N (f n) (a n)) (loop N g b) :=
  RO.loop' (fun _ => R) h0 fun i _ => hs i

theorem RO.ite {c : Prop} [Decidable c] {o o' : ι → Option α} {p p' : Option β} (h : RO l R o p) (h' : RO l R o' p') :
    RO l R (fun n => if c then o n else o' n) (if c then p else p') := by
  split_ifs <;> assumption

theorem RO.const {p : Option α} : RO l RE (fun _ : ι => p) p := by
  rintro b rfl; exact ⟨_, Eventually.of_forall fun _ => rfl, rfl⟩

theorem RO.bindConst {p : Option α} {f : ι → α → Option γ} {g : α → Option δ} (hf : ∀ b, RO l S (fun n => f n b) (g b)) :
    RO l S (fun n => p >>= f n) (p >>= g) :=
  RO.bind RO.const fun a b h => by
    have h : a = fun _ => b := h
    subst h; exact hf b

theorem RO.bindConst' {p : Option α} {f : ι → α → Option γ} {g : α → Option δ} (hf : ∀ b, p = .some b → RO l S (fun n => f n b) (g b)) :
    RO l S (fun n => p >>= f n) (p >>= g) :=
  RO.bind' RO.const fun a b hp h => by
    have h : a = fun _ => b := h
    subst h; exact hf b hp

theorem RP.mk {a : ι → α} {b : β} {c : ι → γ} {d : δ} (h : R a b) (h' : S c d) : RP R S (fun n => (a n, c n)) (b, d) :=
  ⟨a, c, rfl, h, h'⟩

theorem RP.fst {q : ι → α × γ} {q' : β × δ} (h : RP R S q q') : R (fun n => (q n).1) q'.1 := by
  obtain ⟨a, b, rfl, h1, -⟩ := h; exact h1

theorem RP.counter {S : (ι → γ) → δ → Prop} {q : ι → ℕ × γ} {q' : ℕ × δ} (h : RP RE S q q') : ∃ a, q = (fun n => (q'.1, a n)) ∧ S a q'.2 := by
  obtain ⟨c, a, rfl, h1, h2⟩ := h
  have h1 : c = fun _ => q'.1 := h1
  subst h1
  exact ⟨a, rfl, h2⟩

theorem RP.snd {q : ι → α × γ} {q' : β × δ} (h : RP R S q q') : S (fun n => (q n).2) q'.2 := by
  obtain ⟨a, b, rfl, -, h1⟩ := h; exact h1

/-- A loop over the edges with the running counter, starting at `ij`. -/
theorem RO.edgesFrom {N ij : ℕ} {f : ι → ℕ → α → Option α} {g : ℕ → β → Option β} {a : ι → α} {b : β}
    (hs : ∀ j < N, ∀ a b, R a b → RO l R (fun n => f n (ij + j) (a n)) (g (ij + j) b)) (h0 : R a b) :
    RO l (fun q q' => q'.1 = ij + N ∧ RP RE R q q') (fun n => edgesFrom N (f n) (ij, a n)) (edgesFrom N g (ij, b)) := by
  simp only [edgesFrom_eq]
  exact RO.map (RO.loop' (fun _ => R) h0 hs) fun a b h => ⟨rfl, RP.mk rfl h⟩

theorem RO.cnt {N c : ℕ} {f : ι → ℕ → ℕ → α → Option α} {g : ℕ → ℕ → β → Option β} {a : ι → α} {b : β}
    (hs : ∀ k c a b, R a b → RO l R (fun n => f n k c (a n)) (g k c b)) (h0 : R a b) :
    RO l (RP RE R) (fun n => cnt N (f n) (c, a n)) (cnt N g (c, b)) := by
  simp only [cnt_eq]
  exact RO.map (RO.loop (fun i a b h => hs i (c + i) a b h) h0) fun a b h => RP.mk rfl h

end outcomes

section lists
variable {R : (ι → α) → β → Prop}

theorem RL.nil : RL R (fun _ => []) [] := ⟨[], .nil, rfl⟩

theorem RL.length {xs : ι → List α} {ys : List β} (h : RL R xs ys) (n : ι) : (xs n).length = ys.length := by
  obtain ⟨fs, h1, rfl⟩ := h
  simpa using h1.length_eq

theorem RL.get {xs : ι → List α} {ys : List β} (h : RL R xs ys) (i : ℕ) : RO l R (fun n => (xs n)[i]?) (ys[i]?) := by
  obtain ⟨fs, h1, rfl⟩ := h
  intro b hb
  obtain ⟨hi, hb⟩ := List.getElem?_eq_some_iff.mp hb
  have hl := h1.length_eq
  refine ⟨fs[i], Eventually.of_forall fun n => ?_, ?_⟩
  · simp [List.getElem?_eq_getElem, hl, hi]
  · have := h1.get (i := i) (hl ▸ hi) hi
    simp only [List.get_eq_getElem] at this
    rwa [← hb]

theorem RL.get' {xs : ι → List α} {ys : List β} (h : RL R xs ys) {i : ℕ} {b : β} (hb : ys[i]? = some b) :
    ∃ a : ι → α, (∀ n, (xs n)[i]? = some (a n)) ∧ R a b := by
  obtain ⟨fs, h1, rfl⟩ := h
  obtain ⟨hi, hb⟩ := List.getElem?_eq_some_iff.mp hb
  have hl := h1.length_eq
  refine ⟨fs[i], fun n => ?_, ?_⟩
  · simp [List.getElem?_eq_getElem, hl, hi]
  · have := h1.get (i := i) (hl ▸ hi) hi
    simp only [List.get_eq_getElem] at this
    rwa [← hb]

theorem RO.bindGet {S : (ι → γ) → δ → Prop} {xs : ι → List α} {ys : List β} (h : RL R xs ys) {i : ℕ} {f : ι → α → Option γ} {g : β → Option δ}
    (hf : ∀ (a : ι → α) (b : β), (∀ n, (xs n)[i]? = .some (a n)) → ys[i]? = .some b → R a b → RO l S (fun n => f n (a n)) (g b)) :
    RO l S (fun n => (xs n)[i]? >>= f n) (ys[i]? >>= g) := by
  cases hb : ys[i]? with
  | none => exact RO.none
  | some b =>
    obtain ⟨a, h1, h2⟩ := h.get' hb
    simp only [h1]
    exact hf a b h1 hb h2

theorem forall₂_set {fs : List (ι → α)} {ys : List β} (h : List.Forall₂ R fs ys) {f : ι → α} {y : β} (hf : R f y) (i : ℕ) :
    List.Forall₂ R (fs.set i f) (ys.set i y) := by
  induction h generalizing i with
  | nil => exact .nil
  | cons h1 h2 ih =>
    cases i with
    | zero => exact .cons hf h2
    | succ i => exact .cons h1 (ih i)

theorem RL.set {xs : ι → List α} {ys : List β} (h : RL R xs ys) {f : ι → α} {y : β} (hf : R f y) (i : ℕ) :
    RL R (fun n => (xs n).set i (f n)) (ys.set i y) := by
  obtain ⟨fs, h1, rfl⟩ := h
  exact ⟨fs.set i f, forall₂_set h1 hf i, by funext n; simp [List.map_set]⟩

theorem RL.append {xs xs' : ι → List α} {ys ys' : List β} (h : RL R xs ys) (h' : RL R xs' ys') :
    RL R (fun n => xs n ++ xs' n) (ys ++ ys') := by
  obtain ⟨fs, h1, rfl⟩ := h
  obtain ⟨gs, h2, rfl⟩ := h'
  exact ⟨fs ++ gs, List.rel_append (R := R) h1 h2, by simp⟩

theorem RL.single {f : ι → α} {y : β} (h : R f y) : RL R (fun n => [f n]) [y] := ⟨[f], .cons h .nil, rfl⟩

theorem RL.cons {f : ι → α} {y : β} {xs : ι → List α} {ys : List β} (h : R f y) (h' : RL R xs ys) : RL R (fun n => f n :: xs n) (y :: ys) := by
  obtain ⟨fs, h1, rfl⟩ := h'
  exact ⟨f :: fs, .cons h h1, rfl⟩

theorem RL.take {xs : ι → List α} {ys : List β} (h : RL R xs ys) (k : ℕ) : RL R (fun n => (xs n).take k) (ys.take k) := by
  obtain ⟨fs, h1, rfl⟩ := h
  exact ⟨fs.take k, List.forall₂_take k h1, by simp [List.map_take]⟩

theorem RL.drop {xs : ι → List α} {ys : List β} (h : RL R xs ys) (k : ℕ) : RL R (fun n => (xs n).drop k) (ys.drop k) := by
  obtain ⟨fs, h1, rfl⟩ := h
  exact ⟨fs.drop k, List.forall₂_drop k h1, by simp [List.map_drop]⟩

theorem RL.replicate {f : ι → α} {y : β} (h : R f y) (k : ℕ) : RL R (fun n => List.replicate k (f n)) (List.replicate k y) := by
  refine ⟨List.replicate k f, ?_, by simp⟩
  induction k with
  | zero => exact .nil
  | succ k ih => exact .cons h ih

theorem RL.getLast {xs : ι → List α} {ys : List β} (h : RL R xs ys) : RO l R (fun n => (xs n).getLast?) ys.getLast? := by
  simp only [List.getLast?_eq_getElem?, h.length]
  exact h.get _

theorem RL.wr {xs : ι → List α} {ys : List β} (h : RL R xs ys) {f : ι → α} {y : β} (hf : R f y) (i : ℕ) :
    RO l (RL R) (fun n => wr (xs n) i (f n)) (wr ys i y) := by
  simp only [Verif.wr, h.length]
  exact RO.ite (RO.some (h.set hf i)) RO.none

theorem RL.md {xs : ι → List α} {ys : List β} (h : RL R xs ys) {f : ι → α → α} {g : β → β}
    (hf : ∀ a b, R a b → R (fun n => f n (a n)) (g b)) (i : ℕ) : RO l (RL R) (fun n => md (xs n) i (f n)) (md ys i g) := by
  have e : ∀ {γ : Type} (b : List γ) (u : γ → γ), Verif.md b i u = b[i]?.bind fun x => some (b.set i (u x)) := by
    intro γ b u; unfold Verif.md; cases b[i]? <;> rfl
  simp only [e]
  exact RO.bind (h.get i) fun a b hab => RO.some (h.set (hf a b hab) i)

theorem RL.mono {R' : (ι → α) → β → Prop} {xs : ι → List α} {ys : List β} (h : RL R xs ys) (hR : ∀ a b, b ∈ ys → R a b → R' a b) : RL R' xs ys := by
  obtain ⟨fs, h1, rfl⟩ := h
  refine ⟨fs, ?_, rfl⟩
  induction h1 with
  | nil => exact .nil
  | cons h2 h3 ih =>
    exact .cons (hR _ _ List.mem_cons_self h2) (ih fun a b hb => hR a b (List.mem_cons_of_mem _ hb))

theorem RL.map {S : (ι → γ) → δ → Prop} {xs : ι → List α} {ys : List β} (h : RL R xs ys) {f : ι → α → γ} {g : β → δ}
    (hf : ∀ a b, b ∈ ys → R a b → S (fun n => f n (a n)) (g b)) : RL S (fun n => (xs n).map (f n)) (ys.map g) := by
  obtain ⟨fs, h1, rfl⟩ := h
  refine ⟨fs.map fun a n => f n (a n), ?_, by simp [Function.comp_def]⟩
  induction h1 with
  | nil => exact .nil
  | cons h2 h3 ih => exact .cons (hf _ _ List.mem_cons_self h2) (ih fun a b hb => hf a b (List.mem_cons_of_mem _ hb))

/-- The same list in every run. -/
theorem RL.const {ys : List α} : RL RE (fun _ : ι => ys) ys := by
  refine ⟨ys.map fun y _ => y, ?_, by funext n; simp [Function.comp_def]⟩
  induction ys with
  | nil => exact .nil
  | cons y ys ih => exact .cons rfl ih

theorem RO.pushLoop {N : ℕ} {f : ι → ℕ → Option α} {g : ℕ → Option β} {xs : ι → List α} {ys : List β}
    (hf : ∀ i, i < N → RO l R (fun n => f n i) (g i)) (h : RL R xs ys) :
    RO l (RL R) (fun n => MACE.pushLoop N (f n) (xs n)) (MACE.pushLoop N g ys) :=
  RO.loop' (fun _ => RL R) h fun i hi _ _ h => RO.bind (hf i hi) fun _ _ h' => RO.pure (h.append (RL.single h'))

theorem RO.modRow {xs : ι → List α} {ys : List β} {i : ℕ} {f : ι → α → Option α} {g : β → Option β} (h : RL R xs ys)
    (hf : ∀ a b, R a b → RO l R (fun n => f n (a n)) (g b)) :
    RO l (RL R) (fun n => MLP.modRow (xs n) i (f n)) (MLP.modRow ys i g) :=
  RO.bind (h.get i) fun a b hab => RO.bind (hf a b hab) fun _ _ h' => RO.pure (h.set h' i)

theorem RO.modAt {κ : Type} [DecidableEq κ] {st : ι → Bufs κ α} {st' : Bufs κ β} {b : κ} {i : ℕ} {f : ι → α → α} {g : β → β}
    (h : RB R st st') (hf : ∀ a b, R a b → R (fun n => f n (a n)) (g b)) :
    RO l (RB R) (fun n => modAt b i (f n) (st n)) (modAt b i g st') := by
  have e : ∀ {γ : Type} (s : Bufs κ γ) (u : γ → γ), Verif.modAt b i u s = (s b)[i]?.bind fun x => Option.some (Function.update s b ((s b).set i (u x))) := by
    intro γ s u; unfold Verif.modAt; cases (s b)[i]? <;> rfl
  simp only [e]
  refine RO.bind ((h b).get i) fun a y hab => RO.some fun c => ?_
  by_cases hc : c = b
  · subst hc; simpa using (h c).set (hf a y hab) i
  · simpa [hc] using h c

end lists

/-- What the comparison needs: `V` respects the operations; a division needs its exact divisor in `D`. -/
structure Sound {K F : Type} [Field F] (A : ι → Arith K) (V : (ι → K) → F → Prop) (D : F → Prop) : Prop where
  lit : ∀ q : ℚ, V (fun n => (A n).lit q) (q : F)
  ofInt : ∀ z : ℤ, V (fun n => (A n).ofInt z) (z : F)
  add : ∀ {a b : ι → K} {x y : F}, V a x → V b y → V (fun n => (A n).add (a n) (b n)) (x + y)
  sub : ∀ {a b : ι → K} {x y : F}, V a x → V b y → V (fun n => (A n).sub (a n) (b n)) (x - y)
  mul : ∀ {a b : ι → K} {x y : F}, V a x → V b y → V (fun n => (A n).mul (a n) (b n)) (x * y)
  neg : ∀ {a : ι → K} {x : F}, V a x → V (fun n => (A n).neg (a n)) (-x)
  div : ∀ {a b : ι → K} {x y : F}, V a x → V b y → D y → V (fun n => (A n).div (a n) (b n)) (x / y)
  dot : ∀ (t : List ℕ) {ps : ι → List (K × K)} {qs : List (F × F)}, RL (RP V V) ps qs →
    V (fun n => (A n).dot t none (ps n)) (qs.map fun q => q.1 * q.2).sum
  dotAcc : ∀ (t : List ℕ) {a : ι → K} {x : F} {ps : ι → List (K × K)} {qs : List (F × F)}, V a x → RL (RP V V) ps qs →
    V (fun n => (A n).dot t (some (a n)) (ps n)) (x + (qs.map fun q => q.1 * q.2).sum)

end Verif.Num
