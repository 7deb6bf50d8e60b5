import Mathlib.Algebra.BigOperators.Group.Finset.Basic
import Mathlib.Algebra.BigOperators.Intervals
import Mathlib.Algebra.Field.Basic
import Mathlib.Tactic.Ring
import Mathlib.Tactic.Linarith

/-!
# Buffers and loops

Shared vocabulary for modelling the C++ numeric loops.

* A C++ buffer (`std::vector<double>`, `std::span<double>`) is a `List K`.  Reads are `b[i]?`, writes go
  through `modAt`; both yield `none` outside the buffer, so undefined behaviour is a distinct outcome.
* `loop n body` is `for (int i=0; i<n; ++i) body(i)`.
* `Bufs ι K` is a family of output buffers that one C++ function writes.

The second half of the file is the proof rule used everywhere: `Acts`, which says that a piece of code
acts independently on every cell.
-/

namespace Verif

/-- `for (int i=0; i<n; ++i) body(i)`; `none` = undefined behaviour or exception in some iteration. -/
def loop {σ : Type*} : ℕ → (ℕ → σ → Option σ) → σ → Option σ
  | 0, _, s => some s
  | n + 1, body, s => (loop n body s).bind (body n)

/-- Accumulation `double acc = 0; for (i<n) acc += f(i)` where computing `f i` may be undefined. -/
def sumO {K : Type*} [Zero K] [Add K] : ℕ → (ℕ → Option K) → Option K
  | 0, _ => some 0
  | n + 1, f => do
    let a ← sumO n f
    let x ← f n
    pure (a + x)

/-- `std::vector::resize`: keeps the old prefix, value-initialises new cells. -/
def resize {K : Type*} [Zero K] (b : List K) (n : ℕ) : List K :=
  b.take n ++ List.replicate (n - b.length) 0

/-- Output buffers of one C++ function, named by `ι`. -/
abbrev Bufs (ι : Type) (K : Type*) := ι → List K

/-- `buf_b[i] = f(buf_b[i])`, checked. -/
def modAt {ι : Type} {K : Type*} [DecidableEq ι] (b : ι) (i : ℕ) (f : K → K) (s : Bufs ι K) :
    Option (Bufs ι K) :=
  match (s b)[i]? with
  | none => none
  | some x => some (Function.update s b ((s b).set i (f x)))

/-- `buf_b[i] = v`. -/
def putAt {ι : Type} {K : Type*} [DecidableEq ι] (b : ι) (i : ℕ) (v : K) : Bufs ι K → Option (Bufs ι K) :=
  modAt b i (fun _ => v)

/-- `buf_b[i] += v`. -/
def addAt {ι : Type} {K : Type*} [Add K] [DecidableEq ι] (b : ι) (i : ℕ) (v : K) :
    Bufs ι K → Option (Bufs ι K) :=
  modAt b i (fun x => x + v)

/-- The list `[f 0, ..., f (n-1)]`. -/
def tab {K : Type*} (n : ℕ) (f : ℕ → K) : List K := (List.range n).map f

/-! ## Basic facts -/

section basic
variable {K σ : Type*}

@[simp] theorem loop_zero (body : ℕ → σ → Option σ) (s : σ) : loop 0 body s = some s := rfl

theorem loop_succ (n : ℕ) (body : ℕ → σ → Option σ) (s : σ) :
    loop (n + 1) body s = (loop n body s).bind (body n) := rfl

/-- Loop invariant rule. -/
theorem loop_inv {n : ℕ} {body : ℕ → σ → Option σ} (P : ℕ → σ → Prop) {s : σ} (h0 : P 0 s)
    (hstep : ∀ i < n, ∀ s, P i s → ∃ s', body i s = some s' ∧ P (i + 1) s') :
    ∃ s', loop n body s = some s' ∧ P n s' := by
  induction n with
  | zero => exact ⟨s, rfl, h0⟩
  | succ n ih =>
    obtain ⟨s1, h1, hP1⟩ := ih (fun i hi => hstep i (Nat.lt_succ_of_lt hi))
    obtain ⟨s2, h2, hP2⟩ := hstep n (Nat.lt_succ_self n) s1 hP1
    exact ⟨s2, by simp [loop_succ, h1, h2], hP2⟩

/-- Loop rule with explicit states. -/
theorem loop_eq {n : ℕ} {body : ℕ → σ → Option σ} (S : ℕ → σ)
    (hstep : ∀ i < n, body i (S i) = some (S (i + 1))) : loop n body (S 0) = some (S n) := by
  induction n with
  | zero => rfl
  | succ n ih =>
    rw [loop_succ, ih (fun i hi => hstep i (Nat.lt_succ_of_lt hi))]
    exact hstep n (Nat.lt_succ_self n)

/-- A completed loop preserves what each of its iterations preserves. -/
theorem loop_pres {n : ℕ} {body : ℕ → σ → Option σ} {s s' : σ} (h : loop n body s = some s') (P : σ → Prop) (h0 : P s)
    (hs : ∀ i < n, ∀ t t', P t → body i t = some t' → P t') : P s' := by
  induction n generalizing s' with
  | zero => simp only [loop_zero, Option.some.injEq] at h; exact h ▸ h0
  | succ n ih =>
    rw [loop_succ] at h
    obtain ⟨t, h1, h2⟩ := Option.bind_eq_some_iff.mp h
    exact hs n (Nat.lt_succ_self n) t s' (ih h1 (fun i hi => hs i (Nat.lt_succ_of_lt hi))) h2

/-- Every iteration of a completed loop completed. -/
theorem loop_some_imp {n : ℕ} {body : ℕ → σ → Option σ} {s s' : σ} (h : loop n body s = some s') :
    ∀ i < n, ∃ t t', body i t = some t' := by
  induction n generalizing s' with
  | zero => omega
  | succ n ih =>
    rw [loop_succ] at h
    obtain ⟨t, h1, h2⟩ := Option.bind_eq_some_iff.mp h
    intro i hi
    by_cases hin : i = n
    · subst hin; exact ⟨t, s', h2⟩
    · exact ih h1 i (by omega)

theorem loop_congr {n : ℕ} {body body' : ℕ → σ → Option σ}
    (h : ∀ i < n, ∀ s, body i s = body' i s) (s : σ) : loop n body s = loop n body' s := by
  induction n with
  | zero => rfl
  | succ n ih =>
    rw [loop_succ, loop_succ, ih (fun i hi => h i (Nat.lt_succ_of_lt hi))]
    cases loop n body' s with
    | none => rfl
    | some s' => exact h n (Nat.lt_succ_self n) s'

theorem sumO_eq {K : Type*} [AddCommMonoid K] {n : ℕ} {f : ℕ → Option K} {g : ℕ → K}
    (h : ∀ i < n, f i = some (g i)) : sumO n f = some (∑ i ∈ Finset.range n, g i) := by
  induction n with
  | zero => simp [sumO]
  | succ n ih =>
    simp [sumO, ih (fun i hi => h i (Nat.lt_succ_of_lt hi)), h n (Nat.lt_succ_self n),
      Finset.sum_range_succ]

@[simp] theorem length_resize [Zero K] (b : List K) (n : ℕ) : (resize b n).length = n := by
  simp [resize]; omega

@[simp] theorem length_tab (n : ℕ) (f : ℕ → K) : (tab n f).length = n := by simp [tab]

theorem getElem?_tab (n : ℕ) (f : ℕ → K) (i : ℕ) :
    (tab n f)[i]? = if i < n then some (f i) else none := by
  unfold tab
  by_cases h : i < n <;> simp [h]

theorem getElem?_tab_lt {n : ℕ} {f : ℕ → K} {i : ℕ} (h : i < n) : (tab n f)[i]? = some (f i) := by
  rw [getElem?_tab, if_pos h]

theorem tab_congr {n : ℕ} {f g : ℕ → K} (h : ∀ i < n, f i = g i) : tab n f = tab n g := by
  unfold tab
  apply List.map_congr_left
  intro i hi
  exact h i (List.mem_range.mp hi)

theorem eq_tab_iff {b : List K} {n : ℕ} {f : ℕ → K} :
    b = tab n f ↔ b.length = n ∧ ∀ i < n, b[i]? = some (f i) := by
  constructor
  · rintro rfl
    exact ⟨by simp, fun i hi => getElem?_tab_lt hi⟩
  · rintro ⟨hl, h⟩
    apply List.ext_getElem?
    intro i
    rw [getElem?_tab]
    split
    · exact h i ‹_›
    · rw [List.getElem?_eq_none]; omega

/-- A buffer whose every cell is overwritten is known, whatever it held before. -/
theorem mapIdx_eq_tab {b : List K} {n : ℕ} {F : ℕ → K → K} {f : ℕ → K} (hl : b.length = n)
    (h : ∀ i < n, ∀ x, F i x = f i) : b.mapIdx F = tab n f := by
  rw [eq_tab_iff]
  refine ⟨by simp [hl], fun i hi => ?_⟩
  rw [List.getElem?_mapIdx]
  have : i < b.length := by omega
  simp [this, h i hi]

theorem replicate_mapIdx_eq_tab {n : ℕ} {x : K} {F : ℕ → K → K} {f : ℕ → K}
    (h : ∀ i < n, F i x = f i) : (List.replicate n x).mapIdx F = tab n f := by
  rw [eq_tab_iff]
  refine ⟨by simp, fun i hi => ?_⟩
  rw [List.getElem?_mapIdx]
  simp [hi, h i hi]

theorem tab_mapIdx {n : ℕ} {F : ℕ → K → K} {f : ℕ → K} :
    (tab n f).mapIdx F = tab n (fun i => F i (f i)) := by
  rw [eq_tab_iff]
  refine ⟨by simp, fun i hi => ?_⟩
  rw [List.getElem?_mapIdx, getElem?_tab_lt hi]
  rfl

theorem replicate_eq_tab (n : ℕ) (x : K) : List.replicate n x = tab n (fun _ => x) := by
  rw [eq_tab_iff]
  exact ⟨by simp, fun i hi => by simp [hi]⟩

end basic

/-! ## Cell-wise actions -/

theorem mapIdx_id {K : Type*} (b : List K) : b.mapIdx (fun _ x => x) = b := by
  apply List.ext_getElem?
  intro p
  rw [List.getElem?_mapIdx]
  simp

section acts
variable {ι : Type} {K : Type*}

/-- `iter n G x = G (n-1) (... (G 0 x))`. -/
def iter {K : Type*} : ℕ → (ℕ → K → K) → K → K
  | 0, _, x => x
  | n + 1, G, x => G n (iter n G x)

/-- `body` succeeds on all buffers of the given lengths and acts on every cell independently. -/
def Acts (L : ι → ℕ) (body : Bufs ι K → Option (Bufs ι K)) (F : ι → ℕ → K → K) : Prop :=
  ∀ s : Bufs ι K, (∀ b, (s b).length = L b) → body s = some (fun b => (s b).mapIdx (F b))

theorem Acts.congr {L : ι → ℕ} {body : Bufs ι K → Option (Bufs ι K)} {F G : ι → ℕ → K → K}
    (h : Acts L body F) (hFG : ∀ b, ∀ p < L b, ∀ x, F b p x = G b p x) : Acts L body G := by
  intro s hs
  rw [h s hs]
  congr 1
  funext b
  apply List.ext_getElem?
  intro p
  rw [List.getElem?_mapIdx, List.getElem?_mapIdx]
  by_cases hp : p < (s b).length
  · simp [hp, hFG b p (hs b ▸ hp)]
  · simp [hp]

theorem Acts.pure (L : ι → ℕ) : Acts L (fun s : Bufs ι K => some s) (fun _ _ x => x) := by
  intro s _
  simp [mapIdx_id]

theorem Acts.bind {L : ι → ℕ} {f g : Bufs ι K → Option (Bufs ι K)} {F G : ι → ℕ → K → K}
    (hf : Acts L f F) (hg : Acts L g G) :
    Acts L (fun s => (f s).bind g) (fun b p x => G b p (F b p x)) := by
  intro s hs
  show (f s).bind g = _
  rw [hf s hs, Option.bind_some, hg _ (fun b => by simp [hs b])]
  simp [List.mapIdx_mapIdx, Function.comp_def]

theorem Acts.loop {L : ι → ℕ} {n : ℕ} {body : ℕ → Bufs ι K → Option (Bufs ι K)}
    {F : ℕ → ι → ℕ → K → K} (h : ∀ i < n, Acts L (body i) (F i)) :
    Acts L (loop n body) (fun b p x => iter n (fun i => F i b p) x) := by
  induction n with
  | zero => exact Acts.pure L
  | succ n ih =>
    have h1 := ih (fun i hi => h i (Nat.lt_succ_of_lt hi))
    exact Acts.bind (F := fun b p x => iter n (fun i => F i b p) x) h1 (h n (Nat.lt_succ_self n))

theorem Acts.modAt [DecidableEq ι] {L : ι → ℕ} {b : ι} {i : ℕ} (hi : i < L b) (f : K → K) :
    Acts L (modAt b i f) (fun b' p x => if b' = b ∧ p = i then f x else x) := by
  intro s hs
  have hlt : i < (s b).length := by rw [hs b]; exact hi
  unfold Verif.modAt
  rw [List.getElem?_eq_getElem hlt]
  show some _ = _
  congr 1
  funext b'
  by_cases hb : b' = b
  · subst hb
    rw [Function.update_self]
    apply List.ext_getElem?
    intro p
    rw [List.getElem?_set, List.getElem?_mapIdx]
    by_cases hp : i = p
    · subst hp; simp [hlt]
    · have : ¬ p = i := fun h => hp h.symm
      simp [hp, this]
  · rw [Function.update_of_ne hb]
    simp [hb, mapIdx_id]

theorem Acts.putAt [DecidableEq ι] {L : ι → ℕ} {b : ι} {i : ℕ} (hi : i < L b) (v : K) :
    Acts L (putAt b i v) (fun b' p x => if b' = b ∧ p = i then v else x) :=
  Acts.modAt hi _

theorem Acts.addAt [DecidableEq ι] [Add K] {L : ι → ℕ} {b : ι} {i : ℕ} (hi : i < L b) (v : K) :
    Acts L (addAt b i v) (fun b' p x => if b' = b ∧ p = i then x + v else x) :=
  Acts.modAt hi _

/-- Replace the code by code equal on buffers of the given lengths. -/
theorem Acts.of_eq {L : ι → ℕ} {f g : Bufs ι K → Option (Bufs ι K)} {F : ι → ℕ → K → K}
    (hg : Acts L g F) (h : ∀ s, (∀ b, (s b).length = L b) → f s = g s) : Acts L f F :=
  fun s hs => (h s hs).trans (hg s hs)

end acts

/-! ## Evaluating `iter` -/

section iter
variable {K : Type*}

@[simp] theorem iter_zero (G : ℕ → K → K) (x : K) : iter 0 G x = x := rfl

theorem iter_succ (n : ℕ) (G : ℕ → K → K) (x : K) : iter (n + 1) G x = G n (iter n G x) := rfl

theorem iter_congr {n : ℕ} {G H : ℕ → K → K} (h : ∀ i < n, ∀ x, G i x = H i x) (x : K) :
    iter n G x = iter n H x := by
  induction n with
  | zero => rfl
  | succ n ih =>
    rw [iter_succ, iter_succ, ih (fun i hi => h i (Nat.lt_succ_of_lt hi)), h n (Nat.lt_succ_self n)]

theorem iter_id {n : ℕ} {G : ℕ → K → K} (h : ∀ i < n, ∀ x, G i x = x) (x : K) : iter n G x = x := by
  induction n with
  | zero => rfl
  | succ n ih =>
    rw [iter_succ, ih (fun i hi => h i (Nat.lt_succ_of_lt hi)), h n (Nat.lt_succ_self n)]

/-- Only iteration `i0` touches the cell. -/
theorem iter_single {n : ℕ} {G : ℕ → K → K} (i0 : ℕ) (h0 : i0 < n)
    (h : ∀ i < n, i ≠ i0 → ∀ x, G i x = x) (x : K) : iter n G x = G i0 x := by
  induction n with
  | zero => omega
  | succ n ih =>
    rw [iter_succ]
    by_cases hn : i0 = n
    · subst hn
      rw [iter_id (fun i hi x => h i (Nat.lt_succ_of_lt hi) (by omega) x)]
    · rw [h n (Nat.lt_succ_self n) (fun h => hn h.symm),
        ih (by omega) (fun i hi => h i (Nat.lt_succ_of_lt hi))]

theorem iter_add [AddCommMonoid K] {n : ℕ} {G : ℕ → K → K} {v : ℕ → K}
    (h : ∀ i < n, ∀ x, G i x = x + v i) (x : K) : iter n G x = x + ∑ i ∈ Finset.range n, v i := by
  induction n with
  | zero => simp
  | succ n ih =>
    rw [iter_succ, ih (fun i hi => h i (Nat.lt_succ_of_lt hi)), h n (Nat.lt_succ_self n),
      Finset.sum_range_succ, add_assoc]

end iter

end Verif

namespace Verif

/-- `b[i] = v` on a single buffer, checked. -/
def wr {K : Type*} (b : List K) (i : ℕ) (v : K) : Option (List K) :=
  if i < b.length then some (b.set i v) else none

theorem wr_eq {K : Type*} {b : List K} {i : ℕ} (v : K) (h : i < b.length) : wr b i v = some (b.set i v) :=
  if_pos h

/-- Result of a call: a value, a C++ exception, or undefined behaviour (out-of-range access). -/
inductive Out (α : Type*) where
  | ret (a : α)
  | exc
  | ub
deriving DecidableEq, Repr

end Verif

/-! ## Single-buffer versions -/

namespace Verif

section acts1
variable {K : Type*}

/-- `b[i] = f(b[i])` on a single buffer, checked. -/
def md (b : List K) (i : ℕ) (f : K → K) : Option (List K) :=
  match b[i]? with
  | none => none
  | some x => some (b.set i (f x))

/-- `b[i] += v` on a single buffer, checked. -/
def ad [Add K] (b : List K) (i : ℕ) (v : K) : Option (List K) := md b i (fun x => x + v)

/-- Single-buffer version of `Acts`. -/
def Acts1 (L : ℕ) (body : List K → Option (List K)) (F : ℕ → K → K) : Prop :=
  ∀ b : List K, b.length = L → body b = some (b.mapIdx F)

theorem Acts1.congr {L : ℕ} {body : List K → Option (List K)} {F G : ℕ → K → K}
    (h : Acts1 L body F) (hFG : ∀ p < L, ∀ x, F p x = G p x) : Acts1 L body G := by
  intro b hb
  rw [h b hb]
  congr 1
  apply List.ext_getElem?
  intro p
  rw [List.getElem?_mapIdx, List.getElem?_mapIdx]
  by_cases hp : p < b.length
  · simp [hp, hFG p (hb ▸ hp)]
  · simp [hp]

theorem Acts1.pure (L : ℕ) : Acts1 L (fun b : List K => some b) (fun _ x => x) := by
  intro b _
  simp [mapIdx_id]

theorem Acts1.bind {L : ℕ} {f g : List K → Option (List K)} {F G : ℕ → K → K}
    (hf : Acts1 L f F) (hg : Acts1 L g G) :
    Acts1 L (fun b => (f b).bind g) (fun p x => G p (F p x)) := by
  intro b hb
  show (f b).bind g = _
  rw [hf b hb, Option.bind_some, hg _ (by simp [hb])]
  simp [List.mapIdx_mapIdx, Function.comp_def]

theorem Acts1.loop {L n : ℕ} {body : ℕ → List K → Option (List K)}
    {F : ℕ → ℕ → K → K} (h : ∀ i < n, Acts1 L (body i) (F i)) :
    Acts1 L (loop n body) (fun p x => iter n (fun i => F i p) x) := by
  induction n with
  | zero => exact Acts1.pure L
  | succ n ih =>
    have h1 := ih (fun i hi => h i (Nat.lt_succ_of_lt hi))
    exact Acts1.bind (F := fun p x => iter n (fun i => F i p) x) h1 (h n (Nat.lt_succ_self n))

theorem Acts1.md {L i : ℕ} (hi : i < L) (f : K → K) :
    Acts1 L (fun b => md b i f) (fun p x => if p = i then f x else x) := by
  intro b hb
  have hlt : i < b.length := by rw [hb]; exact hi
  show Verif.md b i f = _
  unfold Verif.md
  rw [List.getElem?_eq_getElem hlt]
  show some _ = _
  congr 1
  apply List.ext_getElem?
  intro p
  rw [List.getElem?_set, List.getElem?_mapIdx]
  by_cases hp : i = p
  · subst hp; simp [hlt]
  · have : ¬ p = i := fun h => hp h.symm
    simp [hp, this]

theorem Acts1.wr {L i : ℕ} (hi : i < L) (v : K) :
    Acts1 L (fun b => wr b i v) (fun p x => if p = i then v else x) := by
  intro b hb
  have := Acts1.md hi (fun _ => v) b hb
  rw [← this]
  have hlt : i < b.length := by rw [hb]; exact hi
  show Verif.wr b i v = Verif.md b i _
  unfold Verif.md
  rw [wr_eq _ hlt, List.getElem?_eq_getElem hlt]

theorem Acts1.ad [Add K] {L i : ℕ} (hi : i < L) (v : K) :
    Acts1 L (fun b => ad b i v) (fun p x => if p = i then x + v else x) :=
  Acts1.md hi _

theorem Acts1.of_eq {L : ℕ} {f g : List K → Option (List K)} {F : ℕ → K → K}
    (hg : Acts1 L g F) (h : ∀ b, b.length = L → f b = g b) : Acts1 L f F :=
  fun b hb => (h b hb).trans (hg b hb)

end acts1

/-! ## Flat indices -/

/-- Two-level flat indices are injective. -/
theorem flat_inj {C X Y c c' : ℕ} (h : c < C) (h' : c' < C) : X * C + c = Y * C + c' ↔ X = Y ∧ c = c' := by
  constructor
  · intro he
    have h1 : (X * C + c) / C = X := by
      rw [mul_comm, Nat.mul_add_div (by omega), Nat.div_eq_of_lt h, add_zero]
    have h2 : (Y * C + c') / C = Y := by
      rw [mul_comm, Nat.mul_add_div (by omega), Nat.div_eq_of_lt h', add_zero]
    have hX : X = Y := by rw [← h1, ← h2, he]
    subst hX
    exact ⟨rfl, by omega⟩
  · rintro ⟨rfl, rfl⟩; rfl

theorem flat_lt {A C a c : ℕ} (ha : a < A) (hc : c < C) : a * C + c < A * C := by
  calc a * C + c < a * C + C := by omega
    _ = (a + 1) * C := by ring
    _ ≤ A * C := Nat.mul_le_mul_right _ ha

theorem flat_decomp {A C p : ℕ} (hp : p < A * C) : ∃ a c, a < A ∧ c < C ∧ p = a * C + c := by
  have hC : 0 < C := Nat.pos_of_ne_zero (by rintro rfl; simp at hp)
  refine ⟨p / C, p % C, ?_, Nat.mod_lt _ hC, ?_⟩
  · rw [Nat.div_lt_iff_lt_mul hC]; exact hp
  · rw [mul_comm]; exact (Nat.div_add_mod p C).symm

/-- Loop over the fast index of a flat index. -/
theorem iter_flat {K : Type*} {C X Y c0 : ℕ} (h : c0 < C) (G : ℕ → K → K) (x : K) :
    iter C (fun c x => if X * C + c0 = Y * C + c then G c x else x) x = if X = Y then G c0 x else x := by
  rw [iter_single c0 h]
  · by_cases hXY : X = Y
    · simp [hXY]
    · have : ¬ X * C + c0 = Y * C + c0 := by rw [flat_inj h h]; tauto
      rw [if_neg this, if_neg hXY]
  · intro i hi hne x
    have : ¬ X * C + c0 = Y * C + i := by rw [flat_inj h hi]; tauto
    simp [this]

/-- Loop over the slow index. -/
theorem iter_eq {K : Type*} {A a0 : ℕ} (h : a0 < A) (G : ℕ → K → K) (x : K) :
    iter A (fun a x => if a0 = a then G a x else x) x = G a0 x := by
  rw [iter_single a0 h]
  · simp
  · intro i _ hne x; rw [if_neg (fun h => hne h.symm)]

end Verif
