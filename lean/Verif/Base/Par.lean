import Verif.Base.Loop
import Mathlib.Data.Set.Lattice
import Mathlib.Logic.Relation

/-!
# Parallel kernels

A kernel launch (`Kokkos::parallel_for` with nested team-level loops) is a program `Prog ι K`: threads read, write and atomically
add to cells of shared buffers; `par n f k` runs `n` threads and continues with their results once all have finished.

* `Step` is the interleaving semantics: any thread may perform the next access.  A plain `x += v` is a read followed by a
  write, so unsynchronised updates of one cell can be lost.
* `run` executes the threads one after the other in index order.
* `Confined p S R A`: `p` reads only cells of `S` and `R`, writes only cells of `S` and adds atomically only to cells of `S`
  or `A`, and so do the threads inside, on pairwise disjoint parts of `S` (no data races).

`outcome_unique`: every interleaving of a race-free program gives the result of `run`.
-/

namespace Verif.Par

/-- Kernel programs over buffers `ι` with entries `K`. -/
inductive Prog (ι K : Type) : Type
  /-- end, with the contributions of this thread to an enclosing reduction -/
  | ret (v : List K)
  /-- undefined behaviour -/
  | ub
  | rd (b : ι) (p : ℕ) (k : K → Prog ι K)
  | wr (b : ι) (p : ℕ) (v : K) (k : Prog ι K)
  /-- `Kokkos::atomic_add` -/
  | at (b : ι) (p : ℕ) (v : K) (k : Prog ι K)
  | par (n : ℕ) (f : ℕ → Prog ι K) (k : List (List K) → Prog ι K)

/-- Run `n` bodies in index order and collect their results. -/
def loopV {σ α : Type} : ℕ → (ℕ → σ → Option (α × σ)) → σ → Option (List α × σ)
  | 0, _, s => some ([], s)
  | n + 1, body, s => (loopV n body s).bind (fun q => (body n q.2).map (fun r => (q.1 ++ [r.1], r.2)))

variable {ι K : Type} [DecidableEq ι] [AddCommMonoid K]

/-- Execution with the threads in index order. -/
def run : Prog ι K → Bufs ι K → Option (List K × Bufs ι K)
  | .ret v, m => some (v, m)
  | .ub, _ => none
  | .rd b p k, m => ((m b)[p]?).bind (fun x => run (k x) m)
  | .wr b p v k, m => (putAt b p v m).bind (run k)
  | .at b p v k, m => (addAt b p v m).bind (run k)
  | .par n f k, m => (loopV n (fun i m => run (f i) m) m).bind (fun q => run (k q.1) q.2)

/-- Memory actions. -/
inductive Act (ι K : Type) : Type
  | tau
  | rd (b : ι) (p : ℕ) (x : K)
  | wr (b : ι) (p : ℕ) (v : K)
  | at (b : ι) (p : ℕ) (v : K)

open Classical in
/-- Effect of an action (`none`: not possible in this memory). -/
noncomputable def Act.exec : Act ι K → Bufs ι K → Option (Bufs ι K)
  | .tau, m => some m
  | .rd b p x, m => if (m b)[p]? = some x then some m else none
  | .wr b p v, m => putAt b p v m
  | .at b p v, m => addAt b p v m

/-- Next accesses of a program: any unfinished thread may move. -/
inductive Trans : Prog ι K → Act ι K → Prog ι K → Prop
  | rd (b p k x) : Trans (.rd b p k) (.rd b p x) (k x)
  | wr (b p v k) : Trans (.wr b p v k) (.wr b p v) k
  | at (b p v k) : Trans (.at b p v k) (.at b p v) k
  | inner {n f k i a t} (hi : i < n) (h : Trans (f i) a t) : Trans (.par n f k) a (.par n (Function.update f i t) k)
  | join {n f k} (vs : ℕ → List K) (h : ∀ i < n, f i = .ret (vs i)) : Trans (.par n f k) .tau (k (tab n vs))

/-- Some thread is about to do something undefined. -/
inductive Faulty : Prog ι K → Bufs ι K → Prop
  | ub (m) : Faulty .ub m
  | rd {b p k m} (h : (m b)[p]? = none) : Faulty (.rd b p k) m
  | wr {b p v k m} (h : putAt b p v m = none) : Faulty (.wr b p v k) m
  | at {b p v k m} (h : addAt b p v m = none) : Faulty (.at b p v k) m
  | inner {n f k i m} (hi : i < n) (h : Faulty (f i) m) : Faulty (.par n f k) m

section sem

/-- One access by one thread. -/
def Step (c c' : Prog ι K × Bufs ι K) : Prop := ∃ a, Trans c.1 a c'.1 ∧ a.exec c.2 = some c'.2

/-- Result of a complete interleaving: the values and memory at the end, or `none` if undefined behaviour was reached. -/
inductive Outcome (p : Prog ι K) (m : Bufs ι K) : Option (List K × Bufs ι K) → Prop
  | done {v m'} (h : Relation.ReflTransGen Step (p, m) (.ret v, m')) : Outcome p m (some (v, m'))
  | fault {q m'} (h : Relation.ReflTransGen Step (p, m) (q, m')) (hf : Faulty q m') : Outcome p m none

end sem

/-- Freedom from data races, see the header. -/
def Confined : Prog ι K → Set (ι × ℕ) → Set (ι × ℕ) → Set (ι × ℕ) → Prop
  | .ret _, _, _, _ => True
  | .ub, _, _, _ => True
  | .rd b p k, S, R, A => ((b, p) ∈ S ∨ (b, p) ∈ R) ∧ ∀ x, Confined (k x) S R A
  | .wr b p _ k, S, R, A => (b, p) ∈ S ∧ Confined k S R A
  | .at b p _ k, S, R, A => ((b, p) ∈ S ∨ (b, p) ∈ A) ∧ Confined k S R A
  | .par n f k, S, R, A =>
    (∃ (T : ℕ → Set (ι × ℕ)) (R' A' : Set (ι × ℕ)), (∀ i < n, T i ⊆ S) ∧ R' ⊆ S ∪ R ∧ A' ⊆ S ∪ A ∧
      (∀ i < n, ∀ j < n, i ≠ j → Disjoint (T i) (T j)) ∧ (∀ i < n, Disjoint (T i) R') ∧ (∀ i < n, Disjoint (T i) A') ∧
      Disjoint R' A' ∧ ∀ i < n, Confined (f i) (T i) R' A') ∧
    ∀ vs, Confined (k vs) S R A

/-- The cells an action may touch. -/
def Act.In (S R A : Set (ι × ℕ)) : Act ι K → Prop
  | .tau => True
  | .rd b p _ => (b, p) ∈ S ∨ (b, p) ∈ R
  | .wr b p _ => (b, p) ∈ S
  | .at b p _ => (b, p) ∈ S ∨ (b, p) ∈ A

/-! ## Commutation of single accesses -/

omit [DecidableEq ι] [AddCommMonoid K] in
theorem loopV_succ {σ α : Type} (n : ℕ) (body : ℕ → σ → Option (α × σ)) (s : σ) :
    loopV (n + 1) body s = (loopV n body s).bind (fun q => (body n q.2).map (fun r => (q.1 ++ [r.1], r.2))) := rfl

omit [AddCommMonoid K] in
theorem get_modAt {m m' : Bufs ι K} {b : ι} {p : ℕ} {g : K → K} (h : modAt b p g m = some m') (b' : ι) (p' : ℕ) :
    (m' b')[p']? = if b' = b ∧ p' = p then ((m b)[p]?).map g else (m b')[p']? := by
  unfold modAt at h
  split at h
  · cases h
  · rename_i x hx
    simp only [Option.some.injEq] at h
    subst h
    by_cases hb : b' = b
    · subst hb
      rw [Function.update_self, List.getElem?_set]
      have hp : p < (m b').length := by
        by_contra hc
        rw [List.getElem?_eq_none (by omega)] at hx
        cases hx
      by_cases hpp : p = p'
      · subst hpp
        rw [List.getElem?_eq_getElem hp, Option.some.injEq] at hx
        simp [hp, hx]
      · have : ¬ p' = p := fun e => hpp e.symm
        simp [hpp, this]
    · rw [Function.update_of_ne hb]; simp [hb]

omit [AddCommMonoid K] in
theorem modAt_comm {m : Bufs ι K} {b b' : ι} {p p' : ℕ} {g g' : K → K}
    (hc : (b, p) = (b', p') → ∀ x, g (g' x) = g' (g x)) :
    (modAt b p g m).bind (modAt b' p' g') = (modAt b' p' g' m).bind (modAt b p g) := by
  unfold modAt
  by_cases hb : b = b'
  · subst hb
    by_cases hp : p = p'
    · subst hp
      cases hx : (m b)[p]? with
      | none => rfl
      | some x =>
        have hl : p < (m b).length := by
          by_contra h
          rw [List.getElem?_eq_none (by omega)] at hx; cases hx
        simp [hl, hc rfl x]
    · have hp' : ¬ p' = p := fun e => hp e.symm
      cases hx : (m b)[p]? with
      | none =>
        cases hy : (m b)[p']? with
        | none => rfl
        | some y => simp [List.getElem?_set, hp', hx]
      | some x =>
        cases hy : (m b)[p']? with
        | none => simp [List.getElem?_set, hp, hy]
        | some y => simp [List.getElem?_set, hp, hp', hx, hy, List.set_comm _ _ hp]
  · have hb' : ¬ b' = b := fun e => hb e.symm
    cases hx : (m b)[p]? with
    | none =>
      cases hy : (m b')[p']? with
      | none => rfl
      | some y => simp [Function.update_of_ne hb, hx]
    | some x =>
      cases hy : (m b')[p']? with
      | none => simp [Function.update_of_ne hb', hy]
      | some y => simp [Function.update_of_ne hb, Function.update_of_ne hb', hx, hy, Function.update_comm hb]

/-- A cell modification commutes with the run of a program that does not use the cell, or only adds to it when the
modification is an addition. -/
theorem run_modAt {S R A : Set (ι × ℕ)} (p : Prog ι K) (hp : Confined p S R A) {b : ι} {c : ℕ} {g : K → K}
    (hS : (b, c) ∉ S) (hR : (b, c) ∉ R) (hA : (b, c) ∈ A → ∀ v x, g (x + v) = g x + v) (m : Bufs ι K) :
    (modAt b c g m).bind (run p) = (run p m).bind (fun r => (modAt b c g r.2).map (fun m' => (r.1, m'))) := by
  induction p generalizing m S R A with
  | ret v =>
    cases hm : modAt b c g m <;> simp [run, hm]
  | ub => cases hm : modAt b c g m <;> simp [run]
  | rd b' p' k ih =>
    obtain ⟨h1, h2⟩ := hp
    have hne : ¬ (b' = b ∧ p' = c) := by
      rintro ⟨rfl, rfl⟩; exact h1.elim hS hR
    cases hx : (m b')[p']? with
    | none =>
      cases hm : modAt b c g m with
      | none => simp [run, hx]
      | some m' => simp [run, hx, get_modAt hm, hne]
    | some x =>
      have := ih x (h2 x) hS hR hA m
      cases hm : modAt b c g m with
      | none => rw [hm] at this; simp only [run, hx, Option.bind_some]; rw [← this]; rfl
      | some m' =>
        rw [hm] at this
        simp only [run, hx, Option.bind_some, get_modAt hm, if_neg hne]
        rw [← this]; rfl
  | wr b' p' v k ih =>
    obtain ⟨h1, h2⟩ := hp
    have hne : ¬ (b, c) = (b', p') := by rintro h; rw [h] at hS; exact hS h1
    have hcomm := modAt_comm (m := m) (b := b) (p := c) (g := g) (b' := b') (p' := p') (g' := fun _ => v)
      (fun h => absurd h hne)
    have hrun : ∀ m, run (.wr b' p' v k) m = (modAt b' p' (fun _ => v) m).bind (run k) := fun m => rfl
    have e1 : (modAt b c g m).bind (run (.wr b' p' v k)) = ((modAt b c g m).bind (modAt b' p' (fun _ => v))).bind (run k) := by
      cases modAt b c g m <;> rfl
    rw [e1, hcomm, hrun]
    cases hm : modAt b' p' (fun _ => v) m with
    | none => rfl
    | some m1 => exact ih h2 hS hR hA m1
  | «at» b' p' v k ih =>
    obtain ⟨h1, h2⟩ := hp
    have hcomm := modAt_comm (m := m) (b := b) (p := c) (g := g) (b' := b') (p' := p') (g' := fun x => x + v)
      (fun h x => by
        rcases h1 with h1 | h1
        · rw [← h] at h1; exact absurd h1 hS
        · rw [← h] at h1; exact hA h1 v x)
    have hrun : ∀ m, run (.at b' p' v k) m = (modAt b' p' (fun x => x + v) m).bind (run k) := fun m => rfl
    have e1 : (modAt b c g m).bind (run (.at b' p' v k)) =
        ((modAt b c g m).bind (modAt b' p' (fun x => x + v))).bind (run k) := by
      cases modAt b c g m <;> rfl
    rw [e1, hcomm, hrun]
    cases hm : modAt b' p' (fun x => x + v) m with
    | none => rfl
    | some m1 => exact ih h2 hS hR hA m1
  | par n f k ihf ihk =>
    obtain ⟨⟨T, R', A', hT, hR', hA', _, _, _, _, hf⟩, hk⟩ := hp
    have hS' : ∀ i < n, (b, c) ∉ T i := fun i hi h => hS (hT i hi h)
    have hR'' : (b, c) ∉ R' := fun h => (hR' h).elim hS hR
    have hA'' : (b, c) ∈ A' → ∀ v x, g (x + v) = g x + v := fun h => hA ((hA' h).resolve_left hS)
    have hl : ∀ j ≤ n, ∀ m, (modAt b c g m).bind (loopV j (fun i m => run (f i) m)) =
        (loopV j (fun i m => run (f i) m) m).bind (fun q => (modAt b c g q.2).map (fun m' => (q.1, m'))) := by
      intro j hj m
      induction j with
      | zero => cases hm : modAt b c g m <;> simp [loopV, hm]
      | succ j ih =>
        have ih := ih (by omega)
        have e1 : (modAt b c g m).bind (loopV (j + 1) (fun i m => run (f i) m)) =
            ((modAt b c g m).bind (loopV j (fun i m => run (f i) m))).bind
              (fun q => (run (f j) q.2).map (fun r => (q.1 ++ [r.1], r.2))) := by
          cases modAt b c g m <;> rfl
        rw [e1, ih, loopV_succ]
        cases hq : loopV j (fun i m => run (f i) m) m with
        | none => rfl
        | some q =>
          have h1 := ihf j (hf j (by omega)) (hS' j (by omega)) hR'' hA'' q.2
          simp only [Option.bind_some]
          cases hm : modAt b c g q.2 with
          | none =>
            rw [hm] at h1
            simp only [Option.bind_none] at h1
            cases hr : run (f j) q.2 with
            | none => rfl
            | some r =>
              rw [hr] at h1
              simp only [Option.bind_some] at h1
              have : modAt b c g r.2 = none := by
                cases hx : modAt b c g r.2 with
                | none => rfl
                | some y => rw [hx] at h1; cases h1
              simp [this]
          | some m1 =>
            rw [hm] at h1
            simp only [Option.bind_some, Option.map_some] at h1 ⊢
            rw [h1]
            cases hr : run (f j) q.2 with
            | none => rfl
            | some r =>
              simp only [Option.bind_some, Option.map_some]
              cases modAt b c g r.2 <;> rfl
    have e1 : (modAt b c g m).bind (run (.par n f k)) =
        ((modAt b c g m).bind (loopV n (fun i m => run (f i) m))).bind (fun q => run (k q.1) q.2) := by
      cases modAt b c g m <;> rfl
    rw [e1, hl n le_rfl m]
    show _ = ((loopV n (fun i m => run (f i) m) m).bind (fun q => run (k q.1) q.2)).bind _
    cases hq : loopV n (fun i m => run (f i) m) m with
    | none => rfl
    | some q =>
      have h1 := ihk q.1 (hk q.1) hS hR hA q.2
      simp only [Option.bind_some]
      rw [← h1]
      cases modAt b c g q.2 <;> rfl

/-- A program leaves the cells it may not change alone. -/
theorem run_get {S R A : Set (ι × ℕ)} (p : Prog ι K) (hp : Confined p S R A) {b : ι} {c : ℕ}
    (hS : (b, c) ∉ S) (hA : (b, c) ∉ A) {m : Bufs ι K} {r : List K × Bufs ι K} (h : run p m = some r) :
    (r.2 b)[c]? = (m b)[c]? := by
  induction p generalizing m r S R A with
  | ret v => simp only [run, Option.some.injEq] at h; subst h; rfl
  | ub => cases h
  | rd b' p' k ih =>
    obtain ⟨x, _, h2⟩ := Option.bind_eq_some_iff.mp h
    exact ih x (hp.2 x) hS hA h2
  | wr b' p' v k ih =>
    obtain ⟨m1, h1, h2⟩ := Option.bind_eq_some_iff.mp h
    rw [ih hp.2 hS hA h2, get_modAt h1, if_neg]
    rintro ⟨rfl, rfl⟩; exact hS hp.1
  | «at» b' p' v k ih =>
    obtain ⟨m1, h1, h2⟩ := Option.bind_eq_some_iff.mp h
    rw [ih hp.2 hS hA h2, get_modAt h1, if_neg]
    rintro ⟨rfl, rfl⟩; exact hp.1.elim hS hA
  | par n f k ihf ihk =>
    obtain ⟨⟨T, R', A', hT, hR', hA', _, _, _, _, hf⟩, hk⟩ := hp
    obtain ⟨q, h1, h2⟩ := Option.bind_eq_some_iff.mp h
    rw [ihk q.1 (hk q.1) hS hA h2]
    have hl : ∀ j ≤ n, ∀ q, loopV j (fun i m => run (f i) m) m = some q → (q.2 b)[c]? = (m b)[c]? := by
      intro j hj
      induction j with
      | zero => intro q hq; simp only [loopV, Option.some.injEq] at hq; subst hq; rfl
      | succ j ih =>
        intro q hq
        rw [loopV_succ] at hq
        obtain ⟨q1, hq1, hq2⟩ := Option.bind_eq_some_iff.mp hq
        obtain ⟨r, hr, rfl⟩ := Option.map_eq_some_iff.mp hq2
        rw [ihf j (hf j (by omega)) (fun h => hS (hT j (by omega) h)) (fun h => (hA' h).elim hS hA) hr]
        exact ih (by omega) q1 hq1
    exact hl n le_rfl q h1

omit [AddCommMonoid K] in
theorem length_modAt {m m' : Bufs ι K} {b : ι} {p : ℕ} {g : K → K} (h : modAt b p g m = some m') (b' : ι) :
    (m' b').length = (m b').length := by
  unfold modAt at h
  split at h
  · cases h
  · simp only [Option.some.injEq] at h
    subst h
    by_cases hb : b' = b
    · subst hb; simp
    · simp [Function.update_of_ne hb]

/-- Buffers keep their lengths. -/
theorem run_length (p : Prog ι K) {m : Bufs ι K} {r : List K × Bufs ι K} (h : run p m = some r) (b : ι) :
    (r.2 b).length = (m b).length := by
  induction p generalizing m r with
  | ret v => simp only [run, Option.some.injEq] at h; subst h; rfl
  | ub => cases h
  | rd b' p' k ih =>
    obtain ⟨x, _, h2⟩ := Option.bind_eq_some_iff.mp h
    exact ih x h2
  | wr b' p' v k ih =>
    obtain ⟨m1, h1, h2⟩ := Option.bind_eq_some_iff.mp h
    rw [ih h2, length_modAt h1]
  | «at» b' p' v k ih =>
    obtain ⟨m1, h1, h2⟩ := Option.bind_eq_some_iff.mp h
    rw [ih h2, length_modAt h1]
  | par n f k ihf ihk =>
    obtain ⟨q, h1, h2⟩ := Option.bind_eq_some_iff.mp h
    rw [ihk q.1 h2]
    have hl : ∀ j, ∀ q, loopV j (fun i m => run (f i) m) m = some q → (q.2 b).length = (m b).length := by
      intro j
      induction j with
      | zero => intro q hq; simp only [loopV, Option.some.injEq] at hq; subst hq; rfl
      | succ j ih =>
        intro q hq
        rw [loopV_succ] at hq
        obtain ⟨q1, hq1, hq2⟩ := Option.bind_eq_some_iff.mp hq
        obtain ⟨r, hr, rfl⟩ := Option.map_eq_some_iff.mp hq2
        rw [ihf j hr]
        exact ih q1 hq1
    exact hl n q h1

/-! ## One step of an interleaving -/

section steps

/-- An action of one thread commutes with the run of another. -/
theorem run_act {S R A S' : Set (ι × ℕ)} {p : Prog ι K} (hp : Confined p S R A) {a : Act ι K} (ha : a.In S' R A)
    (hd : Disjoint S' S) (hR : Disjoint S' R) (hA : Disjoint S' A) (hRA : Disjoint R A) (hSR : Disjoint S R) (hSA : Disjoint S A)
    {m m' : Bufs ι K} (h : a.exec m = some m') :
    run p m' = (run p m).bind (fun r => (a.exec r.2).map (fun m'' => (r.1, m''))) ∧
      ∀ r, run p m = some r → (a.exec r.2).isSome := by
  cases a with
  | tau =>
    simp only [Act.exec, Option.some.injEq] at h
    subst h
    refine ⟨?_, fun r _ => rfl⟩
    cases run p m <;> rfl
  | rd b c x =>
    simp only [Act.exec] at h
    split at h
    · rename_i hx
      simp only [Option.some.injEq] at h
      subst h
      have hget : ∀ r, run p m = some r → (r.2 b)[c]? = some x := by
        intro r hr
        rw [run_get p hp _ _ hr, hx]
        · rcases ha with ha | ha
          · exact Set.disjoint_left.mp hd ha
          · exact fun h => Set.disjoint_left.mp hSR h ha
        · rcases ha with ha | ha
          · exact Set.disjoint_left.mp hA ha
          · exact Set.disjoint_left.mp hRA ha
      cases hr : run p m with
      | none => exact ⟨rfl, fun r h => by cases h⟩
      | some r =>
        have := hget r hr
        refine ⟨?_, fun r' h => ?_⟩
        · simp [Act.exec, this]
        · cases h; simp [Act.exec, this]
    · cases h
  | wr b c v =>
    have h0 : modAt b c (fun _ => v) m = some m' := h
    have h1 := run_modAt p hp (b := b) (c := c) (g := fun _ => v) (Set.disjoint_left.mp hd ha) (Set.disjoint_left.mp hR ha)
      (fun h => absurd h (Set.disjoint_left.mp hA ha)) m
    rw [h0] at h1
    refine ⟨h1, fun r hr => ?_⟩
    have hg := run_get p hp (b := b) (c := c) (Set.disjoint_left.mp hd ha) (Set.disjoint_left.mp hA ha) hr
    show (modAt b c _ r.2).isSome
    unfold modAt at h0 ⊢
    rw [hg]
    cases hx : (m b)[c]? with
    | none => rw [hx] at h0; cases h0
    | some x => rfl
  | «at» b c v =>
    have h0 : modAt b c (fun x => x + v) m = some m' := h
    have hnS : (b, c) ∉ S := by
      rcases ha with ha | ha
      · exact Set.disjoint_left.mp hd ha
      · exact fun h => Set.disjoint_left.mp hSA h ha
    have hnR : (b, c) ∉ R := by
      rcases ha with ha | ha
      · exact Set.disjoint_left.mp hR ha
      · exact fun h => Set.disjoint_left.mp hRA h ha
    have h1 := run_modAt p hp (b := b) (c := c) (g := fun x => x + v) hnS hnR (fun _ w x => add_right_comm x w v) m
    rw [h0] at h1
    refine ⟨h1, fun r hr => ?_⟩
    have hl := run_length p hr b
    show (modAt b c _ r.2).isSome
    unfold modAt at h0 ⊢
    cases hx : (m b)[c]? with
    | none => rw [hx] at h0; cases h0
    | some x =>
      have hc : c < (m b).length := by
        by_contra hn
        rw [List.getElem?_eq_none (by omega)] at hx; cases hx
      rw [List.getElem?_eq_getElem (by omega)]
      rfl

theorem loopV_congr {σ α : Type} {n : ℕ} {f g : ℕ → σ → Option (α × σ)} (h : ∀ i < n, ∀ s, f i s = g i s) (s : σ) :
    loopV n f s = loopV n g s := by
  induction n with
  | zero => rfl
  | succ n ih =>
    rw [loopV_succ, loopV_succ, ih (fun i hi => h i (by omega))]
    cases loopV n g s with
    | none => rfl
    | some q => simp only [Option.bind_some]; rw [h n (by omega)]

/-- A step of any thread does not change the result of running the rest in order. -/
theorem trans_run {p q : Prog ι K} {a : Act ι K} (h : Trans p a q) {S R A : Set (ι × ℕ)} (hp : Confined p S R A) :
    Confined q S R A ∧ a.In S R A ∧ ∀ m m', a.exec m = some m' → run p m = run q m' := by
  induction h generalizing S R A with
  | rd b c k x =>
    refine ⟨hp.2 x, hp.1, fun m m' hm => ?_⟩
    simp only [Act.exec] at hm
    split at hm
    · rename_i hx
      simp only [Option.some.injEq] at hm
      subst hm
      simp [run, hx]
    · cases hm
  | wr b c v k => exact ⟨hp.2, hp.1, fun m m' hm => by
      have hm : putAt b c v m = some m' := hm
      simp [run, hm]⟩
  | «at» b c v k => exact ⟨hp.2, hp.1, fun m m' hm => by
      have hm : addAt b c v m = some m' := hm
      simp [run, hm]⟩
  | @inner n f k i a t hi h ih =>
    obtain ⟨⟨T, R', A', hT, hR', hA', hTT, hTR, hTA, hRA, hf⟩, hk⟩ := hp
    obtain ⟨i1, i2, i3⟩ := ih (hf i hi)
    refine ⟨⟨⟨T, R', A', hT, hR', hA', hTT, hTR, hTA, hRA, ?_⟩, hk⟩, ?_, ?_⟩
    · intro j hj
      by_cases hji : j = i
      · subst hji; rw [Function.update_self]; exact i1
      · rw [Function.update_of_ne hji]; exact hf j hj
    · cases a with
      | tau => trivial
      | rd b c x =>
        rcases i2 with h | h
        · exact Or.inl (hT i hi h)
        · exact hR' h
      | wr b c v => exact hT i hi i2
      | «at» b c v =>
        rcases i2 with h | h
        · exact Or.inl (hT i hi h)
        · exact hA' h
    · intro m m' hm
      have key : ∀ j, j ≤ i → loopV j (fun j m => run (f j) m) m' =
          (loopV j (fun j m => run (f j) m) m).bind (fun r => (a.exec r.2).map (fun m'' => (r.1, m''))) ∧
          ∀ r, loopV j (fun j m => run (f j) m) m = some r → (a.exec r.2).isSome := by
        intro j hj
        induction j with
        | zero => simp [loopV, hm]
        | succ j ihj =>
          obtain ⟨k1, k2⟩ := ihj (by omega)
          rw [loopV_succ, loopV_succ, k1]
          cases hq : loopV j (fun j m => run (f j) m) m with
          | none => exact ⟨rfl, fun r h => by cases h⟩
          | some q =>
            have hs := k2 q hq
            obtain ⟨m1, hm1⟩ := Option.isSome_iff_exists.mp hs
            obtain ⟨c1, c2⟩ := run_act (hf j (by omega)) i2 (hTT i hi j (by omega) (by omega)) (hTR i hi) (hTA i hi) hRA
              (hTR j (by omega)) (hTA j (by omega)) hm1
            simp only [Option.bind_some, hm1, Option.map_some]
            rw [c1]
            cases hr : run (f j) q.2 with
            | none => exact ⟨rfl, fun r h => by cases h⟩
            | some r =>
              obtain ⟨m2, hm2⟩ := Option.isSome_iff_exists.mp (c2 r hr)
              refine ⟨by simp [hm2], fun r' h => ?_⟩
              simp only [Option.map_some, Option.bind_some, Option.some.injEq] at h
              subst h
              simp [hm2]
      have main : ∀ j, i < j → j ≤ n → loopV j (fun j m => run (f j) m) m =
          loopV j (fun j m => run (Function.update f i t j) m) m' := by
        intro j hij hj
        induction j with
        | zero => omega
        | succ j ihj =>
          rw [loopV_succ, loopV_succ]
          by_cases hji : j = i
          · subst hji
            have hc : loopV j (fun j' m => run (Function.update f j t j') m) m' = loopV j (fun j m => run (f j) m) m' := by
              apply loopV_congr
              intro j' hj' s
              rw [Function.update_of_ne (by omega)]
            obtain ⟨k1, k2⟩ := key j le_rfl
            rw [hc, k1]
            cases hq : loopV j (fun j m => run (f j) m) m with
            | none => rfl
            | some q =>
              obtain ⟨m1, hm1⟩ := Option.isSome_iff_exists.mp (k2 q hq)
              simp only [Option.bind_some, hm1, Option.map_some, Function.update_self]
              rw [i3 q.2 m1 hm1]
          · rw [ihj (by omega) (by omega)]
            simp only [Function.update_of_ne hji]
      show (loopV n _ m).bind _ = (loopV n _ m').bind _
      rw [main n hi le_rfl]
  | @join n f k vs h =>
    refine ⟨hp.2 _, trivial, fun m m' hm => ?_⟩
    simp only [Act.exec, Option.some.injEq] at hm
    subst hm
    have : ∀ j ≤ n, loopV j (fun i m => run (f i) m) m = some (tab j vs, m) := by
      intro j hj
      induction j with
      | zero => rfl
      | succ j ih =>
        rw [loopV_succ, ih (by omega)]
        simp [h j (by omega), run, tab, List.range_succ]
    show (loopV n _ m).bind _ = _
    rw [this n le_rfl]
    rfl

omit [AddCommMonoid K] in
theorem modAt_none_of_length {m m' : Bufs ι K} {b : ι} {p : ℕ} {g : K → K} (hl : (m' b).length = (m b).length)
    (h : modAt b p g m = none) : modAt b p g m' = none := by
  unfold modAt at h ⊢
  split at h
  · rename_i hx
    have : (m' b)[p]? = none := by
      rw [List.getElem?_eq_none_iff] at hx ⊢; omega
    rw [this]
  · cases h

/-- A thread about to fault makes the sequential run fault. -/
theorem faulty_run {p : Prog ι K} {m : Bufs ι K} (h : Faulty p m) {m' : Bufs ι K}
    (hl : ∀ b, (m' b).length = (m b).length) : run p m' = none := by
  induction h generalizing m' with
  | ub => rfl
  | @rd b p k m h =>
    have : (m' b)[p]? = none := by
      have := hl b
      rw [List.getElem?_eq_none_iff] at h ⊢; omega
    simp [run, this]
  | @wr b p v k m h =>
    have h : modAt b p (fun _ => v) m = none := h
    show (modAt b p (fun _ => v) m').bind _ = none
    rw [modAt_none_of_length (hl b) h]; rfl
  | @«at» b p v k m h =>
    have h : modAt b p (fun x => x + v) m = none := h
    show (modAt b p (fun x => x + v) m').bind _ = none
    rw [modAt_none_of_length (hl b) h]; rfl
  | @inner n f k i m hi h ih =>
    have key : ∀ j ≤ i, ∀ q, loopV j (fun i m => run (f i) m) m' = some q → ∀ b, (q.2 b).length = (m b).length := by
      intro j hj
      induction j with
      | zero => intro q hq b; simp only [loopV, Option.some.injEq] at hq; subst hq; exact hl b
      | succ j ihj =>
        intro q hq b
        rw [loopV_succ] at hq
        obtain ⟨q1, hq1, hq2⟩ := Option.bind_eq_some_iff.mp hq
        obtain ⟨r, hr, rfl⟩ := Option.map_eq_some_iff.mp hq2
        rw [run_length _ hr]
        exact ihj (by omega) q1 hq1 b
    have hn : ∀ j, i < j → loopV j (fun i m => run (f i) m) m' = none := by
      intro j hij
      induction j with
      | zero => omega
      | succ j ihj =>
        rw [loopV_succ]
        by_cases hji : j = i
        · subst hji
          cases hq : loopV j (fun i m => run (f i) m) m' with
          | none => rfl
          | some q =>
            simp only [Option.bind_some]
            rw [ih (key j le_rfl q hq)]; rfl
        · rw [ihj (by omega)]; rfl
    show (loopV n _ m').bind _ = none
    rw [hn n hi]; rfl

/-- A race-free program: all cells belong to the launch. -/
def RaceFree (p : Prog ι K) : Prop := Confined p Set.univ ∅ ∅

theorem steps_run {p : Prog ι K} {m : Bufs ι K} {S R A : Set (ι × ℕ)} (hp : Confined p S R A) {c : Prog ι K × Bufs ι K}
    (h : Relation.ReflTransGen Step (p, m) c) : Confined c.1 S R A ∧ run p m = run c.1 c.2 := by
  induction h with
  | refl => exact ⟨hp, rfl⟩
  | @tail c1 c2 _ hs ih =>
    obtain ⟨a, ht, he⟩ := hs
    obtain ⟨t1, _, t3⟩ := trans_run ht ih.1
    exact ⟨t1, ih.2.trans (t3 _ _ he)⟩

/-- Every interleaving of a race-free program gives the result of the run in index order. -/
theorem outcome_unique {p : Prog ι K} {m : Bufs ι K} (hp : RaceFree p) {o : Option (List K × Bufs ι K)} (h : Outcome p m o) :
    o = run p m := by
  cases h with
  | done h => exact ((steps_run hp h).2.trans rfl).symm
  | fault h hf => rw [(steps_run hp h).2]; exact (faulty_run hf (fun _ => rfl)).symm

/-! ## The run in index order is an interleaving -/

theorem steps_inner {n : ℕ} {f : ℕ → Prog ι K} {k : List (List K) → Prog ι K} {i : ℕ} (hi : i < n) {c : Prog ι K × Bufs ι K}
    {m : Bufs ι K} (h : Relation.ReflTransGen Step (f i, m) c) :
    Relation.ReflTransGen Step (.par n f k, m) (.par n (Function.update f i c.1) k, c.2) := by
  induction h with
  | refl => rw [Function.update_eq_self]
  | @tail c1 c2 _ hs ih =>
    obtain ⟨a, ht, he⟩ := hs
    refine ih.tail ⟨a, ?_, he⟩
    have := Trans.inner (n := n) (f := Function.update f i c1.1) (k := k) (i := i) hi (by rw [Function.update_self]; exact ht)
    rwa [Function.update_idem] at this

theorem run_outcome (p : Prog ι K) (m : Bufs ι K) : Outcome p m (run p m) := by
  induction p generalizing m with
  | ret v => exact .done .refl
  | ub => exact .fault .refl (.ub m)
  | rd b c k ih =>
    cases hx : (m b)[c]? with
    | none => simp only [run, hx]; exact .fault .refl (.rd hx)
    | some x =>
      simp only [run, hx, Option.bind_some]
      have hs : Step (.rd b c k, m) (k x, m) := ⟨.rd b c x, .rd b c k x, by simp [Act.exec, hx]⟩
      generalize ho : run (k x) m = o
      have := ih x m
      rw [ho] at this
      cases this with
      | done h => exact .done (.head hs h)
      | fault h hf => exact .fault (.head hs h) hf
  | wr b c v k ih =>
    cases hx : putAt b c v m with
    | none => simp only [run, hx]; exact .fault .refl (.wr hx)
    | some m1 =>
      simp only [run, hx, Option.bind_some]
      have hs : Step (.wr b c v k, m) (k, m1) := ⟨.wr b c v, .wr b c v k, hx⟩
      generalize ho : run k m1 = o
      have := ih m1
      rw [ho] at this
      cases this with
      | done h => exact .done (.head hs h)
      | fault h hf => exact .fault (.head hs h) hf
  | «at» b c v k ih =>
    cases hx : addAt b c v m with
    | none => simp only [run, hx]; exact .fault .refl (.at hx)
    | some m1 =>
      simp only [run, hx, Option.bind_some]
      have hs : Step (.at b c v k, m) (k, m1) := ⟨.at b c v, .at b c v k, hx⟩
      generalize ho : run k m1 = o
      have := ih m1
      rw [ho] at this
      cases this with
      | done h => exact .done (.head hs h)
      | fault h hf => exact .fault (.head hs h) hf
  | par n f k ihf ihk =>
    have key : ∀ j ≤ n, (∃ (q : List (List K) × Bufs ι K) (vs : ℕ → List K), loopV j (fun i m => run (f i) m) m = some q ∧ q.1 = tab j vs ∧
        Relation.ReflTransGen Step (.par n f k, m) (.par n (fun i => if i < j then .ret (vs i) else f i) k, q.2)) ∨
        (loopV j (fun i m => run (f i) m) m = none ∧ ∃ c, Relation.ReflTransGen Step (.par n f k, m) c ∧ Faulty c.1 c.2) := by
      intro j hj
      induction j with
      | zero =>
        refine Or.inl ⟨([], m), fun _ => [], rfl, rfl, ?_⟩
        have : (fun i => if i < 0 then Prog.ret [] else f i) = f := by funext i; simp
        rw [this]
      | succ j ih =>
        rcases ih (by omega) with ⟨q, vs, h1, h2, h3⟩ | ⟨h1, c, h2, h3⟩
        · have ho := ihf j q.2
          have hj' : (fun i => if i < j then Prog.ret (vs i) else f i) j = f j := by simp
          have hin := fun (c : Prog ι K × Bufs ι K) (h : Relation.ReflTransGen Step (f j, q.2) c) => steps_inner (k := k) (i := j) (c := c) (m := q.2) (n := n)
            (f := fun i => if i < j then Prog.ret (vs i) else f i) (by omega) (by simpa using h)
          cases hr : run (f j) q.2 with
          | none =>
            rw [hr] at ho
            cases ho with
            | @fault q' m' h hf =>
              refine Or.inr ⟨by rw [loopV_succ, h1]; simp [hr], _, h3.trans (hin (q', m') h), ?_⟩
              exact Faulty.inner (i := j) (by omega) (by rw [Function.update_self]; exact hf)
          | some r =>
            rw [hr] at ho
            cases ho with
            | @done v m' h =>
              refine Or.inl ⟨(q.1 ++ [v], m'), fun i => if i = j then v else vs i, by rw [loopV_succ, h1]; simp [hr], ?_, ?_⟩
              · show q.1 ++ [v] = _
                rw [h2]
                have : tab j vs = tab j (fun i => if i = j then v else vs i) :=
                  tab_congr (fun i hi => by rw [if_neg (by omega)])
                rw [this]
                simp [tab, List.range_succ]
              · have e : Function.update (fun i => if i < j then Prog.ret (vs i) else f i) j (Prog.ret v) =
                    fun i => if i < j + 1 then Prog.ret (if i = j then v else vs i) else f i := by
                  funext i
                  by_cases hij : i = j
                  · subst hij; simp
                  · rw [Function.update_of_ne hij]
                    by_cases hlt : i < j
                    · simp [hlt, show i < j + 1 by omega, hij]
                    · simp [hlt, show ¬ i < j + 1 by omega]
                have := h3.trans (hin (.ret v, m') h)
                rwa [e] at this
        · exact Or.inr ⟨by rw [loopV_succ, h1]; rfl, c, h2, h3⟩
    rcases key n le_rfl with ⟨q, vs, h1, h2, h3⟩ | ⟨h1, c, h2, h3⟩
    · have hs : Step (.par n (fun i => if i < n then .ret (vs i) else f i) k, q.2) (k (tab n vs), q.2) :=
        ⟨.tau, .join vs (fun i hi => by simp [hi]), rfl⟩
      have h4 := h3.tail hs
      have hrun : run (.par n f k) m = run (k (tab n vs)) q.2 := by
        show (loopV n _ m).bind _ = _
        rw [h1, ← h2]; rfl
      rw [hrun]
      generalize ho : run (k (tab n vs)) q.2 = o
      have := ihk (tab n vs) q.2
      rw [ho] at this
      cases this with
      | done h => exact .done (h4.trans h)
      | fault h hf => exact .fault (h4.trans h) hf
    · have hrun : run (.par n f k) m = none := by
        show (loopV n _ m).bind _ = _
        rw [h1]; rfl
      rw [hrun]
      exact .fault h2 h3

end steps

end Verif.Par
