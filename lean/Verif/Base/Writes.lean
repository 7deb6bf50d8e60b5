import Verif.Base.Tab
import Verif.Base.Edge

/-!
# Proof rules for loops that write or accumulate

* `Writes I rd body S val`: run in a state satisfying `I`, `body` succeeds, re-establishes `I`, stores `val a` in every
  cell `a ∈ S` and leaves every other cell alone.  Since all writes to a cell store the same value, the rule composes
  without disjointness conditions.
* `Adds L body d`: on a buffer of length `L`, `body` succeeds and adds `d p` to every cell `p`.
* `cnt`: loop with a running counter that advances once per iteration.
-/

namespace Verif

section writes
variable {σ α K : Type*}

def Writes (I : σ → Prop) (rd : σ → α → Option K) (body : σ → Option σ) (S : α → Prop) (val : α → K) : Prop :=
  ∀ s, I s → ∃ s', body s = some s' ∧ I s' ∧ ∀ a, (S a → rd s' a = some (val a)) ∧ (¬ S a → rd s' a = rd s a)

theorem Writes.weaken {I : σ → Prop} {rd : σ → α → Option K} {body : σ → Option σ} {S S' : α → Prop} {val : α → K}
    (h : Writes I rd body S val) (hS : ∀ a, S a ↔ S' a) : Writes I rd body S' val := by
  intro s hs
  obtain ⟨s', h1, h2, h3⟩ := h s hs
  exact ⟨s', h1, h2, fun a => by rw [← hS a]; exact h3 a⟩

theorem Writes.of_eq {I : σ → Prop} {rd : σ → α → Option K} {f g : σ → Option σ} {S : α → Prop} {val : α → K}
    (h : Writes I rd g S val) (he : ∀ s, I s → f s = g s) : Writes I rd f S val := by
  intro s hs
  obtain ⟨s', h1, h2⟩ := h s hs
  exact ⟨s', by rw [he s hs, h1], h2⟩

theorem Writes.bind {I : σ → Prop} {rd : σ → α → Option K} {f g : σ → Option σ} {S T : α → Prop} {val : α → K}
    (hf : Writes I rd f S val) (hg : Writes I rd g T val) :
    Writes I rd (fun s => (f s).bind g) (fun a => S a ∨ T a) val := by
  intro s hs
  obtain ⟨s1, h1, h2, h3⟩ := hf s hs
  obtain ⟨s2, k1, k2, k3⟩ := hg s1 h2
  refine ⟨s2, ?_, k2, fun a => ⟨?_, ?_⟩⟩
  · show (f s).bind g = _
    rw [h1, Option.bind_some, k1]
  · rintro (ha | ha)
    · by_cases hT : T a
      · exact (k3 a).1 hT
      · rw [(k3 a).2 hT, (h3 a).1 ha]
    · exact (k3 a).1 ha
  · intro ha
    rw [(k3 a).2 (fun h => ha (Or.inr h)), (h3 a).2 (fun h => ha (Or.inl h))]

theorem Writes.loop {I : σ → Prop} {rd : σ → α → Option K} {n : ℕ} {body : ℕ → σ → Option σ} {S : ℕ → α → Prop}
    {val : α → K} (h : ∀ i < n, Writes I rd (body i) (S i) val) :
    Writes I rd (loop n body) (fun a => ∃ i < n, S i a) val := by
  induction n with
  | zero =>
    intro s hs
    exact ⟨s, rfl, hs, fun a => ⟨fun ⟨i, hi, _⟩ => by omega, fun _ => rfl⟩⟩
  | succ n ih =>
    have := (ih (fun i hi => h i (Nat.lt_succ_of_lt hi))).bind (h n (Nat.lt_succ_self n))
    refine Writes.weaken this (fun a => ⟨?_, ?_⟩)
    · rintro (⟨i, hi, ha⟩ | ha)
      · exact ⟨i, Nat.lt_succ_of_lt hi, ha⟩
      · exact ⟨n, Nat.lt_succ_self n, ha⟩
    · rintro ⟨i, hi, ha⟩
      rcases Nat.lt_succ_iff_lt_or_eq.mp hi with h | rfl
      · exact Or.inl ⟨i, h, ha⟩
      · exact Or.inr ha

end writes

section single
variable {K : Type*}

/-- Single-buffer version. -/
abbrev Wr (L : ℕ) (body : List K → Option (List K)) (S : ℕ → Prop) (val : ℕ → K) : Prop :=
  Writes (fun b : List K => b.length = L) (fun b p => b[p]?) body S val

theorem Wr.of_acts {L : ℕ} {body : List K → Option (List K)} {F : ℕ → K → K} (h : Acts1 L body F) {S : ℕ → Prop}
    {val : ℕ → K} (hlt : ∀ p, S p → p < L) (hS : ∀ p, S p → ∀ x, F p x = val p)
    (hn : ∀ p < L, ¬ S p → ∀ x, F p x = x) : Wr L body S val := by
  intro b hb
  refine ⟨_, h b hb, by simp [hb], fun p => ⟨fun hp => ?_, fun hp => ?_⟩⟩
  · beta_reduce
    rw [List.getElem?_mapIdx, List.getElem?_eq_getElem (by rw [hb]; exact hlt p hp), Option.map_some, hS p hp]
  · beta_reduce
    rw [List.getElem?_mapIdx]
    by_cases hpl : p < b.length
    · rw [List.getElem?_eq_getElem hpl, Option.map_some, hn p (hb ▸ hpl) hp]
    · rw [List.getElem?_eq_none (by omega)]; rfl

theorem Wr.wr {L i : ℕ} (hi : i < L) {val : ℕ → K} {v : K} (hv : val i = v) :
    Wr L (fun b => wr b i v) (fun p => p = i) val :=
  Wr.of_acts (Acts1.wr hi v) (fun p hp => hp ▸ hi) (fun p hp x => by rw [if_pos hp, hp, hv]) (fun p _ hp x => if_neg hp)

/-- All cells written: the result is a function of the cell. -/
theorem Wr.tab_of_all {L : ℕ} {body : List K → Option (List K)} {S : ℕ → Prop} {val : ℕ → K} (h : Wr L body S val)
    (hS : ∀ p < L, S p) {b : List K} (hb : b.length = L) : body b = some (tab L val) := by
  obtain ⟨b', h1, h2, h3⟩ := h b hb
  rw [h1]
  congr 1
  rw [eq_tab_iff]
  exact ⟨h2, fun p hp => (h3 p).1 (hS p hp)⟩

end single

section adds
variable {K : Type*} [AddCommMonoid K]

def Adds (L : ℕ) (body : List K → Option (List K)) (d : ℕ → K) : Prop := Acts1 L body (fun p x => x + d p)

theorem Adds.ad {L i : ℕ} (hi : i < L) (v : K) : Adds L (fun b => ad b i v) (fun p => if p = i then v else 0) :=
  (Acts1.ad hi v).congr (fun p _ x => by by_cases h : p = i <;> simp [h])

theorem Adds.of_eq {L : ℕ} {f g : List K → Option (List K)} {d : ℕ → K} (hg : Adds L g d)
    (h : ∀ b, b.length = L → f b = g b) : Adds L f d := Acts1.of_eq hg h

theorem Adds.congr {L : ℕ} {f : List K → Option (List K)} {d d' : ℕ → K} (h : Adds L f d)
    (hd : ∀ p < L, d p = d' p) : Adds L f d' := Acts1.congr h (fun p hp x => by rw [hd p hp])

theorem Adds.bind {L : ℕ} {f g : List K → Option (List K)} {d e : ℕ → K} (hf : Adds L f d) (hg : Adds L g e) :
    Adds L (fun b => (f b).bind g) (fun p => d p + e p) :=
  (Acts1.bind hf hg).congr (fun p _ x => add_assoc _ _ _)

theorem Adds.pure (L : ℕ) : Adds L (fun b : List K => some b) (fun _ => 0) :=
  (Acts1.pure L).congr (fun p _ x => (add_zero x).symm)

theorem Adds.loop {L n : ℕ} {body : ℕ → List K → Option (List K)} {d : ℕ → ℕ → K} (h : ∀ i < n, Adds L (body i) (d i)) :
    Adds L (loop n body) (fun p => ∑ i ∈ Finset.range n, d i p) :=
  (Acts1.loop h).congr (fun p _ x => iter_add (fun i _ x => rfl) x)

theorem Adds.length {L : ℕ} {f : List K → Option (List K)} {d : ℕ → K} (h : Adds L f d) {b b' : List K} (hb : b.length = L)
    (hf : f b = some b') : b'.length = L := by
  rw [h b hb] at hf
  rw [← Option.some.inj hf]
  simp [hb]

theorem Adds.get {L : ℕ} {f : List K → Option (List K)} {d : ℕ → K} (h : Adds L f d) {b : List K} (hb : b.length = L) :
    ∃ b', f b = some b' ∧ b'.length = L ∧ ∀ p < L, ∀ x, b[p]? = some x → b'[p]? = some (x + d p) := by
  refine ⟨_, h b hb, by simp [hb], fun p _ x hx => ?_⟩
  rw [List.getElem?_mapIdx, hx]; rfl

/-- From a zero buffer the result is the table of the added values. -/
theorem Adds.zero {L : ℕ} {f : List K → Option (List K)} {d : ℕ → K} (h : Adds L f d) :
    f (List.replicate L 0) = some (tab L d) := by
  rw [h _ (by simp)]
  congr 1
  apply replicate_mapIdx_eq_tab
  intro p hp
  exact zero_add _

theorem Adds.tab {L : ℕ} {f : List K → Option (List K)} {d : ℕ → K} (h : Adds L f d) (g : ℕ → K) :
    f (tab L g) = some (tab L (fun p => g p + d p)) := by
  rw [h _ (by simp), tab_mapIdx]

end adds

/-! ## Counters -/

section counters
variable {σ : Type*}

/-- `for (k<n) { body(k, c); c += 1; }` with the counter `c` in the state. -/
def cnt (n : ℕ) (body : ℕ → ℕ → σ → Option σ) (q : ℕ × σ) : Option (ℕ × σ) :=
  loop n (fun k (q : ℕ × σ) => (body k q.1 q.2).map (fun s => (q.1 + 1, s))) q

theorem cnt_eq (n : ℕ) (body : ℕ → ℕ → σ → Option σ) (c : ℕ) (s : σ) :
    cnt n body (c, s) = (loop n (fun k => body k (c + k)) s).map (fun s => (c + n, s)) := by
  unfold cnt
  induction n with
  | zero => simp
  | succ n ih =>
    rw [loop_succ, loop_succ, ih]
    cases loop n (fun k => body k (c + k)) s with
    | none => rfl
    | some s' => simp [add_assoc]

/-- Loop whose counter advances by `d i` in iteration `i`. -/
theorem loop_ctr {n : ℕ} {body : ℕ → ℕ × σ → Option (ℕ × σ)} {B : ℕ → σ → Option σ} {c0 : ℕ} {d : ℕ → ℕ}
    (h : ∀ i < n, ∀ s, body i (c0 + ∑ i' ∈ Finset.range i, d i', s) =
      (B i s).map (fun s => (c0 + ∑ i' ∈ Finset.range (i + 1), d i', s))) (s : σ) :
    loop n body (c0, s) = (loop n B s).map (fun s => (c0 + ∑ i' ∈ Finset.range n, d i', s)) := by
  induction n with
  | zero => simp
  | succ n ih =>
    rw [loop_succ, loop_succ, ih (fun i hi => h i (Nat.lt_succ_of_lt hi))]
    cases loop n B s with
    | none => rfl
    | some s' => exact h n (Nat.lt_succ_self n) s'

end counters

/-! ## Three- and four-dimensional row-major arrays -/

section dec
variable {K : Type*}

/-- Cell `p` of an array with inner extents `M`, `C`. -/
def dec3 (M C : ℕ) (f : ℕ → ℕ → ℕ → K) (p : ℕ) : K := f (p / C / M) (p / C % M) (p % C)

theorem dec3_flat {M C i j k : ℕ} (f : ℕ → ℕ → ℕ → K) (hj : j < M) (hk : k < C) :
    dec3 M C f ((i * M + j) * C + k) = f i j k := by
  unfold dec3
  rw [flat_div hk, flat_mod hk, flat_div hj, flat_mod hj]

/-- The buffer holds `f` at the first `n1 × n2 × n3` cells. -/
def Rd3 (b : List K) (n1 n2 n3 : ℕ) (f : ℕ → ℕ → ℕ → K) : Prop :=
  ∀ i < n1, ∀ j < n2, ∀ k < n3, b[(i * n2 + j) * n3 + k]? = some (f i j k)

def Rd2 (b : List K) (n1 n2 : ℕ) (f : ℕ → ℕ → K) : Prop := ∀ i < n1, ∀ j < n2, b[i * n2 + j]? = some (f i j)

def Rd1 (b : List K) (n : ℕ) (f : ℕ → K) : Prop := ∀ i < n, b[i]? = some (f i)

theorem flat3_lt {n1 n2 n3 i j k : ℕ} (hi : i < n1) (hj : j < n2) (hk : k < n3) : (i * n2 + j) * n3 + k < n1 * n2 * n3 :=
  flat_lt (flat_lt hi hj) hk

theorem flat3_decomp {n1 n2 n3 p : ℕ} (hp : p < n1 * n2 * n3) :
    ∃ i j k, i < n1 ∧ j < n2 ∧ k < n3 ∧ p = (i * n2 + j) * n3 + k := by
  obtain ⟨q, k, hq, hk, rfl⟩ := flat_decomp hp
  obtain ⟨i, j, hi, hj, rfl⟩ := flat_decomp hq
  exact ⟨i, j, k, hi, hj, hk, rfl⟩

theorem flat3_inj {n2 n3 i j k i' j' k' : ℕ} (hj : j < n2) (hk : k < n3) (hj' : j' < n2) (hk' : k' < n3) :
    (i * n2 + j) * n3 + k = (i' * n2 + j') * n3 + k' ↔ i = i' ∧ j = j' ∧ k = k' := by
  rw [flat_inj hk hk', flat_inj hj hj', and_assoc]

theorem Rd3_tab (n1 n2 n3 : ℕ) (f : ℕ → ℕ → ℕ → K) : Rd3 (tab (n1 * n2 * n3) (dec3 n2 n3 f)) n1 n2 n3 f := by
  intro i hi j hj k hk
  rw [getElem?_tab_lt (flat3_lt hi hj hk), dec3_flat f hj hk]

theorem Rd2_tab2 (n1 n2 : ℕ) (f : ℕ → ℕ → K) : Rd2 (tab2 n1 n2 f) n1 n2 f := fun _ hi _ hj => getElem?_tab2 hi hj

theorem Rd3.mono {b : List K} {n1 n1' n2 n3 : ℕ} {f : ℕ → ℕ → ℕ → K} (h : Rd3 b n1 n2 n3 f) (hn : n1' ≤ n1) :
    Rd3 b n1' n2 n3 f := fun i hi => h i (by omega)

theorem Rd3.congr {b : List K} {n1 n2 n3 : ℕ} {f g : ℕ → ℕ → ℕ → K} (h : Rd3 b n1 n2 n3 f)
    (hfg : ∀ i < n1, ∀ j < n2, ∀ k < n3, f i j k = g i j k) : Rd3 b n1 n2 n3 g :=
  fun i hi j hj k hk => by rw [h i hi j hj k hk, hfg i hi j hj k hk]

end dec

end Verif
