import Verif.Model.Kokkos.CommPrec
import Mathlib.Data.Int.Cast.Lemmas
import Mathlib.Data.Rat.Floor

/-!
# C127: messages of the single-precision Kokkos pair style

Features and adjoints of type `float` travel in buffers of type `double`.  They arrive unchanged, and the received adjoints are added once,
in single precision, whatever the order of the threads.
-/

namespace Verif.Props
open Verif.KokkosPrec

namespace KokkosPrec

/-- The order of the threads of a kernel over `n × m × l`: every index triple once. -/
def Order (n m l : ℕ) (ts : List (ℕ × ℕ × ℕ)) : Prop := ts.Nodup ∧ ∀ i a k, (i, a, k) ∈ ts ↔ i < n ∧ a < m ∧ k < l

/-- A `float` converted to `double` and back is the same. -/
def Exact {F D : Type} (P : Prec F D) : Prop := ∀ x, P.down (P.up x) = x

/-- Adding two `float`s in `double` and rounding the sum to `float` gives their sum in `float`. -/
def Innocuous {F D : Type} (P : Prec F D) : Prop := ∀ x y, P.down (P.addD (P.up y) (P.up x)) = P.addF y x

/-! ## Threads with one access each -/

theorem threads_spec {K : Type} (E : List ℕ) (ix : ℕ × ℕ × ℕ → List ℕ) (h : ℕ × ℕ × ℕ → K → K)
    {body : ℕ → ℕ → ℕ → View K → Option (View K)} {ts : List (ℕ × ℕ × ℕ)}
    (hb : ∀ t ∈ ts, ∀ v : View K, v.Ok → v.ext = E →
      ∃ p y, flat E (ix t) 0 = some p ∧ v.get (ix t) = some y ∧ body t.1 t.2.1 t.2.2 v = v.set (ix t) (h t y))
    {v : View K} (hv : v.Ok) (he : v.ext = E) :
    ∃ v', threads ts body v = some v' ∧ v'.Ok ∧ v'.ext = E ∧
      ∀ is, v'.get is = (v.get is).map (fun y => (ts.filter (fun t => ix t = is)).foldl (fun y t => h t y) y) := by
  induction ts generalizing v with
  | nil => exact ⟨v, rfl, hv, he, fun is => by simp⟩
  | cons t ts ih =>
    obtain ⟨p, y, h1, h2, h3⟩ := hb t (by simp) v hv he
    obtain ⟨w, k1, k2, k3, k4, k5⟩ := View.set_spec hv (by rw [he]; exact h1) (h t y)
    obtain ⟨v', m1, m2, m3, m4⟩ := ih (fun t ht => hb t (by simp [ht])) k3 (k2.trans he)
    refine ⟨v', ?_, m2, m3, fun is => ?_⟩
    · unfold threads at m1 ⊢
      rw [List.foldlM_cons, h3, k1]
      exact m1
    · rw [m4]
      by_cases hi : ix t = is
      · subst hi
        rw [k4, h2]
        simp
      · rw [k5 is (fun e => hi e.symm)]
        simp [hi]

theorem filter_one {α : Type} [DecidableEq α] {ts : List α} (hn : ts.Nodup) {t : α} (ht : t ∈ ts) {p : α → Bool} (hp : ∀ s ∈ ts, p s = true ↔ s = t) :
    ts.filter p = [t] := by
  rw [List.filter_congr (q := fun s => s == t) (fun s hs => by
    rw [Bool.eq_iff_iff, hp s hs]; simp)]
  rw [List.filter_beq, List.count_eq_one_of_mem hn ht]
  rfl

theorem filter_none {α : Type} {ts : List α} {p : α → Bool} (hp : ∀ s ∈ ts, p s = false) : ts.filter p = [] := by
  rw [List.filter_eq_nil_iff]
  intro s hs
  simp [hp s hs]

/-! ## Loop nests are threads in lexicographic order -/

theorem loop_foldlM {σ : Type} (n : ℕ) (body : ℕ → σ → Option σ) (s : σ) : loop n body s = (List.range n).foldlM (fun s i => body i s) s := by
  induction n with
  | zero => rfl
  | succ n ih => rw [loop_succ, ih, List.range_succ, List.foldlM_append]; simp only [List.foldlM_cons, List.foldlM_nil, bind_pure]; rfl

theorem foldlM_flatMap {σ α β : Type} (f : σ → β → Option σ) (g : α → List β) (l : List α) (s : σ) :
    (l.flatMap g).foldlM f s = l.foldlM (fun s a => (g a).foldlM f s) s := by
  induction l generalizing s with
  | nil => rfl
  | cons a l ih =>
    rw [List.flatMap_cons, List.foldlM_append, List.foldlM_cons]
    congr 1
    funext s
    exact ih s

/-- The triples in the order of the loop nests. -/
def lex (n m l : ℕ) : List (ℕ × ℕ × ℕ) :=
  (List.range n).flatMap (fun i => (List.range m).flatMap (fun a => (List.range l).map (fun k => (i, a, k))))

theorem nest_eq {σ : Type} (n m l : ℕ) (body : ℕ → ℕ → ℕ → σ → Option σ) (s : σ) :
    loop n (fun i => loop m (fun a => loop l (fun k => body i a k))) s = threads (lex n m l) body s := by
  unfold threads lex
  rw [foldlM_flatMap, loop_foldlM]
  congr 1
  funext s i
  rw [foldlM_flatMap, loop_foldlM]
  congr 1
  funext s a
  rw [loop_foldlM, List.foldlM_map]

theorem lex_order (n m l : ℕ) : Order n m l (lex n m l) := by
  constructor
  · unfold lex
    rw [List.nodup_flatMap]
    refine ⟨fun i _ => ?_, ?_⟩
    · rw [List.nodup_flatMap]
      refine ⟨fun a _ => List.Nodup.map (fun k k' e => by simpa using e) List.nodup_range, ?_⟩
      refine List.Pairwise.imp ?_ List.nodup_range
      intro a b hab
      simp only [Function.onFun, List.disjoint_left, List.mem_map, not_exists, not_and]
      rintro ⟨x, y, z⟩ ⟨k, _, e⟩ k' _ e'
      cases e
      exact hab (by simpa using (congrArg (fun t => t.2.1) e').symm)
    · refine List.Pairwise.imp ?_ List.nodup_range
      intro i j hij
      simp only [Function.onFun, List.disjoint_left, List.mem_flatMap, List.mem_map, not_exists, not_and]
      rintro ⟨x, y, z⟩ ⟨a, _, k, _, e⟩ a' _ k' _ e'
      cases e
      exact hij (by simpa using (congrArg (fun t => t.1) e').symm)
  · intro i a k
    simp only [lex, List.mem_flatMap, List.mem_map, List.mem_range, Prod.mk.injEq]
    constructor
    · rintro ⟨_, h1, _, h2, _, h3, rfl, rfl, rfl⟩
      exact ⟨h1, h2, h3⟩
    · rintro ⟨h1, h2, h3⟩
      exact ⟨i, h1, a, h2, k, h3, rfl, rfl, rfl⟩

/-! ## Positions in the buffer -/

variable {F D : Type} {P : Prec F D} {LM C n m M M' first : ℕ} {list : List ℕ} {ts : List (ℕ × ℕ × ℕ)}

theorem pos_lt {i a k : ℕ} (hi : i < n) (ha : a < LM) (hk : k < C) : i * LM * C + a * C + k < n * LM * C := by
  have h1 : (i * LM + a + 1) * C ≤ n * LM * C := Nat.mul_le_mul_right _ (by
    have := Nat.mul_le_mul_right LM (show i + 1 ≤ n by omega)
    rw [Nat.add_mul] at this
    omega)
  rw [Nat.add_mul, Nat.add_mul] at h1
  omega

theorem pos_inj {i a k i' a' k' : ℕ} (ha : a < LM) (hk : k < C) (ha' : a' < LM) (hk' : k' < C)
    (e : i * LM * C + a * C + k = i' * LM * C + a' * C + k') : i = i' ∧ a = a' ∧ k = k' := by
  have hC : 0 < C := by omega
  have hL : 0 < LM := by omega
  rw [← Nat.add_mul, ← Nat.add_mul] at e
  have e1 : i * LM + a = i' * LM + a' := by
    have := congrArg (· / C) e
    simpa [Nat.mul_comm _ C, Nat.mul_add_div hC, Nat.div_eq_of_lt hk, Nat.div_eq_of_lt hk'] using this
  have e2 : k = k' := by rw [e1] at e; omega
  have e3 : i = i' := by
    have := congrArg (· / LM) e1
    simpa [Nat.mul_comm _ LM, Nat.mul_add_div hL, Nat.div_eq_of_lt ha, Nat.div_eq_of_lt ha'] using this
  exact ⟨e3, by rw [e3] at e1; omega, e2⟩

/-- Packing: the buffer contains the converted source values. -/
theorem pack_spec (ho : Order n LM C ts) {src : ℕ → ℕ → ℕ → Option F} (hs : ∀ i < n, ∀ a < LM, ∀ k < C, ∃ x, src i a k = some x)
    {buf : View D} (hb : buf.Ok) (heb : buf.ext = [m]) (hm : n * LM * C ≤ m) :
    ∃ b, threads ts (fun i a k (b : View D) => (src i a k).bind (fun x => b.set [i * LM * C + a * C + k] (P.up x))) buf = some b ∧ b.Ok ∧
      b.ext = [m] ∧ (∀ i < n, ∀ a < LM, ∀ k < C, b.get [i * LM * C + a * C + k] = (src i a k).map P.up) := by
  obtain ⟨b, h1, h2, h3, h4⟩ := threads_spec (ts := ts) [m] (fun t => [t.1 * LM * C + t.2.1 * C + t.2.2])
    (fun t y => ((src t.1 t.2.1 t.2.2).map P.up).getD y)
    (body := fun i a k (b : View D) => (src i a k).bind (fun x => b.set [i * LM * C + a * C + k] (P.up x))) (by
      rintro ⟨i, a, k⟩ ht v hv he
      obtain ⟨hi, ha, hk⟩ := (ho.2 i a k).mp ht
      obtain ⟨x, hx⟩ := hs i hi a ha k hk
      have hp : flat [m] [i * LM * C + a * C + k] 0 = some (i * LM * C + a * C + k) := flat_one (lt_of_lt_of_le (pos_lt hi ha hk) hm)
      obtain ⟨y, hy⟩ := View.exists_get hv (by rw [he]; exact hp)
      exact ⟨_, y, hp, hy, by simp [hx]⟩) hb heb
  refine ⟨b, h1, h2, h3, fun i hi a ha k hk => ?_⟩
  obtain ⟨x, hx⟩ := hs i hi a ha k hk
  obtain ⟨y, hy⟩ := View.exists_get hb (is := [i * LM * C + a * C + k]) (by rw [heb]; exact flat_one (lt_of_lt_of_le (pos_lt hi ha hk) hm))
  rw [h4, hy, filter_one ho.1 ((ho.2 i a k).mpr ⟨hi, ha, hk⟩)]
  · simp [hx]
  · rintro ⟨i', a', k'⟩ ht
    obtain ⟨_, ha', hk'⟩ := (ho.2 i' a' k').mp ht
    simp only [List.cons.injEq, and_true, decide_eq_true_eq, Prod.mk.injEq]
    constructor
    · exact fun e => pos_inj ha' hk' ha hk e
    · rintro ⟨rfl, rfl, rfl⟩; rfl

/-- Unpacking to the rows `r i`, all different: each of their entries is updated once, by `g`. -/
theorem unpack_spec (ho : Order n LM C ts) {r : ℕ → Option ℕ} (hr : ∀ i < n, ∃ j, r i = some j ∧ j < M)
    (hinj : ∀ i < n, ∀ j < n, r i = r j → i = j) {rb : View D} {g : F → D → F} {G : View F} (hG : G.Ok) (heG : G.ext = [M, LM, C])
    (hrb : ∀ i < n, ∀ a < LM, ∀ k < C, ∃ x, rb.get [i * LM * C + a * C + k] = some x)
    {body : ℕ → ℕ → ℕ → View F → Option (View F)}
    (hbody : ∀ i a k j x y (h : View F), r i = some j → rb.get [i * LM * C + a * C + k] = some x → h.get [j, a, k] = some y →
      body i a k h = h.set [j, a, k] (g y x)) :
    ∃ G', threads ts body G = some G' ∧ G'.Ok ∧ G'.ext = [M, LM, C] ∧
      (∀ i < n, ∀ a < LM, ∀ k < C, ∀ j x y, r i = some j → rb.get [i * LM * C + a * C + k] = some x → G.get [j, a, k] = some y →
        G'.get [j, a, k] = some (g y x)) ∧
      ∀ j a k, (∀ i < n, r i ≠ some j) → G'.get [j, a, k] = G.get [j, a, k] := by
  obtain ⟨G', h1, h2, h3, h4⟩ := threads_spec (ts := ts) [M, LM, C] (fun t => [(r t.1).getD 0, t.2.1, t.2.2])
    (fun t y => ((rb.get [t.1 * LM * C + t.2.1 * C + t.2.2]).map (g y)).getD y) (body := body) (by
      rintro ⟨i, a, k⟩ ht v hv he
      obtain ⟨hi, ha, hk⟩ := (ho.2 i a k).mp ht
      obtain ⟨j, hj, hjM⟩ := hr i hi
      obtain ⟨x, hx⟩ := hrb i hi a ha k hk
      have hp : flat [M, LM, C] [j, a, k] 0 = some _ := flat_three hjM ha hk
      obtain ⟨y, hy⟩ := View.exists_get hv (by rw [he]; exact hp)
      refine ⟨_, y, by simpa [hj] using hp, by simpa [hj] using hy, ?_⟩
      simp only [hj, Option.getD_some, hx, Option.map_some]
      exact hbody i a k j x y v hj hx hy) hG heG
  refine ⟨G', h1, h2, h3, fun i hi a ha k hk j x y hj hx hy => ?_, fun j a k hne => ?_⟩
  · rw [h4, hy, filter_one ho.1 ((ho.2 i a k).mpr ⟨hi, ha, hk⟩)]
    · simp [hx]
    · rintro ⟨i', a', k'⟩ ht
      obtain ⟨hi', ha', hk'⟩ := (ho.2 i' a' k').mp ht
      obtain ⟨j', hj', _⟩ := hr i' hi'
      simp only [hj', Option.getD_some, List.cons.injEq, and_true, decide_eq_true_eq, Prod.mk.injEq]
      constructor
      · rintro ⟨rfl, rfl, rfl⟩
        exact ⟨hinj _ hi' _ hi (by rw [hj', hj]), rfl, rfl⟩
      · rintro ⟨rfl, rfl, rfl⟩
        rw [hj'] at hj
        exact ⟨Option.some.inj hj, rfl, rfl⟩
  · rw [h4, filter_none]
    · simp
    · rintro ⟨i', a', k'⟩ ht
      obtain ⟨hi', _, _⟩ := (ho.2 i' a' k').mp ht
      obtain ⟨j', hj', _⟩ := hr i' hi'
      simp only [hj', Option.getD_some, decide_eq_false_iff_not, List.cons.injEq, not_and]
      rintro rfl
      exact absurd hj' (hne i' hi')

theorem view_eq {v w : View F} (hv : v.Ok) (hw : w.Ok) (he : v.ext = [M, LM, C]) (he' : w.ext = [M, LM, C])
    (h : ∀ j < M, ∀ a < LM, ∀ k < C, v.get [j, a, k] = w.get [j, a, k]) : v = w := by
  refine View.ext_of_get (he.trans he'.symm) hv hw (fun is p hp => ?_)
  rw [he] at hp
  match is, hp with
  | [j, a, k], hp =>
    obtain ⟨h1, h2, h3, _⟩ := flat_three_some hp
    exact h j h1 a h2 k h3
  | [], hp => simp [flat] at hp
  | [_], hp => simp only [flat] at hp; split_ifs at hp
  | [_, _], hp => simp only [flat] at hp; split_ifs at hp
  | _ :: _ :: _ :: _ :: _, hp => simp only [flat] at hp; split_ifs at hp

end KokkosPrec

open KokkosPrec

section
variable {F D : Type} {P : Prec F D} {LM C n m M M' first : ℕ} {list : List ℕ} {ts ts' : List (ℕ × ℕ × ℕ)}

/-- C127, forward: the ghost rows of the receiver are the listed rows of the sender, without any rounding, and nothing else changes;
no access is out of bounds.  `ts` and `ts'` are the orders in which the threads of the two kernels run. -/
theorem C127_forward (hP : Exact P) (ho : Order n LM C ts) (ho' : Order n LM C ts') {H1 : View F} {buf : View D} (hH : H1.Ok)
    (heH : H1.ext = [M, LM, C]) (hb : buf.Ok) (heb : buf.ext = [m]) (hm : n * LM * C ≤ m) (hn : n ≤ list.length) (hl : ∀ i ∈ list, i < M) :
    ∃ b, packForward P ts LM C n list H1 buf = some (n * LM * C, b) ∧ b.Ok ∧ b.ext = [m] ∧
      ∀ (rb : View D) (G : View F), (∀ p < n * LM * C, rb.get [p] = b.get [p]) → G.Ok → G.ext = [M', LM, C] → first + n ≤ M' →
        ∃ G', unpackForward P ts' LM C first rb G = some G' ∧ G'.Ok ∧ G'.ext = [M', LM, C] ∧
          (∀ (ii : ℕ) (h : ii < n), ∀ a < LM, ∀ k < C, G'.get [first + ii, a, k] = H1.get [list[ii], a, k]) ∧
          ∀ i a k, (i < first ∨ first + n ≤ i) → G'.get [i, a, k] = G.get [i, a, k] := by
  have hsrc : ∀ (i : ℕ) (h : i < n), ∀ a < LM, ∀ k < C, ∃ x, H1.get [list[i], a, k] = some x := fun i hi a ha k hk =>
    View.exists_get hH (by rw [heH]; exact flat_three (hl _ (List.getElem_mem _)) ha hk)
  obtain ⟨b, h1, h2, h3, h4⟩ := pack_spec (P := P) ho (src := fun i a k => (list[i]?).bind (fun j => H1.get [j, a, k]))
    (fun i hi a ha k hk => by
      obtain ⟨x, hx⟩ := hsrc i hi a ha k hk
      exact ⟨x, by rw [List.getElem?_eq_getElem (by omega), Option.bind_some, hx]⟩) hb heb hm
  refine ⟨b, ?_, h2, h3, fun rb G hrb hG heG hf => ?_⟩
  · unfold packForward
    simp only [Option.bind_assoc] at h1
    simp only [Option.bind_eq_bind, h1, Option.bind_some, Option.pure_def]
  · have hval : ∀ (i : ℕ) (h : i < n), ∀ a < LM, ∀ k < C, ∀ x, H1.get [list[i], a, k] = some x →
        rb.get [i * LM * C + a * C + k] = some (P.up x) := fun i hi a ha k hk x hx => by
      rw [hrb _ (pos_lt hi ha hk), h4 i hi a ha k hk, List.getElem?_eq_getElem (by omega), Option.bind_some, hx, Option.map_some]
    obtain ⟨G', k1, k2, k3, k4, k5⟩ := unpack_spec ho' (r := fun i => some (first + i)) (g := fun _ x => P.down x) (rb := rb)
      (fun i hi => ⟨_, rfl, by omega⟩) (fun i _ j _ e => by simpa using e) hG heG
      (fun i hi a ha k hk => by
        obtain ⟨x, hx⟩ := hsrc i hi a ha k hk
        exact ⟨_, hval i hi a ha k hk x hx⟩)
      (body := fun i a k h => (rb.get [i * LM * C + a * C + k]).bind (fun x => h.set [first + i, a, k] (P.down x)))
      (fun i a k j x y h hj hx hy => by rw [hx, Option.bind_some, Option.some.inj hj])
    refine ⟨G', k1, k2, k3, fun ii hi a ha k hk => ?_, fun i a k hi => k5 i a k (fun j hj e => by
      have := Option.some.inj e; omega)⟩
    obtain ⟨x, hx⟩ := hsrc ii hi a ha k hk
    obtain ⟨y, hy⟩ := View.exists_get hG (is := [first + ii, a, k]) (by rw [heG]; exact flat_three (by omega) ha hk)
    rw [k4 ii hi a ha k hk _ _ y rfl (hval ii hi a ha k hk x hx) hy, hP, hx]

/-- C127, reverse: if no atom is listed twice, every listed entry of the receiver becomes its sum, in `Precision`, with the entry of the ghost
row of the sender, and nothing else changes; no access is out of bounds. -/
theorem C127_reverse (hP : Exact P) (ho : Order n LM C ts) (ho' : Order n LM C ts') {Ha : View F} {buf : View D} (hH : Ha.Ok)
    (heH : Ha.ext = [M, LM, C]) (hb : buf.Ok) (heb : buf.ext = [m]) (hm : n * LM * C ≤ m) (hf : first + n ≤ M) :
    ∃ b, packReverse P ts LM C n first Ha buf = some (n * LM * C, b) ∧ b.Ok ∧ b.ext = [m] ∧
      ∀ (rb : View D) (G : View F), (∀ p < n * LM * C, rb.get [p] = b.get [p]) → G.Ok → G.ext = [M', LM, C] → ∀ hn : list.length = n,
        (∀ i ∈ list, i < M') → list.Nodup →
        ∃ G', unpackReverse P ts' LM C list rb G = some G' ∧ G'.Ok ∧ G'.ext = [M', LM, C] ∧
          (∀ (ii : ℕ) (h : ii < n), ∀ a < LM, ∀ k < C, ∃ y x, G.get [list[ii], a, k] = some y ∧ Ha.get [first + ii, a, k] = some x ∧
            G'.get [list[ii], a, k] = some (P.addF y x)) ∧
          ∀ i a k, i ∉ list → G'.get [i, a, k] = G.get [i, a, k] := by
  have hsrc : ∀ i < n, ∀ a < LM, ∀ k < C, ∃ x, Ha.get [first + i, a, k] = some x := fun i hi a ha k hk =>
    View.exists_get hH (by rw [heH]; exact flat_three (by omega) ha hk)
  obtain ⟨b, h1, h2, h3, h4⟩ := pack_spec (P := P) ho (src := fun i a k => Ha.get [first + i, a, k]) hsrc hb heb hm
  refine ⟨b, ?_, h2, h3, fun rb G hrb hG heG hn hl hnd => ?_⟩
  · unfold packReverse
    simp only [Option.bind_eq_bind, h1, Option.bind_some, Option.pure_def]
  · have hval : ∀ i < n, ∀ a < LM, ∀ k < C, ∀ x, Ha.get [first + i, a, k] = some x →
        rb.get [i * LM * C + a * C + k] = some (P.up x) := fun i hi a ha k hk x hx => by
      rw [hrb _ (pos_lt hi ha hk), h4 i hi a ha k hk, hx, Option.map_some]
    obtain ⟨G', k1, k2, k3, k4, k5⟩ := unpack_spec ho' (r := fun i => list[i]?) (g := fun y x => P.addF y (P.down x)) (rb := rb)
      (fun i hi => ⟨list[i], List.getElem?_eq_getElem (by omega), hl _ (List.getElem_mem _)⟩)
      (fun i hi j hj e => (List.getElem?_inj (by omega) hnd).mp e) hG heG
      (fun i hi a ha k hk => by
        obtain ⟨x, hx⟩ := hsrc i hi a ha k hk
        exact ⟨_, hval i hi a ha k hk x hx⟩)
      (body := fun ii a k h => (list[ii]?).bind (fun i => (rb.get [ii * LM * C + a * C + k]).bind (fun x => (h.get [i, a, k]).bind (fun y =>
        h.set [i, a, k] (P.addF y (P.down x))))))
      (fun i a k j x y h hj hx hy => by rw [hj, Option.bind_some, hx, Option.bind_some, hy, Option.bind_some])
    refine ⟨G', k1, k2, k3, fun ii hi a ha k hk => ?_, fun i a k hi => k5 i a k (fun j hj e => hi (List.mem_of_getElem? e))⟩
    obtain ⟨x, hx⟩ := hsrc ii hi a ha k hk
    obtain ⟨y, hy⟩ := View.exists_get hG (is := [list[ii], a, k]) (by rw [heG]; exact flat_three (hl _ (List.getElem_mem _)) ha hk)
    refine ⟨y, x, hy, hx, ?_⟩
    rw [k4 ii hi a ha k hk _ _ y (List.getElem?_eq_getElem (by omega)) (hval ii hi a ha k hk x hx) hy, hP]

/-- C127, packing for the reverse communication: the message is what `C127_reverse_repeated` and `C127_host_reverse` start from. -/
theorem C127_pack (ho : Order n LM C ts) {Ha : View F} {buf : View D} (hH : Ha.Ok) (heH : Ha.ext = [M, LM, C]) (hb : buf.Ok)
    (heb : buf.ext = [m]) (hm : n * LM * C ≤ m) (hf : first + n ≤ M) :
    ∃ b, packReverse P ts LM C n first Ha buf = some (n * LM * C, b) ∧ b.Ok ∧ b.ext = [m] ∧
      ∀ i < n, ∀ a < LM, ∀ k < C, i * LM * C + a * C + k < n * LM * C ∧
        ∃ x, Ha.get [first + i, a, k] = some x ∧ b.get [i * LM * C + a * C + k] = some (P.up x) := by
  have hsrc : ∀ i < n, ∀ a < LM, ∀ k < C, ∃ x, Ha.get [first + i, a, k] = some x := fun i hi a ha k hk =>
    View.exists_get hH (by rw [heH]; exact flat_three (by omega) ha hk)
  obtain ⟨b, h1, h2, h3, h4⟩ := pack_spec (P := P) ho (src := fun i a k => Ha.get [first + i, a, k]) hsrc hb heb hm
  refine ⟨b, ?_, h2, h3, fun i hi a ha k hk => ⟨pos_lt hi ha hk, ?_⟩⟩
  · unfold packReverse
    simp only [Option.bind_eq_bind, h1, Option.bind_some, Option.pure_def]
  · obtain ⟨x, hx⟩ := hsrc i hi a ha k hk
    exact ⟨x, hx, by rw [h4 i hi a ha k hk, hx, Option.map_some]⟩

/-- C127, reverse, also if atoms are listed repeatedly: every entry of the receiver is its old value plus, one after the other in `Precision`,
the sent adjoints of all ghosts of its atom, each once; only their order depends on that of the threads. -/
theorem C127_reverse_repeated (hP : Exact P) (ho : Order n LM C ts) {rb : View D} {G : View F} {X : ℕ → ℕ → ℕ → F}
    (hrb : ∀ i < n, ∀ a < LM, ∀ k < C, rb.get [i * LM * C + a * C + k] = some (P.up (X i a k))) (hG : G.Ok) (heG : G.ext = [M', LM, C])
    (hn : list.length = n) (hl : ∀ i ∈ list, i < M') :
    ∃ G', unpackReverse P ts LM C list rb G = some G' ∧ G'.Ok ∧ G'.ext = [M', LM, C] ∧
      ∀ j < M', ∀ a < LM, ∀ k < C, ∃ σ : List ℕ, σ.Perm ((List.range n).filter (fun ii => list[ii]? = some j)) ∧
        ∃ y, G.get [j, a, k] = some y ∧ G'.get [j, a, k] = some (σ.foldl (fun y ii => P.addF y (X ii a k)) y) := by
  obtain ⟨G', h1, h2, h3, h4⟩ := threads_spec (ts := ts) [M', LM, C] (fun t => [(list[t.1]?).getD 0, t.2.1, t.2.2])
    (fun t y => P.addF y (X t.1 t.2.1 t.2.2))
    (body := fun ii a k h => (list[ii]?).bind (fun i => (rb.get [ii * LM * C + a * C + k]).bind (fun x => (h.get [i, a, k]).bind (fun y =>
      h.set [i, a, k] (P.addF y (P.down x)))))) (by
      rintro ⟨i, a, k⟩ ht v hv he
      obtain ⟨hi, ha, hk⟩ := (ho.2 i a k).mp ht
      have hj : list[i]? = some list[i] := List.getElem?_eq_getElem (by omega)
      have hp : flat [M', LM, C] [list[i], a, k] 0 = some _ := flat_three (hl _ (List.getElem_mem _)) ha hk
      obtain ⟨y, hy⟩ := View.exists_get hv (by rw [he]; exact hp)
      refine ⟨_, y, by simpa only [hj, Option.getD_some] using hp, by simpa only [hj, Option.getD_some] using hy, ?_⟩
      simp only [hj, Option.getD_some, Option.bind_some, hrb i hi a ha k hk, hy, hP _]) hG heG
  refine ⟨G', h1, h2, h3, fun j hj a ha k hk => ?_⟩
  obtain ⟨y, hy⟩ := View.exists_get hG (is := [j, a, k]) (by rw [heG]; exact flat_three hj ha hk)
  have hmem : ∀ t, t ∈ ts.filter (fun t => [(list[t.1]?).getD 0, t.2.1, t.2.2] = [j, a, k]) ↔
      t.1 < n ∧ list[t.1]? = some j ∧ t.2 = (a, k) := by
    rintro ⟨i, a', k'⟩
    simp only [List.mem_filter, ho.2, List.cons.injEq, and_true, decide_eq_true_eq, Prod.mk.injEq]
    constructor
    · rintro ⟨⟨hi, _, _⟩, e, rfl, rfl⟩
      rw [List.getElem?_eq_getElem (by omega), Option.getD_some] at e
      exact ⟨hi, by rw [List.getElem?_eq_getElem (by omega), e], rfl, rfl⟩
    · rintro ⟨hi, e, rfl, rfl⟩
      exact ⟨⟨hi, ha, hk⟩, by rw [e]; rfl, rfl, rfl⟩
  refine ⟨(ts.filter (fun t => [(list[t.1]?).getD 0, t.2.1, t.2.2] = [j, a, k])).map Prod.fst, ?_, y, hy, ?_⟩
  · refine (List.perm_ext_iff_of_nodup ?_ (List.nodup_range.filter _)).mpr (fun ii => ?_)
    · refine List.Nodup.map_on (fun s hs t ht e => ?_) (ho.1.filter _)
      exact Prod.ext e (((hmem s).mp hs).2.2.trans ((hmem t).mp ht).2.2.symm)
    · simp only [List.mem_map, hmem, List.mem_filter, List.mem_range, decide_eq_true_eq]
      constructor
      · rintro ⟨t, ⟨h1, h2, _⟩, rfl⟩
        exact ⟨h1, h2⟩
      · rintro ⟨h1, h2⟩
        exact ⟨(ii, a, k), ⟨h1, h2, rfl⟩, rfl⟩
  · rw [h4, hy, Option.map_some, List.foldl_map]
    congr 1
    refine List.foldl_ext _ _ _ (fun y t ht => ?_)
    obtain ⟨_, _, e⟩ := (hmem t).mp ht
    rw [e]

/-- C127, host variants with memory shared with the device: they send and receive features exactly as the kernels do in any order. -/
theorem C127_host_forward (P : Prec F D) (LM C n first : ℕ) (list : List ℕ) (H1 : View F) (buf : View D) :
    ∃ ts, Order n LM C ts ∧ packForwardHost P LM C n list H1 buf = packForward P ts LM C n list H1 buf ∧
      packReverseHost P LM C n first H1 buf = packReverse P ts LM C n first H1 buf ∧
      unpackForwardHost P LM C n first buf H1 = unpackForward P ts LM C first buf H1 := by
  refine ⟨lex n LM C, lex_order n LM C, ?_, ?_, ?_⟩
  · unfold packForwardHost packForward
    rw [nest_eq]
  · unfold packReverseHost packReverse
    rw [nest_eq]
  · unfold unpackForwardHost unpackForward
    rw [nest_eq]

/-- C127, host variant of `unpack_reverse`: the sum is formed in `double` and rounded; it is the same as that of the kernel if rounding twice
is innocuous. -/
theorem C127_host_reverse (hP : Exact P) (ho : Order n LM C ts) {rb : View D} {G : View F} {X : ℕ → ℕ → ℕ → F}
    (hrb : ∀ i < n, ∀ a < LM, ∀ k < C, rb.get [i * LM * C + a * C + k] = some (P.up (X i a k))) (hG : G.Ok) (heG : G.ext = [M', LM, C])
    (hn : list.length = n) (hl : ∀ i ∈ list, i < M') (hnd : list.Nodup) :
    ∃ G', unpackReverseHost P LM C n list rb G = some G' ∧ G'.Ok ∧ G'.ext = [M', LM, C] ∧
      (∀ (ii : ℕ) (h : ii < n), ∀ a < LM, ∀ k < C, ∃ y, G.get [list[ii], a, k] = some y ∧
        G'.get [list[ii], a, k] = some (P.down (P.addD (P.up y) (P.up (X ii a k))))) ∧
      (∀ i a k, i ∉ list → G'.get [i, a, k] = G.get [i, a, k]) ∧
      (Innocuous P → unpackReverse P ts LM C list rb G = some G') := by
  have hr : ∀ i < n, ∃ j, list[i]? = some j ∧ j < M' := fun i hi =>
    ⟨list[i], List.getElem?_eq_getElem (by omega), hl _ (List.getElem_mem _)⟩
  have hinj : ∀ i < n, ∀ j < n, list[i]? = list[j]? → i = j := fun i hi j hj e => (List.getElem?_inj (by omega) hnd).mp e
  have hrb' : ∀ i < n, ∀ a < LM, ∀ k < C, ∃ x, rb.get [i * LM * C + a * C + k] = some x := fun i hi a ha k hk => ⟨_, hrb i hi a ha k hk⟩
  have hy : ∀ (ii : ℕ) (h : ii < n), ∀ a < LM, ∀ k < C, ∃ y, G.get [list[ii], a, k] = some y := fun ii hi a ha k hk =>
    View.exists_get hG (by rw [heG]; exact flat_three (hl _ (List.getElem_mem _)) ha hk)
  obtain ⟨G', k1, k2, k3, k4, k5⟩ := unpack_spec (lex_order n LM C) (r := fun i => list[i]?)
    (g := fun y x => P.down (P.addD (P.up y) x)) (rb := rb) hr hinj hG heG hrb'
    (body := fun ii a k h => (list[ii]?).bind (fun i => (rb.get [ii * LM * C + a * C + k]).bind (fun x => (h.get [i, a, k]).bind (fun y =>
      h.set [i, a, k] (P.down (P.addD (P.up y) x))))))
    (fun i a k j x y h hj hx hy => by rw [hj, Option.bind_some, hx, Option.bind_some, hy, Option.bind_some])
  refine ⟨G', ?_, k2, k3, fun ii hi a ha k hk => ?_, fun i a k hi => k5 i a k (fun j hj e => hi (List.mem_of_getElem? e)), fun hI => ?_⟩
  · unfold unpackReverseHost
    rw [nest_eq]
    exact k1
  · obtain ⟨y, hy⟩ := hy ii hi a ha k hk
    exact ⟨y, hy, k4 ii hi a ha k hk _ _ y (List.getElem?_eq_getElem (by omega)) (hrb ii hi a ha k hk) hy⟩
  · obtain ⟨G'', m1, m2, m3, m4, m5⟩ := unpack_spec ho (r := fun i => list[i]?) (g := fun y x => P.addF y (P.down x)) (rb := rb)
      hr hinj hG heG hrb'
      (body := fun ii a k h => (list[ii]?).bind (fun i => (rb.get [ii * LM * C + a * C + k]).bind (fun x => (h.get [i, a, k]).bind (fun y =>
        h.set [i, a, k] (P.addF y (P.down x))))))
      (fun i a k j x y h hj hx hy => by rw [hj, Option.bind_some, hx, Option.bind_some, hy, Option.bind_some])
    have : G'' = G' := by
      refine view_eq m2 k2 m3 k3 (fun j _ a ha k hk => ?_)
      by_cases hj : j ∈ list
      · obtain ⟨ii, hii, rfl⟩ := List.getElem_of_mem hj
        obtain ⟨y, hy⟩ := hy ii (by omega) a ha k hk
        rw [m4 ii (by omega) a ha k hk _ _ y (List.getElem?_eq_getElem (by omega)) (hrb ii (by omega) a ha k hk) hy,
          k4 ii (by omega) a ha k hk _ _ y (List.getElem?_eq_getElem (by omega)) (hrb ii (by omega) a ha k hk) hy, hP, hI]
      · rw [m5 j a k (fun i hi e => hj (List.mem_of_getElem? e)), k5 j a k (fun i hi e => hj (List.mem_of_getElem? e))]
    rw [← this]
    exact m1

end

/-! ## Non-trivial cases -/

/-- Conversion there and back is exact only for the numbers of the narrow type. -/
def halves : Prec ℤ ℚ := ⟨fun x => x, fun d => ⌊d⌋, fun x y => x + y, fun x y => x + y⟩

example : Exact halves ∧ Innocuous halves ∧ ¬ Function.Injective halves.down := by
  refine ⟨fun x => Int.floor_intCast x, fun x y => ?_, fun h => ?_⟩
  · show ⌊(y : ℚ) + (x : ℚ)⌋ = y + x
    rw [← Int.cast_add, Int.floor_intCast]
  · have : (0 : ℚ) = 1 / 2 := h (by show ⌊(0 : ℚ)⌋ = ⌊(1 / 2 : ℚ)⌋; norm_num)
    norm_num at this

example : Order 2 1 2 [(1, 0, 1), (0, 0, 0), (1, 0, 0), (0, 0, 1)] := by
  refine ⟨by decide, fun i a k => ?_⟩
  simp only [List.mem_cons, Prod.mk.injEq, List.not_mem_nil, or_false]
  omega

/-- A message of two rows, the threads of both kernels out of order. -/
example : (packForward halves [(1, 0, 1), (0, 0, 0), (1, 0, 0), (0, 0, 1)] 1 2 2 [2, 0] ⟨[3, 1, 2], [10, 11, 12, 13, 14, 15]⟩
      ⟨[5], [0, 0, 0, 0, 7]⟩).map (fun r => (r.1, r.2.data)) = some (4, [14, 15, 10, 11, 7]) ∧
    (unpackForward halves [(0, 0, 1), (1, 0, 1), (0, 0, 0), (1, 0, 0)] 1 2 1 ⟨[5], [14, 15, 10, 11, 7]⟩
      ⟨[3, 1, 2], [1, 2, 3, 4, 5, 6]⟩).map (fun v => v.data) = some [1, 2, 14, 15, 10, 11] ∧
    (unpackReverse halves [(0, 0, 1), (1, 0, 1), (0, 0, 0), (1, 0, 0)] 1 2 [2, 0] ⟨[4], [1, 2, 3, 4]⟩
      ⟨[3, 1, 2], [10, 20, 30, 40, 50, 60]⟩).map (fun v => v.data) = some [13, 24, 30, 40, 51, 62] := by decide +kernel

/-- A send list with a repeated atom. -/
example : (unpackReverse halves [(1, 0, 0), (0, 0, 0)] 1 1 [0, 0] ⟨[2], [3, 4]⟩ ⟨[1, 1, 1], [10]⟩).map (fun v => v.data) = some [17] := by
  decide +kernel

end Verif.Props
