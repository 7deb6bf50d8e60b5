import Verif.Base.Local
import Verif.Model.Kokkos.Eval
import Verif.Lemmas.MACE.Forces
import Mathlib.Tactic.IntervalCases

/-! # Views that grow, launches on them, edge numbering -/

namespace Verif.Kokkos
open Verif.Par Verif.Par.Prog

section views
variable {K : Type}

/-- The first rows of a view contain `F`. -/
def G1 (v : View K) (n : ℕ) (F : ℕ → K) : Prop := ∀ i < n, v.get [i] = some (F i)

def G2 (v : View K) (n m : ℕ) (F : ℕ → ℕ → K) : Prop := ∀ i < n, ∀ j < m, v.get [i, j] = some (F i j)

def G3 (v : View K) (n m l : ℕ) (F : ℕ → ℕ → ℕ → K) : Prop := ∀ i < n, ∀ j < m, ∀ k < l, v.get [i, j, k] = some (F i j k)

theorem G1.congr {v : View K} {n : ℕ} {F F' : ℕ → K} (h : G1 v n F) (hF : ∀ i < n, F' i = F i) : G1 v n F' :=
  fun i hi => by rw [hF i hi]; exact h i hi

theorem G2.congr {v : View K} {n m : ℕ} {F F' : ℕ → ℕ → K} (h : G2 v n m F) (hF : ∀ i < n, ∀ j < m, F' i j = F i j) : G2 v n m F' :=
  fun i hi j hj => by rw [hF i hi j hj]; exact h i hi j hj

theorem G3.congr {v : View K} {n m l : ℕ} {F F' : ℕ → ℕ → ℕ → K} (h : G3 v n m l F)
    (hF : ∀ i < n, ∀ j < m, ∀ k < l, F' i j k = F i j k) : G3 v n m l F' :=
  fun i hi j hj k hk => by rw [hF i hi j hj k hk]; exact h i hi j hj k hk

/-- At least `n` rows with extents `ns`; a view without rows may have any other extents. -/
def Room (v : View K) (ns : List ℕ) (n : ℕ) : Prop := v.Ok ∧ ∃ x ms, v.ext = x :: ms ∧ n ≤ x ∧ (x = 0 ∨ ms = ns)

variable {v w : View K} {ns : List ℕ} {n m l : ℕ}

theorem Room.mono (h : Room v ns n) (hm : m ≤ n) : Room v ns m := by
  obtain ⟨h1, x, ms, h2, h3, h4⟩ := h
  exact ⟨h1, x, ms, h2, hm.trans h3, h4⟩

theorem Room.of_ext (h : Room v ns n) (he : w.ext = v.ext) (hw : w.Ok) : Room w ns n := by
  obtain ⟨_, h2⟩ := h
  exact ⟨hw, he ▸ h2⟩

theorem Room.ext (h : Room v ns n) (hn : 0 < n) : ∃ x, v.ext = x :: ns ∧ n ≤ x := by
  obtain ⟨_, x, ms, h2, h3, h4 | h4⟩ := h
  · omega
  · exact ⟨x, h4 ▸ h2, h3⟩

theorem Room.has (h : Room v ns n) {i : ℕ} {is : List ℕ} (hi : i < n) (his : ∃ p, flat ns is i = some p) :
    ∃ p, flat v.ext (i :: is) 0 = some p := by
  obtain ⟨x, hx, hle⟩ := h.ext (by omega)
  obtain ⟨p, hp⟩ := his
  refine ⟨p, ?_⟩
  rw [hx]
  simp only [flat]
  rw [if_pos (by omega), zero_mul, zero_add, hp]

theorem Room.has1 (h : Room v [] n) {i : ℕ} (hi : i < n) : ∃ x, v.get [i] = some x := by
  obtain ⟨p, hp⟩ := h.has (is := []) hi ⟨i, rfl⟩
  exact View.exists_get h.1 hp

theorem Room.has2 (h : Room v [m] n) {i j : ℕ} (hi : i < n) (hj : j < m) : ∃ x, v.get [i, j] = some x := by
  obtain ⟨p, hp⟩ := h.has (is := [j]) hi ⟨_, by simp only [flat]; rw [if_pos hj]⟩
  exact View.exists_get h.1 hp

theorem Room.has3 (h : Room v [m, l] n) {i j k : ℕ} (hi : i < n) (hj : j < m) (hk : k < l) : ∃ x, v.get [i, j, k] = some x := by
  obtain ⟨p, hp⟩ := h.has (is := [j, k]) hi ⟨_, by simp only [flat]; rw [if_pos hj, if_pos hk]⟩
  exact View.exists_get h.1 hp

theorem Room.new (ns : List ℕ) (n : ℕ) (x : K) : Room (View.new (n :: ns) x) ns n := ⟨View.new_ok _ _, n, ns, rfl, le_rfl, Or.inr rfl⟩

theorem Room.fill (h : Room v ns n) (x : K) : Room (v.fill x) ns n := h.of_ext rfl (View.fill_ok h.1 x)

theorem uninit_ok (j : ℕ → K) (ext : List ℕ) : (uninit j ext).Ok := by simp [View.Ok, uninit]

theorem Room.uninit (ns : List ℕ) (n : ℕ) (j : ℕ → K) : Room (uninit j (n :: ns)) ns n :=
  ⟨uninit_ok _ _, n, ns, rfl, le_rfl, Or.inr rfl⟩

theorem Room.extent (h : Room v ns m) (hn : ¬ v.extent 0 < n) : Room v ns n := by
  obtain ⟨h1, x, ms, h2, h3, h4⟩ := h
  refine ⟨h1, x, ms, h2, ?_, h4⟩
  unfold View.extent at hn
  rw [h2] at hn
  simpa using hn

variable [Zero K]

theorem Room.grow (h : Room v ns m) (n : ℕ) : Room (grow v n ns) ns n := by
  unfold Verif.Kokkos.grow
  split
  · exact Room.new _ _ _
  · exact h.extent ‹_›

theorem Room.growJ (h : Room v ns m) (j : ℕ → K) (n : ℕ) : Room (growJ j v n ns) ns n := by
  unfold Verif.Kokkos.growJ
  split
  · exact Room.uninit _ _ _
  · exact h.extent ‹_›

theorem Room.growLike (h : Room v ns m) (hw : Room w ns n) : Room (growLike v w) ns n := by
  unfold Verif.Kokkos.growLike
  split
  · obtain ⟨h1, x, ms, h2, h3, h4⟩ := hw
    exact ⟨View.new_ok _ _, x, ms, h2, h3, h4⟩
  · rename_i hlt
    refine h.extent (n := n) ?_
    obtain ⟨h1, x, ms, h2, h3, h4⟩ := hw
    unfold View.extent at hlt ⊢
    rw [h2] at hlt
    have : w.extent 0 = x := by unfold View.extent; rw [h2]; rfl
    simp only [List.getD_cons_zero] at hlt
    omega

theorem G1.fill (h : Room v [] n) : G1 (v.fill 0) n (fun _ => 0) := fun i hi => by
  obtain ⟨p, hp⟩ := h.has (is := []) hi ⟨i, rfl⟩
  exact View.get_fill h.1 hp 0

theorem G2.fill (h : Room v [m] n) : G2 (v.fill 0) n m (fun _ _ => 0) := fun i hi j hj => by
  obtain ⟨p, hp⟩ := h.has (is := [j]) hi ⟨_, by simp only [flat]; rw [if_pos hj]⟩
  exact View.get_fill h.1 hp 0

theorem G3.fill (h : Room v [m, l] n) : G3 (v.fill 0) n m l (fun _ _ _ => 0) := fun i hi j hj k hk => by
  obtain ⟨p, hp⟩ := h.has (is := [j, k]) hi ⟨_, by simp only [flat]; rw [if_pos hj, if_pos hk]⟩
  exact View.get_fill h.1 hp 0

end views

/-! ## Launches whatever the contents are -/

section launches
variable {K : Type} [AddCommMonoid K]

theorem launch1_any (L : Launcher K) {p : Prog Unit K} {v : View K} {D : Set (Unit × List ℕ)} {q : Unit × List ℕ → K → K}
    (hp : Lc (fun _ => v.ext) p D q) (hD : ∀ c, ((), c) ∈ D → ∃ x, v.get c = some x) :
    ∃ v', L.launch1 p v = some v' ∧ v'.ext = v.ext ∧ (v.Ok → v'.Ok) ∧
      (∀ c x, ((), c) ∈ D → v.get c = some x → v'.get c = some (q ((), c) x)) ∧ ∀ c, ((), c) ∉ D → v'.get c = v.get c := by
  obtain ⟨v', h1, h2, h3, h4, h5⟩ := launch1_lc L (fun c => (v.get c).getD 0) hp (fun c hc => by
    obtain ⟨x, hx⟩ := hD c hc; rw [hx]; rfl)
  exact ⟨v', h1, h2, h3, fun c x hc hx => by rw [h4 c hc, hx]; rfl, h5⟩

theorem launch2_any (L : Launcher K) {p : Prog Bool K} {v w : View K} {D : Set (Bool × List ℕ)} {q : Bool × List ℕ → K → K}
    (hp : Lc (fun b => if b then w.ext else v.ext) p D q) (hv : ∀ c, (false, c) ∈ D → ∃ x, v.get c = some x)
    (hw : ∀ c, (true, c) ∈ D → ∃ x, w.get c = some x) :
    ∃ v' w', L.launch2 p v w = some (v', w') ∧ (v'.ext = v.ext ∧ w'.ext = w.ext) ∧ ((v.Ok → v'.Ok) ∧ (w.Ok → w'.Ok)) ∧
      ((∀ c x, (false, c) ∈ D → v.get c = some x → v'.get c = some (q (false, c) x)) ∧
        (∀ c x, (true, c) ∈ D → w.get c = some x → w'.get c = some (q (true, c) x))) ∧
      (∀ c, (false, c) ∉ D → v'.get c = v.get c) ∧ ∀ c, (true, c) ∉ D → w'.get c = w.get c := by
  obtain ⟨v', w', h1, h2, h3, ⟨h4, h5⟩, h6⟩ := launch2_lc L (fun c => if c.1 then (w.get c.2).getD 0 else (v.get c.2).getD 0) hp
    (fun c hc => by obtain ⟨x, hx⟩ := hv c hc; rw [hx]; rfl) (fun c hc => by obtain ⟨x, hx⟩ := hw c hc; rw [hx]; rfl)
  exact ⟨v', w', h1, h2, h3, ⟨fun c x hc hx => by rw [h4 c hc, hx]; rfl, fun c x hc hx => by rw [h5 c hc, hx]; rfl⟩, h6⟩

end launches

/-! ## Cell sets -/

section sets
variable {ι : Type}

/-- All `l`, `m` are all `lm`. -/
theorem ex_lm (L : ℕ) (T : ℕ → Set (ι × List ℕ)) : ex (L + 1) (fun l => ex (2 * l + 1) (fun m => T (l * l + m))) = ex ((L + 1) * (L + 1)) T := by
  ext c
  constructor
  · rintro ⟨l, hl, m, hm, hc⟩
    exact ⟨_, lm_lt hl hm, hc⟩
  · rintro ⟨lm, hlm, hc⟩
    obtain ⟨l, m, hl, hm, rfl, -⟩ := lm_decomp hlm
    exact ⟨l, hl, m, hm, hc⟩

/-- Increment of a cell of a three-dimensional view. -/
def d3 {K : Type} [Zero K] (δ : ℕ → ℕ → ℕ → K) : List ℕ → K
  | [i, j, k] => δ i j k
  | _ => 0

def d2 {K : Type} [Zero K] (δ : ℕ → ℕ → K) : List ℕ → K
  | [i, j] => δ i j
  | _ => 0

def d1 {K : Type} [Zero K] (δ : ℕ → K) : List ℕ → K
  | [i] => δ i
  | _ => 0

/-- New content of a cell. -/
def u3 {K : Type} (h : ℕ → ℕ → ℕ → K → K) : List ℕ → K → K
  | [i, j, k], x => h i j k x
  | _, x => x

def u2 {K : Type} (h : ℕ → ℕ → K → K) : List ℕ → K → K
  | [i, j], x => h i j x
  | _, x => x

def u1 {K : Type} (h : ℕ → K → K) : List ℕ → K → K
  | [i], x => h i x
  | _, x => x

end sets

/-- Proves that index sets of different threads are disjoint. -/
macro "apart" : tactic => `(tactic| (
  simp only [mem_ex, Set.mem_union, Set.mem_singleton_iff]
  grind))

/-! ## Edge numbering -/

theorem scanBlock_spec {nn : List ℕ} {start len : ℕ} (h : start + len ≤ nn.length) (base : ℕ) :
    scanBlock nn start len base = some (tab len (fun j => base + (off nn (start + j) - off nn start)), base + (off nn (start + len) - off nn start)) := by
  induction len with
  | zero => simp [scanBlock, tab]
  | succ len ih =>
    unfold scanBlock at ih ⊢
    rw [loop_succ, ih (by omega), Option.bind_some]
    have hn : nn[start + len]? = some nn[start + len] := List.getElem?_eq_getElem (by omega)
    rw [hn, Option.map_some]
    have e := off_succ hn
    have e2 := off_mono nn (show start ≤ start + len by omega)
    congr 1
    ext1
    · dsimp only
      simp [tab, List.range_succ]
    · dsimp only
      rw [show start + (len + 1) = start + len + 1 by omega, e]
      omega

theorem scanBlocks_spec {nn : List ℕ} {cs : List ℕ} {start : ℕ} (h : start + cs.sum ≤ nn.length) :
    scanBlocks nn cs start (off nn start) = some (tab cs.sum (fun j => off nn (start + j))) := by
  induction cs generalizing start with
  | nil => simp [scanBlocks, tab]
  | cons len rest ih =>
    rw [List.sum_cons] at h
    unfold scanBlocks
    have e := off_mono nn (show start ≤ start + len by omega)
    rw [scanBlock_spec (by omega), scanBlock_spec (by omega)]
    simp only [Option.bind_eq_bind, Option.bind_some]
    rw [show off nn start + (0 + (off nn (start + len) - off nn start)) = off nn (start + len) by omega, ih (by omega), Option.bind_some,
      List.sum_cons]
    congr 1
    unfold tab
    rw [List.range_add, List.map_append, List.map_map]
    congr 1
    · refine List.map_congr_left (fun j hj => ?_)
      have := off_mono nn (show start ≤ start + j by omega)
      omega
    · refine List.map_congr_left (fun j hj => ?_)
      simp [add_assoc]

variable {K : Type} [Field K]

theorem firstNeigh_spec (V : Env K) {nn : List ℕ} {N : ℕ} (h : N ≤ nn.length) : firstNeigh V nn N = some (tab N (off nn)) := by
  have := scanBlocks_spec (nn := nn) (cs := V.chunks N) (start := 0) (by rw [V.chunks_sum]; omega)
  rw [off_zero, V.chunks_sum] at this
  unfold firstNeigh
  rw [this]
  simp

/-- First edge and number of edges of a node. -/
theorem both_edges {nn : List ℕ} {N i n : ℕ} (hi : i < N) (hn : nn[i]? = some n) : both (tab N (off nn))[i]? nn[i]? = some (off nn i, n) := by
  unfold both
  rw [getElem?_tab_lt hi, Option.bind_some, hn, Option.map_some]

theorem iList_spec (V : Env K) {nn : List ℕ} {N Ex : ℕ} {n : ℕ → ℕ} (hn : ∀ i < N, nn[i]? = some (n i)) (hE : off nn N ≤ Ex) :
    ∃ il, iList V nn N Ex = some il ∧ (∀ i < N, ∀ j < n i, il.get [off nn i + j] = some i) ∧
      ∀ e, off nn N ≤ e → e < Ex → il.get [e] = some 0 := by
  have hN : N ≤ nn.length := by
    by_contra hlt
    have := hn nn.length (by omega)
    rw [List.getElem?_eq_none le_rfl] at this
    cases this
  have hp : ∀ E, Lc E (iListK (tab N (off nn)) nn N E) (ex N fun i => ex (n i) fun j => {((), [off nn i + j])})
      (fun c _ => d1 (fun e => ∑ i ∈ Finset.range N, if e ∈ edges nn i then i else 0) c.2) := by
    intro E
    refine Lc.parFor (fun i hi => Lc.opt (both_edges hi (hn i hi)) (Lc.forDisj (fun j hj => Lc.put (fun x => ?_)) ?_)) ?_
    · show ∑ i' ∈ Finset.range N, (if off nn i + j ∈ edges nn i' then i' else 0) = i
      rw [Finset.sum_eq_single i]
      · rw [if_pos ((mem_edges (hn i hi)).mpr ⟨j, hj, rfl⟩)]
      · intro i' _ hne
        rw [if_neg]
        intro h
        exact hne (edges_disj h ((mem_edges (hn i hi)).mpr ⟨j, hj, rfl⟩))
      · intro h; exact absurd (Finset.mem_range.mpr hi) h
    · apart
    · rintro i hi i' hi' c ⟨j, hj, rfl⟩ ⟨j', hj', h⟩
      simp only [Set.mem_singleton_iff, Prod.mk.injEq, List.cons.injEq, and_true, true_and] at h
      exact (edge_unique (hn i hi) (hn i' hi') hj hj' h).1
  have h0 : ∀ e < Ex, (View.new [Ex] 0 : View ℕ).get [e] = some 0 := fun e he => View.get_new (flat_one he) 0
  obtain ⟨v', h1, h2, h3, h4, h5⟩ := launch1_any V.LN (v := View.new [Ex] 0) (hp _) (by
    rintro c ⟨i, hi, j, hj, h⟩
    simp only [Set.mem_singleton_iff, Prod.mk.injEq, true_and] at h
    subst h
    exact ⟨0, h0 _ ((off_add_lt hi (hn i hi) hj).trans_le hE)⟩)
  refine ⟨v', ?_, fun i hi j hj => ?_, fun e he he' => ?_⟩
  · unfold iList
    rw [firstNeigh_spec V hN]
    exact h1
  · rw [h4 _ 0 ⟨i, hi, j, hj, rfl⟩ (h0 _ ((off_add_lt hi (hn i hi) hj).trans_le hE))]
    congr 1
    show ∑ i' ∈ Finset.range N, (if off nn i + j ∈ edges nn i' then i' else 0) = i
    rw [Finset.sum_eq_single i]
    · rw [if_pos ((mem_edges (hn i hi)).mpr ⟨j, hj, rfl⟩)]
    · intro i' _ hne
      rw [if_neg]
      intro h
      exact hne (edges_disj h ((mem_edges (hn i hi)).mpr ⟨j, hj, rfl⟩))
    · intro h; exact absurd (Finset.mem_range.mpr hi) h
  · rw [h5, h0 e he']
    rintro ⟨i, hi, j, hj, h⟩
    simp only [Set.mem_singleton_iff, Prod.mk.injEq, List.cons.injEq, and_true, true_and] at h
    have := off_add_lt hi (hn i hi) hj
    omega

/-! ## Launches on a box -/

section boxes
variable {K : Type} [AddCommMonoid K]

theorem launch1_box3 (L : Launcher K) {p : (Unit → List ℕ) → Prog Unit K} {v : View K} {N M C : ℕ} {h : ℕ → ℕ → ℕ → K → K}
    (hp : ∀ E, Lc E (p E) (ex N fun i => ex M fun j => ex C fun k => {((), [i, j, k])}) (fun c => u3 h c.2)) (hv : Room v [M, C] N) :
    ∃ v', L.launch1 (p fun _ => v.ext) v = some v' ∧ Room v' [M, C] N ∧ v'.ext = v.ext ∧
      ∀ F, G3 v N M C F → G3 v' N M C (fun i j k => h i j k (F i j k)) := by
  obtain ⟨v', h1, h2, h3, h4, -⟩ := launch1_any L (hp _) (by
    rintro c ⟨i, hi, lm, hlm, k, hk, h⟩
    simp only [Set.mem_singleton_iff, Prod.mk.injEq, true_and] at h
    subst h
    exact hv.has3 hi hlm hk)
  refine ⟨v', h1, hv.of_ext h2 (h3 hv.1), h2, fun F hF i hi lm hlm k hk => ?_⟩
  rw [h4 _ _ ⟨i, hi, lm, hlm, k, hk, rfl⟩ (hF i hi lm hlm k hk)]
  rfl

theorem launch1_box2 (L : Launcher K) {p : (Unit → List ℕ) → Prog Unit K} {v : View K} {N M : ℕ} {h : ℕ → ℕ → K → K}
    (hp : ∀ E, Lc E (p E) (ex N fun i => ex M fun j => {((), [i, j])}) (fun c => u2 h c.2)) (hv : Room v [M] N) :
    ∃ v', L.launch1 (p fun _ => v.ext) v = some v' ∧ Room v' [M] N ∧ v'.ext = v.ext ∧
      ∀ F, G2 v N M F → G2 v' N M (fun i j => h i j (F i j)) := by
  obtain ⟨v', h1, h2, h3, h4, -⟩ := launch1_any L (hp _) (by
    rintro c ⟨i, hi, lm, hlm, h⟩
    simp only [Set.mem_singleton_iff, Prod.mk.injEq, true_and] at h
    subst h
    exact hv.has2 hi hlm)
  refine ⟨v', h1, hv.of_ext h2 (h3 hv.1), h2, fun F hF i hi lm hlm => ?_⟩
  rw [h4 _ _ ⟨i, hi, lm, hlm, rfl⟩ (hF i hi lm hlm)]
  rfl

theorem Room.get3 {v : View K} {N M C : ℕ} (hv : Room v [M, C] N) : ∃ F, G3 v N M C F :=
  ⟨fun i j k => (v.get [i, j, k]).getD 0, fun i hi j hj k hk => by obtain ⟨x, hx⟩ := hv.has3 hi hj hk; dsimp only; rw [hx]; rfl⟩

theorem Room.get2 {v : View K} {N M : ℕ} (hv : Room v [M] N) : ∃ F, G2 v N M F :=
  ⟨fun i j => (v.get [i, j]).getD 0, fun i hi j hj => by obtain ⟨x, hx⟩ := hv.has2 hi hj; dsimp only; rw [hx]; rfl⟩

end boxes

/-! ## Forces -/

/-- One-dimensional view with at least `n` entries, content `f` everywhere. -/
def All (v : View K) (n : ℕ) (f : ℕ → K) : Prop := v.Ok ∧ ∃ x, v.ext = [x] ∧ n ≤ x ∧ ∀ p < x, v.get [p] = some (f p)

/-- Forces on `Ex` edges. -/
def Fc (v : View K) (Ex : ℕ) (F : ℕ → ℕ → K) : Prop := All v (3 * Ex) (fun p => F (p / 3) (p % 3))

omit [Field K] in
theorem All.has {v : View K} {n : ℕ} {f : ℕ → K} (h : All v n f) {p : ℕ} (hp : p < n) : v.get [p] = some (f p) := by
  obtain ⟨_, x, _, h2, h3⟩ := h
  exact h3 p (by omega)

omit [Field K] in
theorem All.step {v v' : View K} {n : ℕ} {f f' : ℕ → K} (h : All v n f) (he : v'.ext = v.ext) (hok : v.Ok → v'.Ok)
    (hin : ∀ p < n, v'.get [p] = some (f' p)) (hout : ∀ p, n ≤ p → v'.get [p] = v.get [p] ∧ f' p = f p) : All v' n f' := by
  obtain ⟨h1, x, h2, h3, h4⟩ := h
  refine ⟨hok h1, x, he.trans h2, h3, fun p hp => ?_⟩
  by_cases hpn : p < n
  · exact hin p hpn
  · rw [(hout p (by omega)).1, (hout p (by omega)).2, h4 p hp]

omit [Field K] in
theorem All.congr {v : View K} {n : ℕ} {f f' : ℕ → K} (h : All v n f) (hf : ∀ p, f' p = f p) : All v n f' := by
  obtain ⟨h1, x, h2, h3, h4⟩ := h
  exact ⟨h1, x, h2, h3, fun p hp => by rw [hf, h4 p hp]⟩

/-- The force components of the edges of a node. -/
def fcells {ι : Type} (b : ι) (nn : List ℕ) (m i : ℕ) : Set (ι × List ℕ) := ex m fun j => ex 3 fun a => {(b, [3 * (off nn i + j) + a])}

theorem onE_edge {nn : List ℕ} {N i j m : ℕ} (hi : i < N) (hm : nn[i]? = some m) (hj : j < m) (δ : ℕ → ℕ → ℕ → K) (a : ℕ) :
    MACE.onE nn N δ (off nn i + j) a = δ i (off nn i + j) a := by
  have he := off_add_lt hi hm hj
  unfold MACE.onE
  rw [if_pos he]
  obtain ⟨_, h2⟩ := MACE.own_spec he
  rw [edges_disj h2 ((mem_edges hm).mpr ⟨j, hj, rfl⟩)]

/-- Content of the force view after adding `δ`. -/
def addF (nn : List ℕ) (N : ℕ) (δ : ℕ → ℕ → ℕ → K) : List ℕ → K → K := fun c x => x + d1 (fun p => MACE.onE nn N δ (p / 3) (p % 3)) c

theorem addF_edge {nn : List ℕ} {N i j m : ℕ} (hi : i < N) (hm : nn[i]? = some m) (hj : j < m) (δ : ℕ → ℕ → ℕ → K) {a : ℕ} (ha : a < 3)
    (x : K) : addF nn N δ [3 * (off nn i + j) + a] x = x + δ i (off nn i + j) a := by
  show x + MACE.onE nn N δ ((3 * (off nn i + j) + a) / 3) ((3 * (off nn i + j) + a) % 3) = _
  rw [show (3 * (off nn i + j) + a) / 3 = off nn i + j by omega, show (3 * (off nn i + j) + a) % 3 = a by omega, onE_edge hi hm hj]

theorem fcells_apart {ι : Type} {b : ι} {nn : List ℕ} {n : ℕ → ℕ} {N : ℕ} (hn : ∀ i < N, nn[i]? = some (n i)) :
    ∀ i < N, ∀ i' < N, ∀ c, c ∈ fcells b nn (n i) i → c ∈ fcells b nn (n i') i' → i = i' := by
  rintro i hi i' hi' c ⟨j, hj, a, ha, rfl⟩ ⟨j', hj', a', ha', h⟩
  simp only [Set.mem_singleton_iff, Prod.mk.injEq, List.cons.injEq, and_true, true_and] at h
  exact (edge_unique (hn i hi) (hn i' hi') hj hj' (by omega)).1

theorem mem_fcells {ι : Type} {b : ι} {nn : List ℕ} {n : ℕ → ℕ} {N : ℕ} (hn : ∀ i < N, nn[i]? = some (n i)) {c : ι × List ℕ} :
    c ∈ ex N (fun i => fcells b nn (n i) i) ↔ ∃ p < 3 * off nn N, c = (b, [p]) := by
  constructor
  · rintro ⟨i, hi, j, hj, a, ha, rfl⟩
    have := off_add_lt hi (hn i hi) hj
    exact ⟨_, by omega, rfl⟩
  · rintro ⟨p, hp, rfl⟩
    obtain ⟨i, hi, he⟩ := exists_owner (nn := nn) (N := N) (e := p / 3) (by omega)
    obtain ⟨j, hj, h⟩ := (mem_edges (hn i hi)).mp he
    exact ⟨i, hi, j, hj, p % 3, by omega, by simp only [Set.mem_singleton_iff]; congr 2; omega⟩

/-- A force view after a launch. -/
theorem Fc.step {v v' : View K} {Ex : ℕ} {F : ℕ → ℕ → K} (h : Fc v Ex F) {nn : List ℕ} {N : ℕ} (hE : off nn N ≤ Ex)
    {δ : ℕ → ℕ → ℕ → K} (he : v'.ext = v.ext) (hok : v.Ok → v'.Ok)
    (hin : ∀ p < 3 * off nn N, ∀ x, v.get [p] = some x → v'.get [p] = some (addF nn N δ [p] x))
    (hout : ∀ p, ¬ p < 3 * off nn N → v'.get [p] = v.get [p]) : Fc v' Ex (fun e a => F e a + MACE.onE nn N δ e a) := by
  have h0 : ∀ p, ¬ p < 3 * off nn N → MACE.onE nn N δ (p / 3) (p % 3) = 0 := fun p hp => by
    unfold MACE.onE; rw [if_neg (by omega)]
  refine All.step h he hok (fun p hp => ?_) (fun p hp => ⟨hout p (by omega), ?_⟩)
  · by_cases hpn : p < 3 * off nn N
    · exact hin p hpn _ (All.has h hp)
    · rw [hout p hpn, All.has h hp]
      dsimp only
      rw [h0 p hpn, add_zero]
  · dsimp only
    rw [h0 p (by omega), add_zero]

theorem launch1_forces (L : Launcher K) {p : (Unit → List ℕ) → Prog Unit K} {v : View K} {Ex : ℕ} {F : ℕ → ℕ → K} (h : Fc v Ex F)
    {nn : List ℕ} {N : ℕ} {n : ℕ → ℕ} (hn : ∀ i < N, nn[i]? = some (n i)) (hE : off nn N ≤ Ex) {δ : ℕ → ℕ → ℕ → K}
    (hp : ∀ E, Lc E (p E) (ex N fun i => fcells () nn (n i) i) (fun c => addF nn N δ c.2)) :
    ∃ v', L.launch1 (p fun _ => v.ext) v = some v' ∧ Fc v' Ex (fun e a => F e a + MACE.onE nn N δ e a) := by
  obtain ⟨v', h1, h2, h3, h4, h5⟩ := launch1_any L (hp _) (by
    intro c hc
    obtain ⟨q, hq, h⟩ := (mem_fcells hn).mp hc
    simp only [Prod.mk.injEq, true_and] at h
    subst h
    exact ⟨_, All.has h (by omega)⟩)
  exact ⟨v', h1, h.step hE h2 h3 (fun q hq x hx => h4 _ _ ((mem_fcells hn).mpr ⟨q, hq, rfl⟩) hx) (fun q hq => h5 _ (fun hc => by
    obtain ⟨q', hq', h⟩ := (mem_fcells hn).mp hc
    simp only [Prod.mk.injEq, List.cons.injEq, and_true, true_and] at h
    omega))⟩

theorem Lc.three {ι : Type} [DecidableEq ι] {E : ι → List ℕ} {b : ι} {ij : ℕ} {h : ℕ → K → K} {q : ι × List ℕ → K → K}
    (hq : ∀ a < 3, ∀ x, q (b, [3 * ij + a]) x = h a x) : Lc E (three E b ij h) (ex 3 fun a => {(b, [3 * ij + a])}) q := by
  have := Lc.seqDisj (Lc.upd (E := E) (hq 0 (by omega))) (Lc.seqDisj (Lc.upd (E := E) (hq 1 (by omega))) (Lc.upd (E := E) (hq 2 (by omega)))
    (by simp)) (by simp)
  refine this.frame ?_ (fun _ _ _ => rfl) ?_
  · rintro c (rfl | rfl | rfl)
    · exact ⟨0, by omega, rfl⟩
    · exact ⟨1, by omega, rfl⟩
    · exact ⟨2, by omega, rfl⟩
  · rintro c ⟨a, ha, rfl⟩ hn
    exfalso
    apply hn
    interval_cases a
    · exact Or.inl rfl
    · exact Or.inr (Or.inl rfl)
    · exact Or.inr (Or.inr rfl)

theorem edgeVec_eq {g : MACE.Graph K} {nT NH : ℕ} {c : Spec.Conf K} {n : ℕ → ℕ} {X : ℕ → ℕ → K} {R : ℕ → K} (hg : MACE.GOk g nT NH c n X R)
    {e : ℕ} (he : e < g.E) : ∃ f, edgeVec g e = some (f, R e) ∧ ∀ a < 3, f a = X e a := by
  have h := fun a (ha : a < 3) => hg.xyz_get he ha
  refine ⟨fun a => if a = 0 then X e 0 else if a = 1 then X e 1 else X e 2, ?_, fun a ha => ?_⟩
  · unfold edgeVec
    rw [mul_comm 3 e]
    have h0 := h 0 (by omega)
    rw [add_zero] at h0
    rw [h0, h 1 (by omega), h 2 (by omega), hg.r_get he]
    rfl
  · interval_cases a <;> rfl

end Verif.Kokkos
