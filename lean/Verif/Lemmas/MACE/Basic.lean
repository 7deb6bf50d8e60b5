import Verif.Model.MACE
import Verif.Lemmas.Blas
import Mathlib.Data.Nat.Sqrt
import Mathlib.Tactic.Ring
import Mathlib.Algebra.BigOperators.Intervals

/-! # Helper lemmas for the MACE stages: index sets, tables, products -/

namespace Verif

/-! ## `l`, `m` enumeration -/

theorem sqrt_lm {l mm : ℕ} (h : mm < 2 * l + 1) : Nat.sqrt (l * l + mm) = l := Nat.sqrt_add_eq l (by omega)

theorem lm_lt {L l mm : ℕ} (hl : l < L + 1) (h : mm < 2 * l + 1) : l * l + mm < (L + 1) * (L + 1) := by
  have : (l + 1) * (l + 1) ≤ (L + 1) * (L + 1) := Nat.mul_le_mul hl hl
  nlinarith

theorem lm_decomp {L lm : ℕ} (h : lm < (L + 1) * (L + 1)) :
    ∃ l mm, l < L + 1 ∧ mm < 2 * l + 1 ∧ lm = l * l + mm ∧ Nat.sqrt lm = l := by
  have h1 := Nat.sqrt_le lm
  have h3 := Nat.lt_succ_sqrt lm
  have h4 : Nat.sqrt lm < L + 1 := Nat.sqrt_lt.mpr h
  refine ⟨Nat.sqrt lm, lm - Nat.sqrt lm * Nat.sqrt lm, h4, ?_, by omega, rfl⟩
  have : (Nat.sqrt lm).succ * (Nat.sqrt lm).succ = Nat.sqrt lm * Nat.sqrt lm + 2 * Nat.sqrt lm + 1 := by
    rw [Nat.succ_eq_add_one]; ring
  omega

theorem sum_lm {K : Type*} [AddCommMonoid K] (L : ℕ) (f : ℕ → ℕ → K) :
    ∑ l ∈ Finset.range (L + 1), ∑ mm ∈ Finset.range (2 * l + 1), f l (l * l + mm)
      = ∑ lm ∈ Finset.range ((L + 1) * (L + 1)), f (Nat.sqrt lm) lm := by
  have key : ∀ n : ℕ, ∑ l ∈ Finset.range n, ∑ mm ∈ Finset.range (2 * l + 1), f l (l * l + mm)
      = ∑ lm ∈ Finset.range (n * n), f (Nat.sqrt lm) lm := by
    intro n
    induction n with
    | zero => simp
    | succ n ih =>
      rw [Finset.sum_range_succ, ih, show (n + 1) * (n + 1) = n * n + (2 * n + 1) by ring,
        Finset.sum_range_add (fun lm => f (Nat.sqrt lm) lm)]
      congr 1
      refine Finset.sum_congr rfl (fun mm hmm => ?_)
      rw [sqrt_lm (Finset.mem_range.mp hmm)]
  exact key (L + 1)

/-- A sum over `a*b` as a double sum. -/
theorem sum_flat {K : Type*} [AddCommMonoid K] (a b : ℕ) (f : ℕ → K) :
    ∑ p ∈ Finset.range (a * b), f p = ∑ i ∈ Finset.range a, ∑ j ∈ Finset.range b, f (i * b + j) := by
  induction a with
  | zero => simp
  | succ a ih => rw [Finset.sum_range_succ, ← ih, Nat.succ_mul, Finset.sum_range_add]

theorem sum_ite_range {K : Type*} [AddCommMonoid K] {n : ℕ} {k : ℕ} (hk : k < n) (f : ℕ → K) :
    ∑ i ∈ Finset.range n, (if k = i then f i else 0) = f k := by
  rw [Finset.sum_ite_eq]; simp [hk]

/-! ## Tables -/

section tables
variable {K : Type*}

/-- Row-major `n1 × n2 × n3` table. -/
def T3 (n1 n2 n3 : ℕ) (f : ℕ → ℕ → ℕ → K) : List K := tab (n1 * n2 * n3) (dec3 n2 n3 f)

@[simp] theorem length_T3 (n1 n2 n3 : ℕ) (f : ℕ → ℕ → ℕ → K) : (T3 n1 n2 n3 f).length = n1 * n2 * n3 := by simp [T3]

theorem T3_get {n1 n2 n3 i j k : ℕ} (f : ℕ → ℕ → ℕ → K) (hi : i < n1) (hj : j < n2) (hk : k < n3) :
    (T3 n1 n2 n3 f)[(i * n2 + j) * n3 + k]? = some (f i j k) := Rd3_tab n1 n2 n3 f i hi j hj k hk

theorem T3_congr {n1 n2 n3 : ℕ} {f g : ℕ → ℕ → ℕ → K} (h : ∀ i < n1, ∀ j < n2, ∀ k < n3, f i j k = g i j k) :
    T3 n1 n2 n3 f = T3 n1 n2 n3 g := by
  apply tab_congr
  intro p hp
  obtain ⟨i, j, k, hi, hj, hk, rfl⟩ := flat3_decomp hp
  rw [dec3_flat f hj hk, dec3_flat g hj hk, h i hi j hj k hk]

theorem eq_T3 {b : List K} {n1 n2 n3 : ℕ} {f : ℕ → ℕ → ℕ → K} (hl : b.length = n1 * n2 * n3) (h : Rd3 b n1 n2 n3 f) :
    b = T3 n1 n2 n3 f := by
  unfold T3
  rw [eq_tab_iff]
  refine ⟨hl, fun p hp => ?_⟩
  obtain ⟨i, j, k, hi, hj, hk, rfl⟩ := flat3_decomp hp
  rw [dec3_flat f hj hk, h i hi j hj k hk]

theorem tab_eq_T3 {n1 n2 n3 : ℕ} {g : ℕ → K} {f : ℕ → ℕ → ℕ → K}
    (h : ∀ i < n1, ∀ j < n2, ∀ k < n3, g ((i * n2 + j) * n3 + k) = f i j k) : tab (n1 * n2 * n3) g = T3 n1 n2 n3 f := by
  apply tab_congr
  intro p hp
  obtain ⟨i, j, k, hi, hj, hk, rfl⟩ := flat3_decomp hp
  rw [dec3_flat f hj hk, h i hi j hj k hk]

end tables

/-! ## Binding reads -/

theorem bind_of_some {α β : Type*} {o : Option α} {a : α} (h : o = some a) (f : α → Option β) : o.bind f = f a := by
  rw [h, Option.bind_some]

/-! ## Node/edge loops -/

/-- The loop over nodes and their edges without the counter. -/
theorem nodeEdges_eq {σ : Type} {N : ℕ} {nn : List ℕ} {n : ℕ → ℕ} (hn : ∀ i < N, nn[i]? = some (n i))
    (body : ℕ → ℕ → σ → Option σ) (s : σ) :
    loop N (fun i (q : ℕ × σ) => (nn[i]?).bind (fun n => edgesFrom n (body i) q)) (0, s)
      = (loop N (fun i => loop (n i) (fun j => body i (off nn i + j))) s).map (fun s => (off nn N, s)) := by
  apply nodeLoop_eq
  intro i hi s
  rw [hn i hi, Option.bind_some, edgesFrom_eq, off_succ (hn i hi)]

/-- The edges of node `i`. -/
def edges (nn : List ℕ) (i : ℕ) : Finset ℕ := Finset.Ico (off nn i) (off nn (i + 1))

theorem sum_edges {K : Type*} [AddCommMonoid K] {nn : List ℕ} {i m : ℕ} (h : nn[i]? = some m) (f : ℕ → K) :
    ∑ j ∈ Finset.range m, f (off nn i + j) = ∑ e ∈ edges nn i, f e := by
  unfold edges
  rw [off_succ h, Finset.sum_Ico_eq_sum_range]
  simp

theorem mem_edges {nn : List ℕ} {i m : ℕ} (h : nn[i]? = some m) {e : ℕ} :
    e ∈ edges nn i ↔ ∃ j < m, e = off nn i + j := by
  unfold edges
  rw [off_succ h, Finset.mem_Ico]
  exact ⟨fun ⟨h1, h2⟩ => ⟨e - off nn i, by omega, by omega⟩, fun ⟨j, h1, h2⟩ => by omega⟩

theorem edges_lt {nn : List ℕ} {N i e : ℕ} (hi : i < N) (he : e ∈ edges nn i) : e < off nn N :=
  lt_of_lt_of_le (Finset.mem_Ico.mp he).2 (off_mono nn hi)

/-- All edges, node by node. -/
theorem sum_all_edges {K : Type*} [AddCommMonoid K] (nn : List ℕ) (N : ℕ) (f : ℕ → K) :
    ∑ i ∈ Finset.range N, ∑ e ∈ edges nn i, f e = ∑ e ∈ Finset.range (off nn N), f e := by
  induction N with
  | zero => simp [off_zero]
  | succ N ih =>
    rw [Finset.sum_range_succ, ih, edges, Finset.range_eq_Ico, Finset.sum_Ico_consecutive f (Nat.zero_le _) (off_mono nn (Nat.le_succ N)),
      ← Finset.range_eq_Ico]

theorem edges_disj {nn : List ℕ} {i i' e : ℕ} (h : e ∈ edges nn i) (h' : e ∈ edges nn i') : i = i' := by
  have h1 := Finset.mem_Ico.mp h
  have h2 := Finset.mem_Ico.mp h'
  rcases lt_trichotomy i i' with hlt | he | hlt
  · have := off_mono nn (show i + 1 ≤ i' from hlt); omega
  · exact he
  · have := off_mono nn (show i' + 1 ≤ i from hlt); omega

theorem exists_owner {nn : List ℕ} {N e : ℕ} (he : e < off nn N) : ∃ i < N, e ∈ edges nn i := by
  induction N with
  | zero => simp [off_zero] at he
  | succ N ih =>
    by_cases h : e < off nn N
    · obtain ⟨i, hi, h1⟩ := ih h
      exact ⟨i, by omega, h1⟩
    · exact ⟨N, by omega, Finset.mem_Ico.mpr ⟨by omega, he⟩⟩

/-- Accumulating node/edge loop. -/
theorem nodeEdges_adds {K : Type} [AddCommMonoid K] {N L : ℕ} {nn : List ℕ} {n : ℕ → ℕ}
    (hn : ∀ i < N, nn[i]? = some (n i)) {body : ℕ → ℕ → List K → Option (List K)} {d : ℕ → ℕ → ℕ → K}
    (h : ∀ i < N, ∀ e ∈ edges nn i, Adds L (body i e) (d i e)) (b : List K) (hb : b.length = L) :
    loop N (fun i (q : ℕ × List K) => (nn[i]?).bind (fun n => edgesFrom n (body i) q)) (0, b)
      = some (off nn N, b.mapIdx (fun p x => x + ∑ i ∈ Finset.range N, ∑ e ∈ edges nn i, d i e p)) := by
  rw [nodeEdges_eq hn]
  have : Adds L (loop N (fun i => loop (n i) (fun j => body i (off nn i + j))))
      (fun p => ∑ i ∈ Finset.range N, ∑ j ∈ Finset.range (n i), d i (off nn i + j) p) :=
    Adds.loop (fun i hi => Adds.loop (fun j hj => h i hi _ ((mem_edges (hn i hi)).mpr ⟨j, hj, rfl⟩)))
  rw [this b hb, Option.map_some]
  simp only [Option.some.injEq, Prod.mk.injEq, true_and]
  congr 1
  funext p x
  congr 1
  refine Finset.sum_congr rfl (fun i hi => ?_)
  rw [sum_edges (hn i (Finset.mem_range.mp hi)) (fun e => d i e p)]

theorem replicate_mapIdx_add {K : Type*} [AddCommMonoid K] (n : ℕ) (f : ℕ → K) :
    (List.replicate n (0 : K)).mapIdx (fun p x => x + f p) = tab n f :=
  replicate_mapIdx_eq_tab (fun p _ => zero_add _)

/-! ## Matrix products as writes -/

section gemm
variable {K : Type} [Field K]
open Verif.Blas

theorem gemm_wr {ta tb : Bool} {m n k : ℕ} {a : List K} {aoff lda : ℕ} {b : List K} {boff ldb : ℕ}
    {coff L : ℕ} {A B : ℕ → ℕ → K} {val : ℕ → K}
    (ha : ∀ i < m, ∀ p < k, a[mIdx ta aoff lda i p]? = some (A i p))
    (hb : ∀ p < k, ∀ j < n, b[mIdx tb boff ldb p j]? = some (B p j)) (hL : coff + m * n ≤ L)
    (hv : ∀ i < m, ∀ j < n, val (coff + (i * n + j)) = ∑ p ∈ Finset.range k, A i p * B p j) :
    Wr L (gemm ta tb m n k 1 a aoff lda b boff ldb 0 coff n) (fun q => coff ≤ q ∧ q < coff + m * n) val := by
  apply Wr.of_acts (gemm_acts ha hb hL)
  · intro p hp; omega
  · intro q hq x
    rw [if_pos hq, one_mul, zero_mul, add_zero]
    obtain ⟨p, hp⟩ : ∃ p, q = coff + p := ⟨q - coff, by omega⟩
    subst hp
    obtain ⟨i, j, hi, hj, rfl⟩ := flat_decomp (show p < m * n by omega)
    rw [hv i hi j hj, Nat.add_sub_cancel_left, flat_div hj, flat_mod hj]
  · intro p _ hp x
    exact if_neg hp

/-- Product of the `l` block of node `i` (`2l+1` rows). -/
theorem gemm_lm_wr {tb : Bool} {N L M C i l : ℕ} (hM : M = (L + 1) * (L + 1)) {a w : List K} {aoff boff : ℕ}
    {A B : ℕ → ℕ → K} {f : ℕ → ℕ → ℕ → K} (hi : i < N) (hl : l < L + 1)
    (ha : ∀ mm < 2 * l + 1, ∀ k' < C, a[aoff + (mm * C + k')]? = some (A (l * l + mm) k'))
    (hb : ∀ k' < C, ∀ k < C, w[mIdx tb boff C k' k]? = some (B k' k))
    (hf : ∀ lm k, Nat.sqrt lm = l → k < C → f i lm k = ∑ k' ∈ Finset.range C, A lm k' * B k' k) :
    Wr (N * M * C) (gemm false tb (2 * l + 1) C C 1 a aoff C w boff C 0 ((i * M + l * l) * C) C)
      (fun p => (i * M + l * l) * C ≤ p ∧ p < (i * M + l * l) * C + (2 * l + 1) * C) (dec3 M C f) := by
  subst hM
  refine gemm_wr (A := fun mm k' => A (l * l + mm) k') (B := B) ?_ hb ?_ ?_
  · intro mm hmm k' hk'
    simpa [mIdx] using ha mm hmm k' hk'
  · have h5 := lm_lt hl (show 2 * l < 2 * l + 1 by omega)
    calc (i * ((L + 1) * (L + 1)) + l * l) * C + (2 * l + 1) * C
        = (i * ((L + 1) * (L + 1)) + (l * l + (2 * l + 1))) * C := by ring
      _ ≤ ((i + 1) * ((L + 1) * (L + 1))) * C := Nat.mul_le_mul_right _ (by rw [Nat.succ_mul i]; omega)
      _ ≤ N * ((L + 1) * (L + 1)) * C := Nat.mul_le_mul_right _ (Nat.mul_le_mul_right _ hi)
  · intro mm hmm k hk
    have : (i * ((L + 1) * (L + 1)) + l * l) * C + (mm * C + k) = (i * ((L + 1) * (L + 1)) + (l * l + mm)) * C + k := by
      ring
    rw [this, dec3_flat _ (lm_lt hl hmm) hk, hf _ _ (sqrt_lm hmm) hk]

/-- The blocks of all nodes and all `l` fill the buffer. -/
theorem lmBlocks_full {N L M C : ℕ} (hM : M = (L + 1) * (L + 1)) {body : ℕ → ℕ → List K → Option (List K)}
    {f : ℕ → ℕ → ℕ → K}
    (h : ∀ i < N, ∀ l < L + 1, Wr (N * M * C) (body i l)
      (fun p => (i * M + l * l) * C ≤ p ∧ p < (i * M + l * l) * C + (2 * l + 1) * C) (dec3 M C f)) {b : List K}
    (hb : b.length = N * M * C) : loop N (fun i => loop (L + 1) (body i)) b = some (T3 N M C f) := by
  subst hM
  have hwr := Writes.loop (fun i hi => Writes.loop (h i hi))
  refine Wr.tab_of_all hwr ?_ hb
  intro p hp
  obtain ⟨i, lm, k, hi, hlm, hk, rfl⟩ := flat3_decomp hp
  obtain ⟨l, mm, hl, hmm, rfl, _⟩ := lm_decomp hlm
  refine ⟨i, hi, l, hl, ?_, ?_⟩
  · calc (i * ((L + 1) * (L + 1)) + l * l) * C ≤ (i * ((L + 1) * (L + 1)) + (l * l + mm)) * C :=
          Nat.mul_le_mul_right _ (by omega)
      _ ≤ _ := Nat.le_add_right _ _
  · have := flat_lt hmm hk
    calc (i * ((L + 1) * (L + 1)) + (l * l + mm)) * C + k = (i * ((L + 1) * (L + 1)) + l * l) * C + (mm * C + k) := by ring
      _ < _ := by omega

end gemm

end Verif
