import Verif.Base.Loop

/-! # Tables: buffers in functional form -/

namespace Verif

variable {K : Type*}

theorem wr_tab {n : ℕ} {f : ℕ → K} {i : ℕ} (v : K) (h : i < n) :
    wr (tab n f) i v = some (tab n (Function.update f i v)) := by
  rw [wr_eq _ (by simpa using h)]
  congr 1
  rw [eq_tab_iff]
  refine ⟨by simp, fun j hj => ?_⟩
  rw [List.getElem?_set]
  by_cases hji : i = j
  · subst hji; simp [h]
  · rw [if_neg hji, getElem?_tab_lt hj, Function.update_of_ne (fun e => hji e.symm)]

theorem ad_tab [Add K] {n : ℕ} {f : ℕ → K} {i : ℕ} (v : K) (h : i < n) :
    ad (tab n f) i v = some (tab n (Function.update f i (f i + v))) := by
  unfold ad md
  rw [getElem?_tab_lt h]
  show some _ = _
  rw [← wr_tab _ h, wr_eq _ (by simpa using h)]

/-- Any buffer is a table. -/
theorem eq_tab_getD [Zero K] (b : List K) : b = tab b.length (fun i => b[i]?.getD 0) := by
  rw [eq_tab_iff]
  refine ⟨rfl, fun i hi => ?_⟩
  simp [hi]

/-- A two-dimensional table stored row by row, `B` cells per row. -/
def tab2 (n B : ℕ) (f : ℕ → ℕ → K) : List K := tab (n * B) (fun p => f (p / B) (p % B))

@[simp] theorem length_tab2 (n B : ℕ) (f : ℕ → ℕ → K) : (tab2 n B f).length = n * B := by simp [tab2]

theorem flat_div {B q j : ℕ} (hj : j < B) : (q * B + j) / B = q := by
  rw [mul_comm, Nat.mul_add_div (by omega), Nat.div_eq_of_lt hj, add_zero]

theorem flat_mod {B q j : ℕ} (hj : j < B) : (q * B + j) % B = j := by
  rw [mul_comm, Nat.mul_add_mod, Nat.mod_eq_of_lt hj]

theorem getElem?_tab2 {n B : ℕ} {f : ℕ → ℕ → K} {q j : ℕ} (hq : q < n) (hj : j < B) :
    (tab2 n B f)[q * B + j]? = some (f q j) := by
  unfold tab2
  rw [getElem?_tab_lt (flat_lt hq hj), flat_div hj, flat_mod hj]

theorem tab2_congr {n B : ℕ} {f g : ℕ → ℕ → K} (h : ∀ q < n, ∀ j < B, f q j = g q j) : tab2 n B f = tab2 n B g := by
  apply tab_congr
  intro p hp
  obtain ⟨q, j, hq, hj, rfl⟩ := flat_decomp hp
  rw [flat_div hj, flat_mod hj]
  exact h q hq j hj

theorem eq_tab2_iff {b : List K} {n B : ℕ} {f : ℕ → ℕ → K} :
    b = tab2 n B f ↔ b.length = n * B ∧ ∀ q < n, ∀ j < B, b[q * B + j]? = some (f q j) := by
  unfold tab2
  rw [eq_tab_iff]
  constructor
  · rintro ⟨h1, h2⟩
    refine ⟨h1, fun q hq j hj => ?_⟩
    rw [h2 _ (flat_lt hq hj), flat_div hj, flat_mod hj]
  · rintro ⟨h1, h2⟩
    refine ⟨h1, fun p hp => ?_⟩
    obtain ⟨q, j, hq, hj, rfl⟩ := flat_decomp hp
    rw [h2 q hq j hj, flat_div hj, flat_mod hj]

/-- Functional update of one cell of a matrix. -/
def upd2 (f : ℕ → ℕ → K) (q j : ℕ) (v : K) : ℕ → ℕ → K := fun q' j' => if q' = q ∧ j' = j then v else f q' j'

theorem wr_tab2 {n B : ℕ} {f : ℕ → ℕ → K} {q j : ℕ} (v : K) (hq : q < n) (hj : j < B) :
    wr (tab2 n B f) (q * B + j) v = some (tab2 n B (upd2 f q j v)) := by
  unfold tab2
  rw [wr_tab v (flat_lt hq hj)]
  congr 1
  apply tab_congr
  intro p hp
  obtain ⟨q', j', hq', hj', rfl⟩ := flat_decomp hp
  rw [flat_div hj', flat_mod hj']
  unfold upd2
  by_cases h : q' * B + j' = q * B + j
  · rw [h, Function.update_self, if_pos ((flat_inj hj' hj).mp h)]
  · rw [Function.update_of_ne h, if_neg (fun h' => h ((flat_inj hj' hj).mpr h')), flat_div hj', flat_mod hj']

theorem ad_tab2 [Add K] {n B : ℕ} {f : ℕ → ℕ → K} {q j : ℕ} (v : K) (hq : q < n) (hj : j < B) :
    ad (tab2 n B f) (q * B + j) v = some (tab2 n B (upd2 f q j (f q j + v))) := by
  unfold ad md
  rw [getElem?_tab2 hq hj]
  show some _ = _
  rw [← wr_tab2 _ hq hj, wr_eq _ (by simpa using flat_lt hq hj)]

/-- Any buffer of the right length is a two-dimensional table. -/
theorem eq_tab2_getD [Zero K] (b : List K) {n B : ℕ} (h : b.length = n * B) :
    b = tab2 n B (fun q j => b[q * B + j]?.getD 0) := by
  rw [eq_tab2_iff]
  refine ⟨h, fun q hq j hj => ?_⟩
  have : q * B + j < b.length := by rw [h]; exact flat_lt hq hj
  simp [this]

end Verif
