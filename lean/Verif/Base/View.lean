import Verif.Base.Loop

/-!
# Multi-dimensional arrays

`View`: a Kokkos view with row-major layout (`LayoutRight`): extents and contiguous storage.  An index outside the extents is
undefined behaviour (`none`), also where the flattened position would still lie in the storage.
-/

namespace Verif

/-- Position of index `is` in a row-major array with extents `ns`, starting from row `a`. -/
def flat : List ℕ → List ℕ → ℕ → Option ℕ
  | [], [], a => some a
  | n :: ns, i :: is, a => if i < n then flat ns is (a * n + i) else none
  | _, _, _ => none

structure View (K : Type) where
  ext : List ℕ
  data : List K

namespace View
variable {K : Type}

/-- Position of an index, checked. -/
def ix (v : View K) (is : List ℕ) : Option ℕ := flat v.ext is 0

/-- `v(is)`, checked. -/
def get (v : View K) (is : List ℕ) : Option K := (flat v.ext is 0).bind (fun p => v.data[p]?)

/-- `v(is) = x`, checked. -/
def set (v : View K) (is : List ℕ) (x : K) : Option (View K) :=
  (flat v.ext is 0).bind (fun p => (wr v.data p x).map (fun d => ⟨v.ext, d⟩))

/-- Extent of dimension `d` (`0` beyond the rank). -/
def extent (v : View K) (d : ℕ) : ℕ := v.ext.getD d 0

/-- Allocation; the storage is initialised with `x`. -/
def new (ext : List ℕ) (x : K) : View K := ⟨ext, List.replicate ext.prod x⟩

/-- `Kokkos::deep_copy(v, x)` with a scalar. -/
def fill (v : View K) (x : K) : View K := ⟨v.ext, List.replicate v.data.length x⟩

/-- The storage fits the extents. -/
def Ok (v : View K) : Prop := v.data.length = v.ext.prod

end View

theorem flat_bounds {ns is : List ℕ} {a p : ℕ} (h : flat ns is a = some p) : a * ns.prod ≤ p ∧ p < (a + 1) * ns.prod := by
  induction ns generalizing is a with
  | nil =>
    cases is with
    | nil => simp only [flat, Option.some.injEq] at h; subst h; simp
    | cons i is => simp [flat] at h
  | cons n ns ih =>
    cases is with
    | nil => simp [flat] at h
    | cons i is =>
      simp only [flat] at h
      split at h
      · rename_i hi
        obtain ⟨h1, h2⟩ := ih h
        rw [List.prod_cons]
        constructor
        · calc a * (n * ns.prod) = (a * n) * ns.prod := by ring
            _ ≤ (a * n + i) * ns.prod := Nat.mul_le_mul_right _ (by omega)
            _ ≤ p := h1
        · calc p < (a * n + i + 1) * ns.prod := h2
            _ ≤ (a * n + n) * ns.prod := Nat.mul_le_mul_right _ (by omega)
            _ = (a + 1) * (n * ns.prod) := by ring
      · cases h

theorem flat_index_inj {ns is js : List ℕ} {a b p : ℕ} (h : flat ns is a = some p) (h' : flat ns js b = some p) :
    is = js ∧ a = b := by
  induction ns generalizing is js a b with
  | nil =>
    cases is <;> cases js <;> simp only [flat, Option.some.injEq, reduceCtorEq] at h h'
    exact ⟨rfl, by omega⟩
  | cons n ns ih =>
    cases is with
    | nil => simp [flat] at h
    | cons i is =>
      cases js with
      | nil => simp [flat] at h'
      | cons j js =>
        simp only [flat] at h h'
        split at h
        · split at h'
          · rename_i hi hj
            obtain ⟨h1, h2⟩ := ih h h'
            obtain ⟨h3, h4⟩ := (flat_inj hi hj).mp h2
            exact ⟨by rw [h1, h4], h3⟩
          · cases h'
        · cases h

theorem flat_lt_prod {ns is : List ℕ} {p : ℕ} (h : flat ns is 0 = some p) : p < ns.prod := by
  have := (flat_bounds h).2
  simpa using this

/-- Every position is the position of an index. -/
theorem exists_flat {ns : List ℕ} {a p : ℕ} (h1 : a * ns.prod ≤ p) (h2 : p < (a + 1) * ns.prod) : ∃ is, flat ns is a = some p := by
  induction ns generalizing a with
  | nil => exact ⟨[], by simp only [List.prod_nil] at h1 h2; simp only [flat, Option.some.injEq]; omega⟩
  | cons n ns ih =>
    rw [List.prod_cons] at h1 h2
    have hP : 0 < ns.prod := by
      rcases Nat.eq_zero_or_pos ns.prod with h | h
      · rw [h] at h1 h2; simp at h2
      · exact h
    have hq1 : a * n ≤ p / ns.prod := by
      rw [Nat.le_div_iff_mul_le hP, mul_assoc]; exact h1
    have hq2 : p / ns.prod < (a + 1) * n := by
      rw [Nat.div_lt_iff_lt_mul hP, mul_assoc]; exact h2
    rw [Nat.succ_mul] at hq2
    obtain ⟨is, h⟩ := ih (a := p / ns.prod) (Nat.div_mul_le_self p _) (by
      rw [Nat.succ_mul, mul_comm]; exact Nat.lt_mul_div_succ p hP |>.trans_eq (by ring))
    refine ⟨(p / ns.prod - a * n) :: is, ?_⟩
    simp only [flat]
    rw [if_pos (by omega), show a * n + (p / ns.prod - a * n) = p / ns.prod by omega]
    exact h

theorem flat_one {n i : ℕ} (hi : i < n) : flat [n] [i] 0 = some i := by simp [flat, hi]

theorem flat_two {n m i j : ℕ} (hi : i < n) (hj : j < m) : flat [n, m] [i, j] 0 = some (i * m + j) := by simp [flat, hi, hj]

theorem flat_three {n m l i j k : ℕ} (hi : i < n) (hj : j < m) (hk : k < l) :
    flat [n, m, l] [i, j, k] 0 = some ((i * m + j) * l + k) := by simp [flat, hi, hj, hk]

theorem flat_four {n m l o i j k q : ℕ} (hi : i < n) (hj : j < m) (hk : k < l) (hq : q < o) :
    flat [n, m, l, o] [i, j, k, q] 0 = some (((i * m + j) * l + k) * o + q) := by simp [flat, hi, hj, hk, hq]

theorem flat_two_some {n m i j p : ℕ} (h : flat [n, m] [i, j] 0 = some p) : i < n ∧ j < m ∧ p = i * m + j := by
  simp only [flat, zero_mul, zero_add] at h
  split_ifs at h with h1 h2
  exact ⟨h1, h2, (Option.some.inj h).symm⟩

theorem flat_three_some {n m l i j k p : ℕ} (h : flat [n, m, l] [i, j, k] 0 = some p) :
    i < n ∧ j < m ∧ k < l ∧ p = (i * m + j) * l + k := by
  simp only [flat, zero_mul, zero_add] at h
  split_ifs at h with h1 h2 h3
  exact ⟨h1, h2, h3, (Option.some.inj h).symm⟩

theorem flat_one_some {n i p : ℕ} (h : flat [n] [i] 0 = some p) : i < n ∧ p = i := by
  simp only [flat, zero_mul, zero_add] at h
  split_ifs at h with h1
  exact ⟨h1, (Option.some.inj h).symm⟩

namespace View
variable {K : Type}

theorem new_ok (ext : List ℕ) (x : K) : (new ext x).Ok := by simp [Ok, new]

theorem fill_ok {v : View K} (h : v.Ok) (x : K) : (v.fill x).Ok := by simpa [Ok, fill] using h

theorem get_new {ext is : List ℕ} {p : ℕ} (h : flat ext is 0 = some p) (x : K) : (new ext x).get is = some x := by
  unfold get new
  rw [h, Option.bind_some]
  simp [flat_lt_prod h]

theorem get_fill {v : View K} (hv : v.Ok) {is : List ℕ} {p : ℕ} (h : flat v.ext is 0 = some p) (x : K) :
    (v.fill x).get is = some x := by
  unfold get fill
  rw [h, Option.bind_some]
  have := flat_lt_prod h
  unfold Ok at hv
  simp [hv, this]

@[simp] theorem fill_ext (v : View K) (x : K) : (v.fill x).ext = v.ext := rfl

@[simp] theorem new_ext (ext : List ℕ) (x : K) : (new ext x).ext = ext := rfl

theorem set_spec {v : View K} (hv : v.Ok) {is : List ℕ} {p : ℕ} (h : flat v.ext is 0 = some p) (x : K) :
    ∃ w, v.set is x = some w ∧ w.ext = v.ext ∧ w.Ok ∧ w.get is = some x ∧ ∀ js, js ≠ is → w.get js = v.get js := by
  have hp := flat_lt_prod h
  rw [← hv] at hp
  refine ⟨⟨v.ext, v.data.set p x⟩, ?_, rfl, ?_, ?_, fun js hjs => ?_⟩
  · unfold set
    rw [h, Option.bind_some, wr_eq _ hp]
    rfl
  · simpa [Ok] using hv
  · unfold get
    rw [h, Option.bind_some]
    simp [hp]
  · unfold get
    cases hq : flat v.ext js 0 with
    | none => rfl
    | some q =>
      simp only [hq, Option.bind_some]
      rw [List.getElem?_set, if_neg]
      rintro rfl
      exact hjs (flat_index_inj hq h).1

theorem ext_of_get {v w : View K} (he : v.ext = w.ext) (hv : v.Ok) (hw : w.Ok) (h : ∀ is p, flat v.ext is 0 = some p → v.get is = w.get is) :
    v = w := by
  have hd : v.data = w.data := by
    apply List.ext_getElem?
    intro p
    by_cases hp : p < v.ext.prod
    · obtain ⟨is, hf⟩ := exists_flat (ns := v.ext) (a := 0) (p := p) (by omega) (by omega)
      have := h is p hf
      unfold get at this
      rwa [← he, hf, Option.bind_some, Option.bind_some] at this
    · rw [List.getElem?_eq_none (by rw [hv]; omega), List.getElem?_eq_none (by rw [hw, ← he]; omega)]
  cases v; cases w; cases he; cases hd; rfl

theorem get_some {v : View K} {is : List ℕ} {x : K} (h : v.get is = some x) : ∃ p, flat v.ext is 0 = some p := by
  unfold get at h
  obtain ⟨p, h1, _⟩ := Option.bind_eq_some_iff.mp h
  exact ⟨p, h1⟩

theorem exists_get {v : View K} (hv : v.Ok) {is : List ℕ} {p : ℕ} (h : flat v.ext is 0 = some p) : ∃ x, v.get is = some x := by
  unfold get
  rw [h, Option.bind_some]
  have := flat_lt_prod h
  rw [← hv] at this
  exact ⟨_, List.getElem?_eq_getElem this⟩

end View

end Verif
