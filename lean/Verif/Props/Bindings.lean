import Verif.Spec.Bindings
import Mathlib.Tactic.Ring
import Mathlib.Tactic.Linarith

/-! # Property C86: array arguments of the Python bindings -/

namespace Verif.Props
open Verif.Bindings Verif.Spec

variable {K : Type}

/-- Row-major position. -/
def rowPos : List ℕ → List ℕ → ℕ
  | _ :: ns, i :: is => i * ns.prod + rowPos ns is
  | _, _ => 0

theorem range_flatMap (n P : ℕ) : (List.range n).flatMap (fun i => (List.range P).map (fun p => i * P + p)) = List.range (n * P) := by
  induction n with
  | zero => simp
  | succ n ih => rw [List.range_succ, List.flatMap_append, ih, Nat.succ_mul, List.range_add]; simp

theorem indices_map (shape : List ℕ) : (indices shape).map (rowPos shape) = List.range shape.prod := by
  induction shape with
  | nil => rfl
  | cons n ns ih =>
    rw [List.prod_cons, ← range_flatMap, ← ih]
    simp only [indices, List.map_flatMap, List.map_map]
    rfl

theorem pos_contig {shape : List ℕ} {ss : List ℤ} (h : CContiguous shape ss) : ∀ idx ∈ indices shape, ∀ o : ℤ,
    pos o ss idx = o + rowPos shape idx := by
  induction shape generalizing ss with
  | nil =>
    intro idx hi o
    simp only [indices, List.mem_singleton] at hi
    subst hi
    rw [show ss = [] from h]
    simp [pos, rowPos]
  | cons n ns ih =>
    cases ss with
    | nil => exact h.elim
    | cons s ss =>
      intro idx hi o
      simp only [indices, List.mem_flatMap, List.mem_range, List.mem_map] at hi
      obtain ⟨i, hi, is, his, rfl⟩ := hi
      rw [pos, ih h.2 is his, rowPos]
      rcases h.1 with h1 | h1
      · obtain rfl : i = 0 := by omega
        simp
      · rw [h1]
        push_cast
        ring

theorem elem_contig {a : NdArray K} (h : CContiguous a.shape a.strides) {idx : List ℕ} (hi : idx ∈ indices a.shape) :
    elem a idx = a.buf[a.offset + rowPos a.shape idx]? := by
  unfold elem
  rw [pos_contig h idx hi]
  have : (a.offset : ℤ) + rowPos a.shape idx = ((a.offset + rowPos a.shape idx : ℕ) : ℤ) := by push_cast; ring
  simp only [this]
  rw [if_neg (by omega), Int.toNat_natCast]

theorem mapM_congr' {α β : Type} {l : List α} {f g : α → Option β} (h : ∀ x ∈ l, f x = g x) : l.mapM f = l.mapM g := by
  induction l with
  | nil => rfl
  | cons x l ih => rw [List.mapM_cons, List.mapM_cons, h x (by simp), ih (fun y hy => h y (by simp [hy]))]

theorem mapM_map' {α β γ : Type} (l : List α) (k : α → β) (f : β → Option γ) : (l.map k).mapM f = l.mapM (fun x => f (k x)) := by
  induction l with
  | nil => rfl
  | cons x l ih => rw [List.map_cons, List.mapM_cons, List.mapM_cons, ih]

theorem mapM_some {α β : Type} {l : List α} {f : α → β} : l.mapM (fun x => some (f x)) = some (l.map f) := by
  induction l with
  | nil => rfl
  | cons x l ih => rw [List.mapM_cons, ih]; rfl

theorem mapM_ext {α β : Type} {l : List α} {f : α → β} {g : α → Option β} (h : l.mapM g = some (l.map f)) : ∀ x ∈ l, g x = some (f x) := by
  induction l with
  | nil => intro x hx; simp at hx
  | cons x l ih =>
    rw [List.mapM_cons] at h
    cases hx : g x with
    | none => rw [hx] at h; simp at h
    | some y =>
      cases hl : l.mapM g with
      | none => rw [hx, hl] at h; simp at h
      | some ys =>
        rw [hx, hl] at h
        simp only [Option.bind_eq_bind, Option.bind_some, Option.pure_def, List.map_cons, Option.some.injEq, List.cons.injEq] at h
        intro z hz
        rcases List.mem_cons.mp hz with rfl | hz
        · rw [hx, h.1]
        · exact ih (by rw [hl, h.2]) z hz

theorem span_eq (a : NdArray K) : a.span = (indices a.shape).mapM (fun idx => a.buf[a.offset + rowPos a.shape idx]?) := by
  unfold NdArray.span NdArray.size
  rw [← indices_map, mapM_map']

theorem span_buf {a : NdArray K} (hin : a.offset + a.size ≤ a.buf.length) : a.span = some ((a.buf.drop a.offset).take a.size) := by
  unfold NdArray.span
  generalize a.size = m at *
  induction m with
  | zero => simp
  | succ m ih =>
    rw [List.range_succ, List.mapM_append, ih (by omega), List.take_succ]
    have e : (a.buf.drop a.offset)[m]? = a.buf[a.offset + m]? := by rw [List.getElem?_drop]
    rw [e]
    simp [List.getElem?_eq_getElem (show a.offset + m < a.buf.length by omega)]

theorem span_ravel {a : NdArray K} (h : CContiguous a.shape a.strides) : a.span = ravel a := by
  rw [span_eq]
  exact mapM_congr' (fun idx hi => (elem_contig h hi).symm)

/-- C86, what holds: a C-contiguous array argument is read in C order; an output argument of the right element type holds the results
in C order after the call, and the rest of its buffer keeps its value.  Missing: other layouts (`C86_violated`, `C86_exact`), outputs of
another element type (`C86_lost_output`). -/
theorem C86_arguments_partial (a : NdArray K) (hin : a.offset + a.size ≤ a.buf.length) (h : CContiguous a.shape a.strides) :
    (∃ xs, a.span = some xs ∧ ravel a = some xs ∧ xs.length = a.size) ∧
    ∀ ys : List K, ys.length = a.size → ∃ a', outArgument true a ys = some a' ∧ ravel a' = some ys ∧
      a'.buf.length = a.buf.length ∧ ∀ p, p < a.offset ∨ a.offset + a.size ≤ p → a'.buf[p]? = a.buf[p]? := by
  refine ⟨⟨_, span_buf hin, by rw [← span_ravel h, span_buf hin], by simp; omega⟩, fun ys hys => ?_⟩
  refine ⟨{ a with buf := a.buf.take a.offset ++ ys ++ a.buf.drop (a.offset + ys.length) }, ?_, ?_, ?_, fun p hp => ?_⟩
  · unfold outArgument NdArray.writeSpan
    rw [if_pos rfl, if_pos (by omega)]
  · refine (span_ravel (a := ⟨a.buf.take a.offset ++ ys ++ a.buf.drop (a.offset + ys.length), a.offset, a.shape, a.strides⟩) h).symm.trans ?_
    rw [span_buf]
    · congr 1
      show ((a.buf.take a.offset ++ ys ++ a.buf.drop (a.offset + ys.length)).drop a.offset).take a.size = ys
      have hl : (a.buf.take a.offset).length = a.offset := by simp; omega
      rw [List.append_assoc, List.drop_append_of_le_length (by omega), List.drop_of_length_le (by omega), List.nil_append, ← hys,
        List.take_left]
    · show a.offset + a.size ≤ (a.buf.take a.offset ++ ys ++ a.buf.drop (a.offset + ys.length)).length
      simp
      omega
  · simp
    omega
  · have hl : (a.buf.take a.offset).length = a.offset := by simp; omega
    show (a.buf.take a.offset ++ ys ++ a.buf.drop (a.offset + ys.length))[p]? = _
    rcases hp with hp | hp
    · rw [List.append_assoc, List.getElem?_append_left (by omega), List.getElem?_take_of_lt hp]
    · rw [List.getElem?_append_right (by simp; omega), List.getElem?_drop]
      congr 1
      simp
      omega

example : CContiguous [2, 1, 3] [3, 17, 1] ∧ (⟨List.range 7, 1, [2, 1, 3], [3, 17, 1]⟩ : NdArray ℕ).size = 6 := by
  simp [CContiguous, NdArray.size]

/-- C86 fails for views with other strides: `x[::2]` is read as the first half of `x`, a transposed matrix is read untransposed, and
`x[::-1]` reads behind the end of `x`. -/
theorem C86_violated :
    (⟨[1, 2, 3, 4], 0, [2], [2]⟩ : NdArray ℕ).span = some [1, 2] ∧ ravel (⟨[1, 2, 3, 4], 0, [2], [2]⟩ : NdArray ℕ) = some [1, 3] ∧
    (⟨[1, 2, 3, 4], 0, [2, 2], [1, 2]⟩ : NdArray ℕ).span = some [1, 2, 3, 4] ∧
    ravel (⟨[1, 2, 3, 4], 0, [2, 2], [1, 2]⟩ : NdArray ℕ) = some [1, 3, 2, 4] ∧
    (⟨[1, 2, 3, 4], 3, [4], [-1]⟩ : NdArray ℕ).span = none ∧ ravel (⟨[1, 2, 3, 4], 3, [4], [-1]⟩ : NdArray ℕ) = some [4, 3, 2, 1] := by
  refine ⟨?_, ?_, ?_, ?_, ?_, ?_⟩ <;> decide

theorem zeros_mem {shape : List ℕ} (h : ∀ n ∈ shape, 0 < n) : shape.map (fun _ => 0) ∈ indices shape := by
  induction shape with
  | nil => simp [indices]
  | cons n ns ih =>
    simp only [indices, List.mem_flatMap, List.mem_range, List.mem_map, List.map_cons]
    exact ⟨0, h n (by simp), _, ih (fun m hm => h m (by simp [hm])), rfl⟩

theorem pos_zeros (shape : List ℕ) : ∀ (ss : List ℤ) (o : ℤ), pos o ss (shape.map (fun _ => 0)) = o := by
  induction shape with
  | nil => intro ss o; cases ss <;> rfl
  | cons n ns ih =>
    intro ss o
    cases ss with
    | nil => rfl
    | cons s ss => rw [List.map_cons, pos, ih]; simp

theorem rowPos_zeros (shape : List ℕ) : rowPos shape (shape.map (fun _ => 0)) = 0 := by
  induction shape with
  | nil => rfl
  | cons n ns ih => rw [List.map_cons, rowPos, ih]; simp

theorem contig_of_pos {shape : List ℕ} : ∀ {ss : List ℤ}, (∀ n ∈ shape, 0 < n) → ss.length = shape.length → ∀ o : ℤ,
    (∀ idx ∈ indices shape, pos o ss idx = o + rowPos shape idx) → CContiguous shape ss := by
  induction shape with
  | nil => intro ss _ hl o _; exact List.length_eq_zero_iff.mp hl
  | cons n ns ih =>
    intro ss hp hl o h
    cases ss with
    | nil => simp at hl
    | cons s ss =>
      have hp' : ∀ m ∈ ns, 0 < m := fun m hm => hp m (by simp [hm])
      have hmem : ∀ i < n, ∀ is ∈ indices ns, i :: is ∈ indices (n :: ns) := by
        intro i hi is his
        simp only [indices, List.mem_flatMap, List.mem_range, List.mem_map]
        exact ⟨i, hi, is, his, rfl⟩
      refine ⟨?_, ih hp' (by simpa using hl) o (fun is his => ?_)⟩
      · by_cases h1 : n = 1
        · exact Or.inl h1
        · right
          have h2 := hp n (by simp)
          have := h _ (hmem 1 (by omega) _ (zeros_mem hp'))
          rw [pos, rowPos, pos_zeros, rowPos_zeros] at this
          push_cast at this
          push_cast
          linarith
      · have := h _ (hmem 0 (hp n (by simp)) is his)
        rw [pos, rowPos] at this
        simpa using this

/-- The layouts for which the bindings read the elements of the array whatever the contents of the buffer are exactly the C-contiguous
ones (arrays with elements). -/
theorem C86_exact (offset : ℕ) (shape : List ℕ) (strides : List ℤ) (hp : ∀ n ∈ shape, 0 < n) (hl : strides.length = shape.length) :
    (∀ buf : List ℕ, (⟨buf, offset, shape, strides⟩ : NdArray ℕ).span = ravel (⟨buf, offset, shape, strides⟩ : NdArray ℕ)) ↔
      CContiguous shape strides := by
  refine ⟨fun h => contig_of_pos hp hl offset (fun idx hi => ?_), fun h buf => span_ravel (a := ⟨buf, offset, shape, strides⟩) h⟩
  have hb : ∀ idx ∈ indices shape, rowPos shape idx < shape.prod := by
    intro idx hi
    have : rowPos shape idx ∈ (indices shape).map (rowPos shape) := List.mem_map_of_mem hi
    rw [indices_map] at this
    simpa using this
  have := h (List.range (offset + shape.prod))
  rw [span_eq] at this
  have e : (indices shape).mapM (fun idx => (List.range (offset + shape.prod))[offset + rowPos shape idx]?) =
      some ((indices shape).map (fun idx => offset + rowPos shape idx)) := by
    rw [← mapM_some]
    refine mapM_congr' (fun idx hi => ?_)
    have := hb idx hi
    rw [List.getElem?_range (by omega)]
  rw [show (indices shape).mapM _ = _ from e] at this
  have := mapM_ext this.symm idx hi
  unfold elem at this
  dsimp only at this
  by_cases hn : pos offset strides idx < 0
  · rw [if_pos hn] at this
    simp at this
  · rw [if_neg hn] at this
    obtain ⟨hlt, heq⟩ := List.getElem?_eq_some_iff.mp this
    rw [List.getElem_range] at heq
    omega

/-- C86 fails for outputs of another element type (such as `numpy.float32`): whatever the results, the caller's array is unchanged. -/
theorem C86_lost_output (a : NdArray K) (ys : List K) : outArgument false a ys = some a := rfl

end Verif.Props
