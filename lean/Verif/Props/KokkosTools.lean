import Verif.Lemmas.Kokkos.Tools
import Verif.Spec.Views

/-!
# Properties of the view conversions (C55)
-/

namespace Verif.Props
open Verif.Kokkos Verif.Spec

variable {K : Type} [Zero K]

theorem rows2_length {x : List (List K)} {n m : ℕ} (h : Rect2 x n m) : (rows2 x).length = n * m := by
  obtain ⟨rfl, h⟩ := h
  unfold rows2
  induction x with
  | nil => simp
  | cons r x ih =>
    rw [List.flatten_cons, List.length_append, ih (fun r hr => h r (List.mem_cons_of_mem _ hr)), h r List.mem_cons_self,
      List.length_cons, Nat.succ_mul, add_comm]

theorem rows2_get {x : List (List K)} {n m : ℕ} (h : Rect2 x n m) {i j : ℕ} (hj : j < m) :
    (rows2 x)[i * m + j]? = (x[i]?).bind (fun r => r[j]?) := by
  obtain ⟨-, h⟩ := h
  unfold rows2
  induction x generalizing i with
  | nil => simp
  | cons r x ih =>
    have hr := h r List.mem_cons_self
    rw [List.flatten_cons]
    cases i with
    | zero => simp [List.getElem?_append, hr, hj]
    | succ i =>
      rw [List.getElem?_append_right (by rw [hr, Nat.succ_mul]; omega), List.getElem?_cons_succ,
        ← ih (fun r hr => h r (List.mem_cons_of_mem _ hr)), hr]
      congr 1
      rw [Nat.succ_mul]; omega

theorem rows3_rect {x : List (List (List K))} {n m l : ℕ} (h : Rect3 x n m l) : Rect2 (x.map List.flatten) n (m * l) := by
  refine ⟨by simp [h.1], fun r hr => ?_⟩
  obtain ⟨s, hs, rfl⟩ := List.mem_map.mp hr
  exact rows2_length (h.2 s hs)

theorem rows3_length {x : List (List (List K))} {n m l : ℕ} (h : Rect3 x n m l) : (rows3 x).length = n * m * l := by
  unfold rows3
  rw [mul_assoc]
  exact rows2_length (rows3_rect h)

theorem rows3_get {x : List (List (List K))} {n m l : ℕ} (h : Rect3 x n m l) {i j k : ℕ} (hj : j < m) (hk : k < l) :
    (rows3 x)[(i * m + j) * l + k]? = (x[i]?).bind (fun r => (r[j]?).bind (fun s => s[k]?)) := by
  have e : (i * m + j) * l + k = i * (m * l) + (j * l + k) := by ring
  unfold rows3
  rw [e]
  refine (rows2_get (rows3_rect h) (flat_lt hj hk)).trans ?_
  rw [List.getElem?_map]
  cases hx : x[i]? with
  | none => rfl
  | some r => exact rows2_get (h.2 r (List.mem_of_getElem? hx)) hk

/-- C55, rank 1: element `i` of the view is element `i` of the vector; converting back gives the vector. -/
theorem C55_roundtrip1 (x : List K) :
    ∃ v, toView1 x = some v ∧ v.ext = [x.length] ∧ (∀ i < x.length, v.get [i] = x[i]?) ∧ ofView1 v = some x :=
  ⟨_, toView1_eq x, rfl, fun _ hi => get_mk (flat_one hi), ofView1_eq x⟩

/-- C55, rank 2. -/
theorem C55_roundtrip2 (x : List (List K)) (n m : ℕ) (hx : Rect2 x n m) :
    ∃ v, toView2 (rows2 x) n m = some v ∧ v.ext = [n, m] ∧
      (∀ i < n, ∀ j < m, v.get [i, j] = (x[i]?).bind (fun r => r[j]?)) ∧ ofView2 v = some (rows2 x) := by
  have hl := rows2_length hx
  refine ⟨_, toView2_eq _ n m (by omega), rfl, fun i hi j hj => ?_, ?_⟩
  · rw [get_mk (flat_two hi hj), List.getElem?_take_of_lt (flat_lt hi hj), rows2_get hx hj]
  · rw [List.take_of_length_le (by omega)]; exact ofView2_eq _ n m hl

/-- C55, rank 3. -/
theorem C55_roundtrip3 (x : List (List (List K))) (n m l : ℕ) (hx : Rect3 x n m l) :
    ∃ v, toView3 (rows3 x) n m l = some v ∧ v.ext = [n, m, l] ∧
      (∀ i < n, ∀ j < m, ∀ k < l, v.get [i, j, k] = (x[i]?).bind (fun r => (r[j]?).bind (fun s => s[k]?))) ∧
      ofView3 v = some (rows3 x) := by
  have hl := rows3_length hx
  refine ⟨_, toView3_eq _ n m l (by omega), rfl, fun i hi j hj k hk => ?_, ?_⟩
  · rw [get_mk (flat_three hi hj hk), List.getElem?_take_of_lt (flat3_lt hi hj hk), rows3_get hx hj hk]
  · rw [List.take_of_length_le (by omega)]; exact ofView3_eq _ n m l hl

/-- C55, the other direction: a view written to a vector and read back is the same view. -/
theorem C55_roundtrip_back (v : View K) (hv : v.Ok) :
    (∀ n, v.ext = [n] → (ofView1 v).bind toView1 = some v) ∧
    (∀ n m, v.ext = [n, m] → (ofView2 v).bind (fun x => toView2 x n m) = some v) ∧
    ∀ n m l, v.ext = [n, m, l] → (ofView3 v).bind (fun x => toView3 x n m l) = some v := by
  obtain ⟨E, d⟩ := v
  unfold View.Ok at hv
  dsimp only at hv
  refine ⟨?_, ?_, ?_⟩
  · rintro n rfl
    have hn : d.length = n := by simpa using hv
    subst hn
    rw [ofView1_eq, Option.bind_some, toView1_eq]
  · rintro n m rfl
    have hn : d.length = n * m := by simpa using hv
    rw [ofView2_eq d n m hn, Option.bind_some, toView2_eq d n m (by omega), List.take_of_length_le (by omega)]
  · rintro n m l rfl
    have hn : d.length = n * m * l := by simpa [mul_assoc] using hv
    rw [ofView3_eq d n m l hn, Option.bind_some, toView3_eq d n m l (by omega), List.take_of_length_le (by omega)]

/-- C55, `set_kokkos_view`: whatever the view was before, it ends with the requested extents and the row-major contents. -/
theorem C55_set_view (v : View K) (x : List K) (ext : List ℕ) (hx : x.length = ext.prod) :
    ∃ w, setView v x ext = some w ∧ w.ext = ext ∧ w.Ok ∧ ∀ is p, flat ext is 0 = some p → w.get is = x[p]? := by
  unfold setView
  rw [if_pos (by omega)]
  have he : (if v.ext = ext then v else View.new ext 0).ext = ext := by
    split
    · assumption
    · rfl
  refine ⟨_, rfl, he, ?_, fun is p hp => ?_⟩
  · unfold View.Ok; dsimp only; rw [he]; simp [hx]
  · rw [he, get_mk hp, List.take_of_length_le (by omega)]

example : Rect3 [[[1, 2, 3], [4, 5, 6]]] 1 2 3 := by
  refine ⟨rfl, fun r hr => ?_⟩
  simp only [List.mem_singleton] at hr
  subst hr
  exact ⟨rfl, by simp⟩

example : (toView2 [1, 2, 3, 4, 5, 6] 2 3).bind (fun v => v.get [1, 0]) = some 4 := by decide

/-- The conversion does not check the length of the vector: extra elements are dropped, missing ones are read out of bounds. -/
example : toView2 [1, 2, 3] 2 2 = none ∧ (toView2 [1, 2, 3, 4, 5] 2 2).bind ofView2 = some [1, 2, 3, 4] := by decide

end Verif.Props
