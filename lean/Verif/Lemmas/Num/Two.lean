import Verif.Model.Num
import Mathlib.Tactic.Ring

/-!
# Two runs of the evaluator whose buffers hold different old contents

`Two R x y`: if both computations succeed, the results are related.  `Agr L S xs ys`: two buffers of length `L` have the same
contents at the positions `S`.  Writing extends `S`; a buffer whose positions have all been written is equal in both runs.
-/

namespace Verif.Num

variable {α β γ δ : Type}

def Two (R : α → β → Prop) (x : Option α) (y : Option β) : Prop := ∀ a b, x = some a → y = some b → R a b

theorem Two.pure {R : α → β → Prop} {a : α} {b : β} (h : R a b) : Two R (Pure.pure a) (Pure.pure b) := by
  rintro _ _ ⟨⟩ ⟨⟩; exact h

theorem Two.some {R : α → β → Prop} {a : α} {b : β} (h : R a b) : Two R (some a) (some b) := by
  rintro _ _ ⟨⟩ ⟨⟩; exact h

theorem Two.bind {R : α → β → Prop} {S : γ → δ → Prop} {x : Option α} {y : Option β} {f : α → Option γ} {g : β → Option δ} (h : Two R x y)
    (hf : ∀ a b, R a b → Two S (f a) (g b)) : Two S (x >>= f) (y >>= g) := by
  intro c d hc hd
  obtain ⟨a, h1, h2⟩ := Option.bind_eq_some_iff.mp hc
  obtain ⟨b, h3, h4⟩ := Option.bind_eq_some_iff.mp hd
  exact hf a b (h a b h1 h3) c d h2 h4

theorem Two.map {R : α → β → Prop} {S : γ → δ → Prop} {x : Option α} {y : Option β} {f : α → γ} {g : β → δ} (h : Two R x y)
    (hf : ∀ a b, R a b → S (f a) (g b)) : Two S (x.map f) (y.map g) := by
  intro c d hc hd
  obtain ⟨a, h1, rfl⟩ := Option.map_eq_some_iff.mp hc
  obtain ⟨b, h3, rfl⟩ := Option.map_eq_some_iff.mp hd
  exact hf a b (h a b h1 h3)

theorem Two.same {S : γ → δ → Prop} {x : Option α} {f : α → Option γ} {g : α → Option δ} (hf : ∀ a, x = Option.some a → Two S (f a) (g a)) :
    Two S (x >>= f) (x >>= g) := by
  intro c d hc hd
  obtain ⟨a, h1, h2⟩ := Option.bind_eq_some_iff.mp hc
  obtain ⟨b, h3, h4⟩ := Option.bind_eq_some_iff.mp hd
  rw [h1] at h3
  cases h3
  exact hf a h1 c d h2 h4

theorem Two.mono {R R' : α → β → Prop} {x : Option α} {y : Option β} (h : Two R x y) (hR : ∀ a b, R a b → R' a b) : Two R' x y :=
  fun a b ha hb => hR a b (h a b ha hb)

theorem Two.refl {x : Option α} : Two Eq x x := fun a b ha hb => by rw [ha] at hb; exact Option.some.inj hb

theorem Two.loop {N : ℕ} {f : ℕ → α → Option α} {g : ℕ → β → Option β} {a : α} {b : β} (R : ℕ → α → β → Prop) (h0 : R 0 a b)
    (hs : ∀ i < N, ∀ a b, R i a b → Two (R (i + 1)) (f i a) (g i b)) : Two (R N) (loop N f a) (loop N g b) := by
  induction N with
  | zero => exact Two.some h0
  | succ N ih => exact Two.bind (ih fun i hi => hs i (by omega)) fun a b h => hs N (by omega) a b h

/-- Edges `c .. c+n-1`. -/
theorem Two.edges {n c : ℕ} {f : ℕ → α → Option α} {g : ℕ → β → Option β} {a : α} {b : β} (R : ℕ → α → β → Prop) (h0 : R c a b)
    (hs : ∀ e, c ≤ e → e < c + n → ∀ a b, R e a b → Two (R (e + 1)) (f e a) (g e b)) :
    Two (fun q q' => q.1 = c + n ∧ q'.1 = c + n ∧ R (c + n) q.2 q'.2) (edgesFrom n f (c, a)) (edgesFrom n g (c, b)) := by
  rw [edgesFrom_eq, edgesFrom_eq]
  exact Two.map (Two.loop (fun j => R (c + j)) h0 fun i hi a b h => hs (c + i) (by omega) (by omega) a b h) fun a b h => ⟨rfl, rfl, h⟩

theorem Two.cnt {n c : ℕ} {f : ℕ → ℕ → α → Option α} {g : ℕ → ℕ → β → Option β} {a : α} {b : β} (R : ℕ → α → β → Prop) (h0 : R 0 a b)
    (hs : ∀ k < n, ∀ a b, R k a b → Two (R (k + 1)) (f k (c + k) a) (g k (c + k) b)) :
    Two (fun q q' => q.1 = c + n ∧ q'.1 = c + n ∧ R n q.2 q'.2) (cnt n f (c, a)) (cnt n g (c, b)) := by
  rw [cnt_eq, cnt_eq]
  exact Two.map (Two.loop R h0 hs) fun a b h => ⟨rfl, rfl, h⟩

/-- Equal contents at the positions `S`. -/
structure Agr (L : ℕ) (S : ℕ → Prop) (xs ys : List α) : Prop where
  l : xs.length = L
  l' : ys.length = L
  eq : ∀ i, S i → xs[i]? = ys[i]?

section agr
variable {L : ℕ} {S S' : ℕ → Prop} {xs ys : List α}

theorem Agr.mono (h : Agr L S xs ys) (hS : ∀ i < L, S' i → S i) : Agr L S' xs ys := by
  refine ⟨h.l, h.l', fun i hi => ?_⟩
  by_cases hl : i < L
  · exact h.eq i (hS i hl hi)
  · rw [List.getElem?_eq_none (by rw [h.l]; omega), List.getElem?_eq_none (by rw [h.l']; omega)]

theorem Agr.refl (xs : List α) : Agr xs.length S xs xs := ⟨rfl, rfl, fun _ _ => rfl⟩

theorem Agr.refl' (h : xs.length = L) : Agr L S xs xs := ⟨h, h, fun _ _ => rfl⟩

theorem Agr.full (h : Agr L S xs ys) (hS : ∀ i < L, S i) : xs = ys := by
  refine List.ext_getElem? fun i => ?_
  exact (h.mono (S' := fun _ => True) fun i hi _ => hS i hi).eq i trivial

theorem Agr.pre (h : Agr L (· < L) xs ys) : xs = ys := h.full fun _ hi => hi

theorem Agr.wr {i : ℕ} {v : α} (h : Agr L S xs ys) : Two (Agr L fun p => S p ∨ p = i) (wr xs i v) (wr ys i v) := by
  unfold Verif.wr
  by_cases hi : i < L
  · rw [if_pos (by rw [h.l]; exact hi), if_pos (by rw [h.l']; exact hi)]
    refine Two.some ⟨by simp [h.l], by simp [h.l'], fun p hp => ?_⟩
    by_cases he : i = p
    · subst he
      rw [List.getElem?_set_self (by rw [h.l]; exact hi), List.getElem?_set_self (by rw [h.l']; exact hi)]
    · rw [List.getElem?_set_ne he, List.getElem?_set_ne he]
      exact h.eq p (hp.resolve_right fun h => he h.symm)
  · rw [if_neg (by rw [h.l]; exact hi)]
    rintro _ _ ⟨⟩

/-- Writing the next position. -/
theorem Agr.wrNext {n i : ℕ} {v : α} (h : Agr L (· < n) xs ys) (hi : i = n) : Two (Agr L (· < n + 1)) (Verif.wr xs i v) (Verif.wr ys i v) :=
  h.wr.mono fun _ _ h => h.mono fun _ _ _ => by omega

theorem Agr.wrKeep {i : ℕ} {v : α} (h : Agr L S xs ys) : Two (Agr L S) (Verif.wr xs i v) (Verif.wr ys i v) :=
  h.wr.mono fun _ _ h => h.mono fun _ _ h => Or.inl h

theorem Agr.bind {R : γ → δ → Prop} {i : ℕ} {f : α → Option γ} {g : α → Option δ} (h : Agr L S xs ys) (hi : S i)
    (hf : ∀ a, Two R (f a) (g a)) : Two R (xs[i]? >>= f) (ys[i]? >>= g) := by
  rw [h.eq i hi]
  exact Two.same fun a _ => hf a

theorem Agr.md {i : ℕ} {f : α → α} (h : Agr L S xs ys) (hi : S i) : Two (Agr L S) (md xs i f) (md ys i f) := by
  unfold Verif.md
  rw [h.eq i hi]
  cases hx : ys[i]? with
  | none => rintro _ _ ⟨⟩
  | some v =>
    refine Two.some ⟨by simp [h.l], by simp [h.l'], fun p hp => ?_⟩
    rw [List.getElem?_set, List.getElem?_set, h.l, h.l', h.eq p hp]

/-- Overwriting by a function that ignores the old contents. -/
theorem Agr.mdNext {n i : ℕ} {v : α} (h : Agr L (· < n) xs ys) (hi : i = n) : Two (Agr L (· < n + 1)) (Verif.md xs i fun _ => v) (Verif.md ys i fun _ => v) := by
  unfold Verif.md
  by_cases hl : i < L
  · rw [List.getElem?_eq_getElem (by rw [h.l]; exact hl), List.getElem?_eq_getElem (by rw [h.l']; exact hl)]
    refine Two.some ⟨by simp [h.l], by simp [h.l'], fun p hp => ?_⟩
    by_cases he : i = p
    · subst he
      rw [List.getElem?_set_self (by rw [h.l]; exact hl), List.getElem?_set_self (by rw [h.l']; exact hl)]
    · rw [List.getElem?_set_ne he, List.getElem?_set_ne he, h.eq p (by omega)]
  · rw [List.getElem?_eq_none (by rw [h.l]; omega)]
    rintro _ _ ⟨⟩

end agr

theorem agr_resize {K : Type} [Zero K] (xs ys : List K) (n : ℕ) : Agr n (· < 0) (resize xs n) (resize ys n) :=
  ⟨by simp [resize]; omega, by simp [resize]; omega, fun i hi => absurd hi (by omega)⟩

theorem agr_eq {xs ys : List α} {n : ℕ} {S : ℕ → Prop} (h : xs = ys) (hn : xs.length = n) : Agr n S xs ys := h ▸ Agr.refl' hn

section blas
variable {K : Type} [A : Arith K] {L : ℕ} {c c' : List K}

theorem gemm_two {ta tb : Bool} {m n k : ℕ} {a : List K} {aoff lda : ℕ} {b : List K} {boff ldb coff ldc : ℕ} (hl : ldc = n)
    (h : Agr L (· < coff) c c') :
    Two (Agr L (· < coff + m * n)) (gemm ta tb m n k a aoff lda b boff ldb coff ldc c) (gemm ta tb m n k a aoff lda b boff ldb coff ldc c') := by
  subst hl
  unfold gemm
  refine Two.loop (fun i => Agr L (· < coff + i * ldc)) (h.mono fun _ _ _ => by omega) fun i _ c c' h => ?_
  refine Two.mono (Two.loop (fun j => Agr L (· < coff + i * ldc + j)) h fun j _ c c' h => Two.same fun v _ => h.wrNext rfl) fun _ _ h =>
    h.mono fun p _ hp => by rw [add_mul, one_mul] at hp; omega

theorem gemv_two {tr : Bool} {m n : ℕ} {a : List K} {lda : ℕ} {x : List K} {xoff yoff : ℕ} (h : Agr L (· < yoff) c c') :
    Two (Agr L (· < yoff + if tr then n else m)) (gemv tr m n a lda x xoff false yoff c) (gemv tr m n a lda x xoff false yoff c') := by
  unfold gemv
  refine Two.loop (fun i => Agr L (· < yoff + i)) h fun i _ c c' h => ?_
  exact Two.same fun z _ => Two.same fun v _ => h.wrNext rfl

theorem gemvAcc_two {S : ℕ → Prop} {tr : Bool} {m n : ℕ} {a : List K} {lda : ℕ} {x : List K} {xoff yoff : ℕ} (h : Agr L S c c')
    (hS : ∀ i < (if tr then n else m), S (yoff + i)) :
    Two (Agr L S) (gemv tr m n a lda x xoff true yoff c) (gemv tr m n a lda x xoff true yoff c') := by
  unfold gemv
  refine Two.loop (fun _ => Agr L S) h fun i hi c c' h => ?_
  simp only [if_true]
  rw [h.eq _ (hS i hi)]
  exact Two.same fun z _ => Two.same fun v _ => h.wrKeep

end blas

end Verif.Num
