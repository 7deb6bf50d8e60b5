import Verif.Model.Blas
import Verif.Base.Tab

/-! # Helper lemmas: BLAS calls on flat buffers -/

namespace Verif.Blas

variable {K : Type} [Field K]

/-- `gemm` writing a contiguous block. -/
theorem gemm_acts {ta tb : Bool} {m n k : ℕ} {alpha : K} {a : List K} {aoff lda : ℕ} {b : List K} {boff ldb : ℕ}
    {beta : K} {coff L : ℕ} {A B : ℕ → ℕ → K}
    (ha : ∀ i < m, ∀ p < k, a[mIdx ta aoff lda i p]? = some (A i p))
    (hb : ∀ p < k, ∀ j < n, b[mIdx tb boff ldb p j]? = some (B p j)) (hL : coff + m * n ≤ L) :
    Acts1 L (gemm ta tb m n k alpha a aoff lda b boff ldb beta coff n) (fun q x =>
      if coff ≤ q ∧ q < coff + m * n then
        alpha * (∑ p ∈ Finset.range k, A ((q - coff) / n) p * B p ((q - coff) % n)) + beta * x
      else x) := by
  have h : Acts1 L (gemm ta tb m n k alpha a aoff lda b boff ldb beta coff n)
      (fun q x => iter m (fun i x => iter n (fun j x => if q = coff + i * n + j then
        alpha * (∑ p ∈ Finset.range k, A i p * B p j) + beta * x else x) x) x) := by
    refine Acts1.loop (fun i hi => Acts1.loop (fun j hj => ?_))
    have hlt := flat_lt hi hj
    refine (Acts1.md (L := L) (i := coff + i * n + j) (by omega)
      (fun z => alpha * (∑ p ∈ Finset.range k, A i p * B p j) + beta * z)).of_eq (fun c _ => ?_)
    rw [sumO_eq (g := fun p => A i p * B p j)]
    · rfl
    · intro p hp
      simp [ha i hi p hp, hb p hp j hj]
  refine h.congr (fun q _ x => ?_)
  by_cases hq : coff ≤ q ∧ q < coff + m * n
  · rw [if_pos hq]
    obtain ⟨i0, j0, hi0, hj0, he⟩ := flat_decomp (p := q - coff) (A := m) (C := n) (by omega)
    rw [he, flat_div hj0, flat_mod hj0]
    have hq' : q = coff + i0 * n + j0 := by omega
    subst hq'
    rw [iter_single i0 hi0]
    · rw [iter_single j0 hj0]
      · rw [if_pos rfl]
      · intro j hj hne x
        rw [if_neg (by omega)]
    · intro i hi hne x
      apply iter_id
      intro j hj x
      rw [if_neg]
      intro he'
      exact hne ((flat_inj hj0 hj).mp (by omega)).1.symm
  · rw [if_neg hq]
    apply iter_id
    intro i hi x
    apply iter_id
    intro j hj x
    have := flat_lt hi hj
    rw [if_neg (by omega)]

theorem gemv_acts {tr : Bool} {m n : ℕ} {alpha : K} {a : List K} {lda : ℕ} {x : List K} {xoff : ℕ} {beta : K}
    {yoff L : ℕ} {r c : ℕ} (hr : (if tr then n else m) = r) (hc : (if tr then m else n) = c) {A : ℕ → ℕ → K} {X : ℕ → K}
    (ha : ∀ i < r, ∀ p < c, a[mIdx tr 0 lda i p]? = some (A i p))
    (hx : ∀ p < c, x[xoff + p]? = some (X p)) (hL : yoff + r ≤ L) :
    Acts1 L (gemv tr m n alpha a lda x xoff beta yoff) (fun q z =>
      if yoff ≤ q ∧ q < yoff + r then
        alpha * (∑ p ∈ Finset.range c, A (q - yoff) p * X p) + beta * z
      else z) := by
  have h : Acts1 L (gemv tr m n alpha a lda x xoff beta yoff)
      (fun q z => iter r (fun i z => if q = yoff + i then
        alpha * (∑ p ∈ Finset.range c, A i p * X p) + beta * z else z) z) := by
    unfold gemv
    rw [hr, hc]
    refine Acts1.loop (fun i hi => ?_)
    refine (Acts1.md (L := L) (i := yoff + i) (by omega)
      (fun z => alpha * (∑ p ∈ Finset.range c, A i p * X p) + beta * z)).of_eq (fun y _ => ?_)
    rw [sumO_eq (g := fun p => A i p * X p)]
    · rfl
    · intro p hp
      simp [ha i hi p hp, hx p hp]
  refine h.congr (fun q _ z => ?_)
  by_cases hq : yoff ≤ q ∧ q < yoff + r
  · rw [if_pos hq, iter_single (q - yoff) (by omega)]
    · rw [if_pos (by omega)]
    · intro i hi hne z
      rw [if_neg (by omega)]
  · rw [if_neg hq]
    apply iter_id
    intro i hi z
    rw [if_neg (by omega)]

/-- `gemm` overwriting a whole buffer. -/
theorem gemm_full {ta tb : Bool} {m n k : ℕ} {a : List K} {lda : ℕ} {b : List K} {ldb : ℕ} {A B : ℕ → ℕ → K}
    (ha : ∀ i < m, ∀ p < k, a[mIdx ta 0 lda i p]? = some (A i p))
    (hb : ∀ p < k, ∀ j < n, b[mIdx tb 0 ldb p j]? = some (B p j)) {c : List K} (hc : c.length = m * n) :
    gemm ta tb m n k 1 a 0 lda b 0 ldb 0 0 n c
      = some (tab2 m n (fun i j => ∑ p ∈ Finset.range k, A i p * B p j)) := by
  rw [gemm_acts (L := m * n) ha hb (by omega) c hc]
  congr 1
  apply mapIdx_eq_tab hc
  intro q hq x
  rw [if_pos (by omega)]
  simp

/-- `gemv` without transposition overwriting a whole buffer. -/
theorem gemv_full {m n : ℕ} {a : List K} {lda : ℕ} {x : List K} {A : ℕ → ℕ → K} {X : ℕ → K}
    (ha : ∀ i < m, ∀ p < n, a[i * lda + p]? = some (A i p)) (hx : ∀ p < n, x[p]? = some (X p))
    {y : List K} (hy : y.length = m) :
    gemv false m n 1 a lda x 0 0 0 y = some (tab m (fun i => ∑ p ∈ Finset.range n, A i p * X p)) := by
  rw [gemv_acts (L := m) (r := m) (c := n) (A := A) (X := X) rfl rfl (by simpa [mIdx] using ha) (by simpa using hx) (by omega) y hy]
  congr 1
  apply mapIdx_eq_tab hy
  intro q hq x
  rw [if_pos (by omega)]
  simp

end Verif.Blas
