import Verif.Base.Loop

/-!
# BLAS calls

`cblas_dgemm`, `cblas_dgemv`, `cblas_dcopy` with `CblasRowMajor`, following the reference semantics.  A pointer argument
`p + off` is a buffer with an offset.  BLAS argument checks (leading dimensions) are not modelled.  With `beta = 0`
reference BLAS does not read `c`; over a field `0*z = 0`, so the formula below gives the same result.
-/

namespace Verif.Blas

variable {K : Type} [Field K]

/-- Position of entry `(i, j)` of `op(M)` in a row-major matrix with leading dimension `ld`. -/
def mIdx (tr : Bool) (off ld i j : ℕ) : ℕ := off + if tr then j * ld + i else i * ld + j

/-- `cblas_dgemm(RowMajor, ta, tb, m, n, k, alpha, a+aoff, lda, b+boff, ldb, beta, c+coff, ldc)`. -/
def gemm (ta tb : Bool) (m n k : ℕ) (alpha : K) (a : List K) (aoff lda : ℕ) (b : List K) (boff ldb : ℕ) (beta : K)
    (coff ldc : ℕ) (c : List K) : Option (List K) :=
  loop m (fun i => loop n (fun j c => do
    let s ← sumO k (fun p => do
      let x ← a[mIdx ta aoff lda i p]?
      let y ← b[mIdx tb boff ldb p j]?
      pure (x * y))
    md c (coff + i * ldc + j) (fun z => alpha * s + beta * z))) c

/-- `cblas_dgemv(RowMajor, tr, m, n, alpha, a, lda, x+xoff, 1, beta, y+yoff, 1)`. -/
def gemv (tr : Bool) (m n : ℕ) (alpha : K) (a : List K) (lda : ℕ) (x : List K) (xoff : ℕ) (beta : K) (yoff : ℕ)
    (y : List K) : Option (List K) :=
  loop (if tr then n else m) (fun i y => do
    let s ← sumO (if tr then m else n) (fun p => do
      let u ← a[mIdx tr 0 lda i p]?
      let v ← x[xoff + p]?
      pure (u * v))
    md y (yoff + i) (fun z => alpha * s + beta * z)) y

end Verif.Blas
