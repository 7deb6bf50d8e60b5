import Verif.Base.View

/-!
# Messages of the Kokkos pair style in single precision

pair_symmetrix_mace_kokkos.cpp:222-369 for `Precision = float` (styles `symmetrix/mace/float32/kk...`): `H1` and `H1_adj` are views of
`Precision` (pair_symmetrix_mace_kokkos.h:74), the message buffers are arrays of `double`.  Numbers are opaque: `F` is `Precision`, `D` is
`double`, with the two conversions and the two additions as parameters.  Nothing is assumed of the additions, in particular not that they are
associative.  Every thread of these kernels makes one access to the view it modifies, so an execution is an order of the threads.
-/

namespace Verif.KokkosPrec

/-- `Precision`, `double`, the implicit conversions between them and the two additions. -/
structure Prec (F D : Type) where
  up : F → D
  down : D → F
  addF : F → F → F
  addD : D → D → D

variable {F D : Type}

/-- A kernel over `MDRangePolicy<Rank<3>>`: the threads `ts` in this order. -/
def threads {σ : Type} (ts : List (ℕ × ℕ × ℕ)) (body : ℕ → ℕ → ℕ → σ → Option σ) (s : σ) : Option σ :=
  ts.foldlM (fun s t => body t.1 t.2.1 t.2.2 s) s

/-- `pack_forward_comm_kokkos`, pair_symmetrix_mace_kokkos.cpp:239-258. -/
def packForward (P : Prec F D) (ts : List (ℕ × ℕ × ℕ)) (LM C n : ℕ) (list : List ℕ) (H1 : View F) (buf : View D) : Option (ℕ × View D) := do
  let buf ← threads ts (fun ii a k buf => do
    let i ← list[ii]?
    let x ← H1.get [i, a, k]
    buf.set [ii * LM * C + a * C + k] (P.up x)) buf
  pure (n * LM * C, buf)

/-- `unpack_forward_comm_kokkos`, pair_symmetrix_mace_kokkos.cpp:277-292. -/
def unpackForward (P : Prec F D) (ts : List (ℕ × ℕ × ℕ)) (LM C first : ℕ) (buf : View D) (H1 : View F) : Option (View F) :=
  threads ts (fun i a k h => do
    let x ← buf.get [i * LM * C + a * C + k]
    h.set [first + i, a, k] (P.down x)) H1

/-- `pack_reverse_comm_kokkos`, pair_symmetrix_mace_kokkos.cpp:313-330. -/
def packReverse (P : Prec F D) (ts : List (ℕ × ℕ × ℕ)) (LM C n first : ℕ) (H1adj : View F) (buf : View D) : Option (ℕ × View D) := do
  let buf ← threads ts (fun i a k buf => do
    let x ← H1adj.get [first + i, a, k]
    buf.set [i * LM * C + a * C + k] (P.up x)) buf
  pure (n * LM * C, buf)

/-- `unpack_reverse_comm_kokkos`, pair_symmetrix_mace_kokkos.cpp:350-369: the second argument of `Kokkos::atomic_add` is converted to the
type of the first, the addition is one of `Precision`. -/
def unpackReverse (P : Prec F D) (ts : List (ℕ × ℕ × ℕ)) (LM C : ℕ) (list : List ℕ) (buf : View D) (H1adj : View F) : Option (View F) :=
  threads ts (fun ii a k h => do
    let i ← list[ii]?
    let x ← buf.get [ii * LM * C + a * C + k]
    let y ← h.get [i, a, k]
    h.set [i, a, k] (P.addF y (P.down x))) H1adj

/-- `pack_forward_comm`, pair_symmetrix_mace_kokkos.cpp:222-235; `double *buf` as a view of the allocated length. -/
def packForwardHost (P : Prec F D) (LM C n : ℕ) (list : List ℕ) (H1 : View F) (buf : View D) : Option (ℕ × View D) := do
  let buf ← loop n (fun ii => loop LM (fun a => loop C (fun k buf => do
    let i ← list[ii]?
    let x ← H1.get [i, a, k]
    buf.set [ii * LM * C + a * C + k] (P.up x)))) buf
  pure (n * LM * C, buf)

/-- `unpack_forward_comm`, pair_symmetrix_mace_kokkos.cpp:261-273, where the mirror is the view itself (memory shared with the host). -/
def unpackForwardHost (P : Prec F D) (LM C n first : ℕ) (buf : View D) (H1 : View F) : Option (View F) :=
  loop n (fun i => loop LM (fun a => loop C (fun k h => do
    let x ← buf.get [i * LM * C + a * C + k]
    h.set [first + i, a, k] (P.down x)))) H1

/-- `pack_reverse_comm`, pair_symmetrix_mace_kokkos.cpp:296-310. -/
def packReverseHost (P : Prec F D) (LM C n first : ℕ) (H1adj : View F) (buf : View D) : Option (ℕ × View D) := do
  let buf ← loop n (fun i => loop LM (fun a => loop C (fun k buf => do
    let x ← H1adj.get [first + i, a, k]
    buf.set [i * LM * C + a * C + k] (P.up x)))) buf
  pure (n * LM * C, buf)

/-- `unpack_reverse_comm`, pair_symmetrix_mace_kokkos.cpp:333-346, memory shared with the host: `float += double` converts the left side to
`double`, adds there and converts the sum back. -/
def unpackReverseHost (P : Prec F D) (LM C n : ℕ) (list : List ℕ) (buf : View D) (H1adj : View F) : Option (View F) :=
  loop n (fun ii => loop LM (fun a => loop C (fun k h => do
    let i ← list[ii]?
    let x ← buf.get [ii * LM * C + a * C + k]
    let y ← h.get [i, a, k]
    h.set [i, a, k] (P.down (P.addD (P.up y) x))))) H1adj

end Verif.KokkosPrec
