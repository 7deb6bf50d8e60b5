import Verif.Model.Kokkos.Eval

/-!
# Communication functions of the Kokkos pair style

pair_symmetrix_mace_kokkos.cpp:222-369.  `H1` and `H1_adj` are views with extents (atoms, num_LM, num_channels); message buffers are
one-dimensional views.  All index triples of an `MDRangePolicy` are threads of their own.
-/

namespace Verif.Kokkos
open Verif.Par Verif.Par.Prog

variable {K : Type} [Field K]

/-- `Kokkos::MDRangePolicy<Rank<3>>`. -/
def parFor3 {ι : Type} (n1 n2 n3 : ℕ) (body : ℕ → ℕ → ℕ → Prog ι K) : Prog ι K :=
  parFor n1 (fun i => parFor n2 (fun a => parFor n3 (fun k => body i a k)))

/-- `pack_forward_comm_kokkos`, pair_symmetrix_mace_kokkos.cpp:239-258. -/
def packForward (V : Env K) (LM C n : ℕ) (list : List ℕ) (H1 buf : View K) : Option (ℕ × View K) := do
  let buf ← V.L.launch1 (parFor3 n LM C (fun ii a k => opt ((list[ii]?).bind (fun i => H1.get [i, a, k])) (fun x =>
    put (fun _ => buf.ext) () [ii * LM * C + a * C + k] x))) buf
  pure (n * LM * C, buf)

/-- `unpack_forward_comm_kokkos`, pair_symmetrix_mace_kokkos.cpp:277-292. -/
def unpackForward (V : Env K) (LM C n first : ℕ) (buf H1 : View K) : Option (View K) :=
  V.L.launch1 (parFor3 n LM C (fun i a k => opt (buf.get [i * LM * C + a * C + k]) (fun x =>
    put (fun _ => H1.ext) () [first + i, a, k] x))) H1

/-- `pack_reverse_comm_kokkos`, pair_symmetrix_mace_kokkos.cpp:313-330. -/
def packReverse (V : Env K) (LM C n first : ℕ) (H1adj buf : View K) : Option (ℕ × View K) := do
  let buf ← V.L.launch1 (parFor3 n LM C (fun i a k => opt (H1adj.get [first + i, a, k]) (fun x =>
    put (fun _ => buf.ext) () [i * LM * C + a * C + k] x))) buf
  pure (n * LM * C, buf)

/-- `unpack_reverse_comm_kokkos`, pair_symmetrix_mace_kokkos.cpp:350-369. -/
def unpackReverse (V : Env K) (LM C n : ℕ) (list : List ℕ) (buf H1adj : View K) : Option (View K) :=
  V.L.launch1 (parFor3 n LM C (fun ii a k => opt (both list[ii]? (buf.get [ii * LM * C + a * C + k])) (fun q =>
    atomic (fun _ => H1adj.ext) () [q.1, a, k] q.2))) H1adj

/-- `Kokkos::create_mirror_view`: the view itself when its memory is accessible from the host (`shared`), otherwise a new view of the
same shape whose contents have nothing to do with `v` (`junk`; zeros, as Kokkos initialises allocations). -/
def mirror (shared : Bool) (junk : ℕ → K) (v : View K) : View K := if shared then v else ⟨v.ext, tab v.data.length junk⟩

/-- `pack_forward_comm`, pair_symmetrix_mace_kokkos.cpp:222-235 (`create_mirror_view_and_copy` copies). -/
def packForwardHost (LM C n : ℕ) (list : List ℕ) (H1 : View K) (buf : List K) : Option (ℕ × List K) := do
  let buf ← loop n (fun ii buf => do
    let i ← list[ii]?
    loop LM (fun a => loop C (fun k buf => do
      let x ← H1.get [i, a, k]
      wr buf (ii * LM * C + a * C + k) x)) buf) buf
  pure (n * LM * C, buf)

/-- `unpack_forward_comm`, pair_symmetrix_mace_kokkos.cpp:261-273: the mirror is filled at the received rows and copied back as a whole. -/
def unpackForwardHost (shared : Bool) (junk : ℕ → K) (LM C n first : ℕ) (buf : List K) (H1 : View K) : Option (View K) :=
  loop n (fun i => loop LM (fun a => loop C (fun k h => do
    let x ← buf[i * LM * C + a * C + k]?
    h.set [first + i, a, k] x))) (mirror shared junk H1)

/-- `pack_reverse_comm`, pair_symmetrix_mace_kokkos.cpp:296-310. -/
def packReverseHost (LM C n first : ℕ) (H1adj : View K) (buf : List K) : Option (ℕ × List K) := do
  let buf ← loop n (fun i => loop LM (fun a => loop C (fun k buf => do
    let x ← H1adj.get [first + i, a, k]
    wr buf (i * LM * C + a * C + k) x))) buf
  pure (n * LM * C, buf)

/-- `unpack_reverse_comm`, pair_symmetrix_mace_kokkos.cpp:333-346. -/
def unpackReverseHost (shared : Bool) (junk : ℕ → K) (LM C n : ℕ) (list : List ℕ) (buf : List K) (H1adj : View K) : Option (View K) :=
  loop n (fun ii h => do
    let i ← list[ii]?
    loop LM (fun a => loop C (fun k h => do
      let x ← buf[ii * LM * C + a * C + k]?
      let y ← h.get [i, a, k]
      h.set [i, a, k] (y + x))) h) (mirror shared junk H1adj)

end Verif.Kokkos
