import Verif.Model.Kokkos.Tools

/-!
# Separate memories of host and device

`tools_kokkos.hpp` and the transfers of `MACEKokkos` with several memories.  A view is an allocation in one memory space; host code can only
touch allocations it can access, otherwise the behaviour is undefined (`none`).  `sep`: the default memory space of Kokkos is a device memory
the host cannot access.  Views keep their positions when copied (`deep_copy` between views of the same layout).
`realloc` replaces the allocation under its number.
-/

namespace Verif.Kokkos.Spaces

inductive Space where
  | host
  | device
  /-- `Kokkos::SharedSpace` -/
  | shared
  deriving DecidableEq

/-- The host can access the memory. -/
def Space.onHost : Space → Bool
  | .device => false
  | _ => true

/-- The default memory space of Kokkos. -/
def dflt (sep : Bool) : Space := if sep then .device else .host

/-- An allocation. -/
structure Buf (K : Type) where
  space : Space
  view : View K

/-- Allocations are numbered. -/
abbrev Mem (K : Type) := List (Buf K)

variable {K : Type}

/-- `v(is)` in host code. -/
def hget (m : Mem K) (b : ℕ) (is : List ℕ) : Option K := do
  let B ← m[b]?
  if B.space.onHost then B.view.get is else none

/-- A change of a view by host code. -/
def hmod (m : Mem K) (b : ℕ) (g : View K → Option (View K)) : Option (Mem K) := do
  let B ← m[b]?
  if B.space.onHost then do
    let v ← g B.view
    pure (m.set b ⟨B.space, v⟩)
  else none

/-- `v(is) = a` in host code. -/
def hset (m : Mem K) (b : ℕ) (is : List ℕ) (a : K) : Option (Mem K) := hmod m b (fun v => v.set is a)

/-- Allocation. -/
def alloc (m : Mem K) (sp : Space) (v : View K) : ℕ × Mem K := (m.length, m ++ [⟨sp, v⟩])

/-- `Kokkos::create_mirror_view(v)`: the view itself if the host can access it, otherwise a new host view (filled with zeros). -/
def mirror [Zero K] (m : Mem K) (b : ℕ) : Option (ℕ × Mem K) := do
  let B ← m[b]?
  pure (if B.space.onHost then (b, m) else alloc m .host (View.new B.view.ext 0))

/-- `Kokkos::create_mirror_view_and_copy(space, v)`: the view itself if it is in that memory, otherwise a copy. -/
def mirrorCopy (sp : Space) (m : Mem K) (b : ℕ) : Option (ℕ × Mem K) := do
  let B ← m[b]?
  pure (if B.space = sp then (b, m) else alloc m sp B.view)

/-- `Kokkos::deep_copy(dst, src)`; different extents are an error. -/
def deepCopy (m : Mem K) (dst src : ℕ) : Option (Mem K) := do
  let D ← m[dst]?
  let S ← m[src]?
  if D.view.ext = S.view.ext then pure (m.set dst ⟨D.space, S.view⟩) else none

/-- Allocation of `v0` in `sp`, a mirror, host code `fill` working on the mirror, and the copy back:
tools_kokkos.hpp:24-38, 48-55, 67-75; mace_kokkos.cpp:1670-1680. -/
def viaMirror [Zero K] (m : Mem K) (sp : Space) (v0 : View K) (fill : ℕ → Mem K → Option (Mem K)) : Option (ℕ × Mem K) := do
  let a := alloc m sp v0
  let h ← mirror a.2 a.1
  let m ← fill h.1 h.2
  let m ← deepCopy m a.1 h.1
  pure (a.1, m)

section
variable [Zero K] (sep : Bool) (m : Mem K)

/-- `toKokkosView(name, vector)`, tools_kokkos.hpp:21-39. -/
def toKokkosView1 (x : List K) : Option (ℕ × Mem K) :=
  viaMirror m .shared (View.new [x.length] 0) (fun h => loop x.length (fun i m => do
    let a ← x[i]?
    hset m h [i] a))

/-- `toKokkosView(name, vector, N0, N1)`, tools_kokkos.hpp:41-56. -/
def toKokkosView2 (x : List K) (N0 N1 : ℕ) : Option (ℕ × Mem K) :=
  viaMirror m (dflt sep) (View.new [N0, N1] 0) (fun h => loop N0 (fun i => loop N1 (fun j m => do
    let a ← x[i * N1 + j]?
    hset m h [i, j] a)))

/-- `toKokkosView(name, vector, N0, N1, N2)`, tools_kokkos.hpp:59-76. -/
def toKokkosView3 (x : List K) (N0 N1 N2 : ℕ) : Option (ℕ × Mem K) :=
  viaMirror m (dflt sep) (View.new [N0, N1, N2] 0) (fun h => loop N0 (fun i => loop N1 (fun j => loop N2 (fun k m => do
    let a ← x[(i * N1 + j) * N2 + k]?
    hset m h [i, j, k] a))))

/-- `view2vector` for rank 1, tools_kokkos.hpp:78-86. -/
def view2vector1 (b : ℕ) : Option (List K) := do
  let h ← mirrorCopy .host m b
  let H ← h.2[h.1]?
  loop H.view.ext.prod (fun i x => do
    let a ← hget h.2 h.1 [i]
    wr x i a) (List.replicate H.view.ext.prod 0)

/-- `view2vector` for rank 2, tools_kokkos.hpp:88-97. -/
def view2vector2 (b : ℕ) : Option (List K) := do
  let h ← mirrorCopy .host m b
  let H ← h.2[h.1]?
  loop (H.view.extent 0) (fun i => loop (H.view.extent 1) (fun j x => do
    let a ← hget h.2 h.1 [i, j]
    wr x (i * H.view.extent 1 + j) a)) (List.replicate H.view.ext.prod 0)

/-- `view2vector` for rank 3, tools_kokkos.hpp:99-109. -/
def view2vector3 (b : ℕ) : Option (List K) := do
  let h ← mirrorCopy .host m b
  let H ← h.2[h.1]?
  loop (H.view.extent 0) (fun i => loop (H.view.extent 1) (fun j => loop (H.view.extent 2) (fun k x => do
    let a ← hget h.2 h.1 [i, j, k]
    wr x ((i * H.view.extent 1 + j) * H.view.extent 2 + k) a))) (List.replicate H.view.ext.prod 0)

/-- `set_kokkos_view`, tools_kokkos.hpp:111-161: the unmanaged host view over the vector, its copy in the default memory (or the host view
itself), reallocation of `b` if the extents differ, and the copy. -/
def setKokkosView (b : ℕ) (x : List K) (ext : List ℕ) : Option (Mem K) :=
  if ext.prod ≤ x.length then do
    let u := alloc m .host ⟨ext, x.take ext.prod⟩
    let d ← mirrorCopy (dflt sep) u.2 u.1
    let B ← d.2[b]?
    let m := if B.view.ext = ext then d.2 else d.2.set b ⟨B.space, View.new ext 0⟩
    deepCopy m b d.1
  else none

end

/-- Rows of different lengths, padded with -1, in `load_from_json`, mace_kokkos.cpp:1670-1680, 1827-1834: the mirror, not the view, is filled with
-1.  `v0` is the view as it was allocated, without initialisation for `M0_monomials(LM)`. -/
def padTable (sep : Bool) (m : Mem ℤ) (n : ℕ) (rows : List (List ℕ)) (v0 : View ℤ) : Option (ℕ × Mem ℤ) :=
  viaMirror m (dflt sep) v0 (fun h m => do
    let m ← hmod m h (fun v => some (v.fill (-1)))
    loop n (fun i m => do
      let r ← rows[i]?
      loop r.length (fun j m => do
        let a ← r[j]?
        hset m h [i, j] (a : ℤ)) m) m)

/-- Writing the beginning of an array through `data()` of a host view. -/
def writeFront (l : List K) (v : View K) : Option (View K) :=
  if l.length ≤ v.data.length then some ⟨v.ext, l ++ v.data.drop l.length⟩ else none

/-- `compute_Y`, the call of sphericart on the host, mace_kokkos.cpp:218-226; `sph` is what sphericart makes of `num` positions: harmonics and
gradients. -/
def hostHarmonics [Zero K] (m : Mem K) (num xyz Y Yg : ℕ) (sph : List K → List K × List K) : Option (Mem K) := do
  let x ← mirrorCopy .host m xyz
  let y ← mirror x.2 Y
  let g ← mirror y.2 Yg
  let X ← g.2[x.1]?
  let o := sph (X.view.data.take (3 * num))
  let m ← hmod g.2 y.1 (writeFront o.1)
  let m ← hmod m g.1 (writeFront o.2)
  let m ← deepCopy m Y y.1
  deepCopy m Yg g.1

end Verif.Kokkos.Spaces
