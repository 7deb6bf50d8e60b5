import Verif.Base.View

/-!
# Model of `libsymmetrix/source/tools_kokkos.hpp`

Conversions between `std::vector` and views.  Device and host memory are one memory here, so a mirror view filled by the host
followed by `deep_copy` is a direct write to the view, and `create_mirror_view_and_copy` is a read of the view.
Template parameter `T` is `K`; `int` extents are natural numbers.
-/

namespace Verif.Kokkos

variable {K : Type} [Zero K]

/-- `toKokkosView(name, vector)`, tools_kokkos.hpp:21-39. -/
def toView1 (x : List K) : Option (View K) :=
  loop x.length (fun i v => do
    let a ← x[i]?
    v.set [i] a) (View.new [x.length] 0)

/-- `toKokkosView(name, vector, N0, N1)`, tools_kokkos.hpp:41-56. -/
def toView2 (x : List K) (N0 N1 : ℕ) : Option (View K) :=
  loop N0 (fun i => loop N1 (fun j v => do
    let a ← x[i * N1 + j]?
    v.set [i, j] a)) (View.new [N0, N1] 0)

/-- `toKokkosView(name, vector, N0, N1, N2)`, tools_kokkos.hpp:59-76. -/
def toView3 (x : List K) (N0 N1 N2 : ℕ) : Option (View K) :=
  loop N0 (fun i => loop N1 (fun j => loop N2 (fun k v => do
    let a ← x[(i * N1 + j) * N2 + k]?
    v.set [i, j, k] a))) (View.new [N0, N1, N2] 0)

/-- `view2vector` for rank 1, tools_kokkos.hpp:78-86; `size()` is the product of the extents. -/
def ofView1 (v : View K) : Option (List K) :=
  loop v.ext.prod (fun i x => do
    let a ← v.get [i]
    wr x i a) (List.replicate v.ext.prod 0)

/-- `view2vector` for rank 2, tools_kokkos.hpp:88-97. -/
def ofView2 (v : View K) : Option (List K) :=
  loop (v.extent 0) (fun i => loop (v.extent 1) (fun j x => do
    let a ← v.get [i, j]
    wr x (i * v.extent 1 + j) a)) (List.replicate v.ext.prod 0)

/-- `view2vector` for rank 3, tools_kokkos.hpp:99-109. -/
def ofView3 (v : View K) : Option (List K) :=
  loop (v.extent 0) (fun i => loop (v.extent 1) (fun j => loop (v.extent 2) (fun k x => do
    let a ← v.get [i, j, k]
    wr x ((i * v.extent 1 + j) * v.extent 2 + k) a))) (List.replicate v.ext.prod 0)

/-- `set_kokkos_view`, tools_kokkos.hpp:111-161, for the extents `ext` (`[size]`, `[N0,N1]`, `[N0,N1,N2]`): the unmanaged view over
`array.data()` reads the first `N0*N1*N2` elements, which is undefined if there are fewer; `deep_copy` needs equal extents. -/
def setView (v : View K) (x : List K) (ext : List ℕ) : Option (View K) :=
  if ext.prod ≤ x.length then
    let w : View K := if v.ext = ext then v else View.new ext 0
    some ⟨w.ext, x.take ext.prod⟩
  else none

end Verif.Kokkos
