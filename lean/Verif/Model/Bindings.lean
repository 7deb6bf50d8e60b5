import Mathlib.Algebra.BigOperators.Group.List.Basic
import Mathlib.Algebra.Order.Ring.Int

/-!
# Model of the array arguments of the Python bindings

`symmetrix/source/cpp/*.cpp`, `utilities_kokkos.hpp`.  All arguments have the type `py::array_t<T>` with the default flag `forcecast`:
an array of element type `T` is passed as it is, with its strides; an array of another element type is replaced by a converted copy.
Strides are counted in elements (numpy counts bytes; strides that are no multiple of the element size are not modelled).
-/

namespace Verif.Bindings

variable {K : Type}

/-- A numpy array: elements of the base buffer, position of the first element, extents and strides. -/
structure NdArray (K : Type) where
  buf : List K
  offset : ℕ
  shape : List ℕ
  strides : List ℤ

/-- `array.size()`. -/
def NdArray.size (a : NdArray K) : ℕ := a.shape.prod

/-- `std::span(array.data(), array.size())`, mace.cpp:46-51 and every other binding in mace.cpp; the unmanaged views of
utilities_kokkos.hpp:19-22, 31-34 and multilayer_perceptron_kokkos.cpp:21-28 read the same entries.  `none`: outside the buffer. -/
def NdArray.span (a : NdArray K) : Option (List K) := (List.range a.size).mapM (fun p => a.buf[a.offset + p]?)

/-- Entries `0 … ys.length-1` of `std::span(array.mutable_data(), array.size())` are set, cubic_spline_set.cpp:15-16, 20-22,
cubic_spline_set_kokkos.cpp:15-16, 20-22, multilayer_perceptron_kokkos.cpp:25-32, 45-58. -/
def NdArray.writeSpan (a : NdArray K) (ys : List K) : Option (NdArray K) :=
  if a.offset + ys.length ≤ a.buf.length then some { a with buf := a.buf.take a.offset ++ ys ++ a.buf.drop (a.offset + ys.length) }
  else none

/-- An output argument after a call that writes `ys`: the caller's array if its element type is `T` (`same`), otherwise the results go
to the converted copy and the caller's array is unchanged. -/
def outArgument (same : Bool) (a : NdArray K) (ys : List K) : Option (NdArray K) := if same then a.writeSpan ys else some a

end Verif.Bindings
