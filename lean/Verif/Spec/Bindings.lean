import Verif.Model.Bindings

/-! # Specification: elements of a numpy array -/

namespace Verif.Spec
open Verif.Bindings

variable {K : Type}

/-- Position of the element with index `idx`. -/
def pos (offset : ℤ) : List ℤ → List ℕ → ℤ
  | s :: ss, i :: is => pos (offset + s * i) ss is
  | _, _ => offset

/-- Element with index `idx`, numpy's `a[idx]`. -/
def elem (a : NdArray K) (idx : List ℕ) : Option K :=
  let p := pos a.offset a.strides idx
  if p < 0 then none else a.buf[p.toNat]?

/-- All indices, last one fastest. -/
def indices : List ℕ → List (List ℕ)
  | [] => [[]]
  | n :: ns => (List.range n).flatMap (fun i => (indices ns).map (i :: ·))

/-- The elements in C order, numpy's `a.ravel()`. -/
def ravel (a : NdArray K) : Option (List K) := (indices a.shape).mapM (elem a)

/-- numpy's flag C_CONTIGUOUS for an array without elements or with strides of row-major order; the stride of a dimension of extent 1
does not matter. -/
def CContiguous : List ℕ → List ℤ → Prop
  | [], ss => ss = []
  | n :: ns, s :: ss => (n = 1 ∨ s = ((ns.prod : ℕ) : ℤ)) ∧ CContiguous ns ss
  | _ :: _, [] => False

end Verif.Spec
