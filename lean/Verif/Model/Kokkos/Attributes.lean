import Verif.Model.Kokkos.Eval
import Verif.Model.Kokkos.Tools

/-!
# Model of the Python attributes of `MACE` and `MACEKokkos`

symmetrix/source/cpp/mace.cpp:16-34 (`def_readwrite` on vectors: reading copies the vector, assigning replaces it) and
symmetrix/source/cpp/mace_kokkos.cpp:21-394 (`def_property` with a getter `view2vector(self.x)` and a setter
`set_kokkos_view(self.x, array, array.size()/width, ...)`).  Arrays are C-contiguous (C86 is about the others) and have the element type
of the view.  Left out: `atomic_numbers`, `r_cut` (read only) and `H0_weights` (`MACE` only, a parameter of the model).
-/

namespace Verif

/-- The attributes both classes can read and assign. -/
inductive Attr
  | nodeEnergies | nodeForces | R0 | R1 | A0 | A0adj | M0 | M0adj | H1 | H1adj | Phi1 | Phi1adj | A1 | A1adj | M1 | M1adj | H2 | H2adj
  deriving DecidableEq

namespace MACE
variable {K : Type}

/-- Reading an attribute, mace.cpp:18-34. -/
def getAttr (s : State K) : Attr → List K
  | .nodeEnergies => s.nodeEnergies
  | .nodeForces => s.nodeForces
  | .R0 => s.R0
  | .R1 => s.R1
  | .A0 => s.A0
  | .A0adj => s.A0a
  | .M0 => s.M0
  | .M0adj => s.M0a
  | .H1 => s.H1
  | .H1adj => s.H1a
  | .Phi1 => s.Phi1
  | .Phi1adj => s.dPhi1
  | .A1 => s.A1
  | .A1adj => s.A1a
  | .M1 => s.M1
  | .M1adj => s.M1a
  | .H2 => s.H2
  | .H2adj => s.H2a

/-- Assigning an attribute, mace.cpp:18-34. -/
def setAttr (s : State K) (a : Attr) (x : List K) : State K :=
  match a with
  | .nodeEnergies => { s with nodeEnergies := x }
  | .nodeForces => { s with nodeForces := x }
  | .R0 => { s with R0 := x }
  | .R1 => { s with R1 := x }
  | .A0 => { s with A0 := x }
  | .A0adj => { s with A0a := x }
  | .M0 => { s with M0 := x }
  | .M0adj => { s with M0a := x }
  | .H1 => { s with H1 := x }
  | .H1adj => { s with H1a := x }
  | .Phi1 => { s with Phi1 := x }
  | .Phi1adj => { s with dPhi1 := x }
  | .A1 => { s with A1 := x }
  | .A1adj => { s with A1a := x }
  | .M1 => { s with M1 := x }
  | .M1adj => { s with M1a := x }
  | .H2 => { s with H2 := x }
  | .H2adj => { s with H2a := x }

end MACE

namespace Kokkos
variable {K : Type}

/-- The view behind an attribute. -/
def attrView (s : State K) : Attr → View K
  | .nodeEnergies => s.energies
  | .nodeForces => s.forces
  | .R0 => s.R0
  | .R1 => s.R1
  | .A0 => s.A0
  | .A0adj => s.A0a
  | .M0 => s.M0
  | .M0adj => s.M0a
  | .H1 => s.H1
  | .H1adj => s.H1a
  | .Phi1 => s.Phi1
  | .Phi1adj => s.dPhi1
  | .A1 => s.A1
  | .A1adj => s.A1a
  | .M1 => s.M1
  | .M1adj => s.M1a
  | .H2 => s.H2
  | .H2adj => s.H2a

/-- Replace the view behind an attribute. -/
def withView (s : State K) (a : Attr) (v : View K) : State K :=
  match a with
  | .nodeEnergies => { s with energies := v }
  | .nodeForces => { s with forces := v }
  | .R0 => { s with R0 := v }
  | .R1 => { s with R1 := v }
  | .A0 => { s with A0 := v }
  | .A0adj => { s with A0a := v }
  | .M0 => { s with M0 := v }
  | .M0adj => { s with M0a := v }
  | .H1 => { s with H1 := v }
  | .H1adj => { s with H1a := v }
  | .Phi1 => { s with Phi1 := v }
  | .Phi1adj => { s with dPhi1 := v }
  | .A1 => { s with A1 := v }
  | .A1adj => { s with A1a := v }
  | .M1 => { s with M1 := v }
  | .M1adj => { s with M1a := v }
  | .H2 => { s with H2 := v }
  | .H2adj => { s with H2a := v }

/-- The extents after the first that the setters pass to `set_kokkos_view`: mace_kokkos.cpp:22-27, 29-34 (none), 60-63, 83-87, 115-118,
123-126, 187-190, 195-198, 220-223, 228-231, 241-244, 249-252, 289-292, 297-300, 344-347, 352-355, 380-383, 388-391. -/
def shape (Q : Params K) : Attr → List ℕ
  | .nodeEnergies | .nodeForces => []
  | .R0 => [(Q.lmax + 1) * Q.C]
  | .R1 => [Q.phil.length * Q.C]
  | .A0 | .A0adj | .A1 | .A1adj => [Q.M, Q.C]
  | .M0 | .M0adj | .H1 | .H1adj => [Q.LM, Q.C]
  | .Phi1 | .Phi1adj => [Q.numLme, Q.C]
  | .M1 | .M1adj | .H2 | .H2adj => [Q.C]

/-- Reading an attribute: `view2vector` of the rank of the view. -/
def getAttr [Zero K] (Q : Params K) (s : State K) (a : Attr) : Option (List K) :=
  match (shape Q a).length with
  | 0 => ofView1 (attrView s a)
  | 1 => ofView2 (attrView s a)
  | _ => ofView3 (attrView s a)

/-- Assigning an attribute; the integer division by the width is undefined for width zero. -/
def setAttr [Zero K] (Q : Params K) (s : State K) (a : Attr) (x : List K) : Option (State K) :=
  if (shape Q a).prod = 0 then none
  else (setView (attrView s a) x (x.length / (shape Q a).prod :: shape Q a)).map (withView s a)

end Kokkos
end Verif
