import Verif.Model.Kokkos.Eval

/-!
# The evaluator driven stage by stage

The two domain-decomposed modes of /repo/pair_symmetrix/pair_symmetrix_mace_kokkos.cpp call the stages of `MACEKokkos` themselves.  The
three groups of calls are the same in both modes; `g.N` is the number of nodes passed and `g.idx` the neighbour numbers passed (used by
`compute_Phi1`, `reverse_Phi1` only).
-/

namespace Verif.Kokkos

/-- Clearing of the outputs and pair repulsion, pair_symmetrix_mace_kokkos.cpp:697-705, 1043-1055. -/
noncomputable def startPair (V : Env ℝ) (zbl : Option ZBLModel.ZBL) (P : Params ℝ) (g : MACE.Graph ℝ) (s : State ℝ) : Option (State ℝ) := do
  let o := startOutputs g.N g.xyz.length s.energies s.forces
  let o ← (match zbl with
    | some z => computeZBL V z P.atomicNumbers g o.1 o.2
    | none => some o : Option (View ℝ × View ℝ))
  some { s with energies := o.1, forces := o.2 }

section
variable {K : Type} [Field K] [LinearOrder K] [FloorRing K]

/-- First layer, pair_symmetrix_mace_kokkos.cpp:707-713, 1057-1064. -/
def firstLayer (V : Env K) (P : Params K) (g : MACE.Graph K) (s : State K) : Option (State K) := do
  let y ← computeY V P.M P.sph P.dsph P.nrm g.xyz s.Y s.Yg s.xs s.Ygs
  let r0 ← computeR0 V P.C P.lmax P.atomicNumbers.length P.R0h P.R0c g s.R0 s.R0d
  let A0 ← computeA0 V P.C P.M g r0.1 y.1 s.A0
  let a0 ← scaledFwd V P.C P.M P.A0spl g s.A0sv s.A0sd A0
  let m0 ← computeM0 V P.C P.M P.LM g.N g.types P.M0spec P.M0coeff a0.2.2 s.M0 s.M0v
  let H1 ← computeH1 V P.C P.Lmax g.N P.H1w m0.1 s.H1
  some { s with Y := y.1, Yg := y.2.1, xs := y.2.2.1, Ygs := y.2.2.2, R0 := r0.1, R0d := r0.2, A0 := a0.2.2, A0sv := a0.1, A0sd := a0.2.1,
                M0 := m0.1, M0v := m0.2, H1 := H1 }

/-- Second layer, readouts and their derivatives down to the first-layer features, pair_symmetrix_mace_kokkos.cpp:734-747, 1066-1079. -/
def secondLayer (V : Env K) (P : Params K) (g : MACE.Graph K) (s : State K) : Option (State K) := do
  let r1 ← computeRadial V (P.phil.length * P.C) P.radial1 g s.R1 s.R1d
  let p1 ← computePhi1 V P.C P.M P.numLelm P.numLme P.cg P.tables g r1.1 s.Y s.H1 s.Phi1r s.Phi1
  let A1 ← computeA1 V P.C P.M P.lmax g.N P.phil P.A1w p1.2 s.A1
  let a1 ← scaledFwd V P.C P.M P.A1spl g s.A1sv s.A1sd A1
  let m1 ← computeM1 V P.C P.M g.N g.types P.M1spec P.M1coeff a1.2.2 s.M1 s.M1v
  let H2 ← computeH2 V P.C g.N g.types P.H2wH1 P.H2wM1 s.H1 m1.1 s.H2
  let ro ← computeReadouts V P.C g.N g.types P.atomicEnergies P.ro1 P.ex P.mlp s.H1 H2 s.energies s.H1a s.H2a s.ro2 s.nv s.nd
  let h2 ← reverseH2 V P.C g.N g.types P.H2wH1 P.H2wM1 false s.H1 m1.1 ro.H2a ro.H1a s.M1a
  let ra1 ← reverseM1 V P.C P.M g.N g.types P.M1spec P.M1coeff a1.2.2 s.A1a h2.2 m1.2 s.M1p
  let f1 ← scaledBwd V P.C P.M P.A1spl g a1.1 a1.2.1 a1.2.2 s.forces ra1.1
  let dPhi1 ← reverseA1 V P.C P.numLme P.lmax g.N P.phil P.A1wt f1.2 s.dPhi1
  let rp ← reversePhi1 V P.C P.M P.numLelm P.cg P.tables g false false r1.1 r1.2 s.Y s.Yg s.H1 p1.1 dPhi1 s.dPhi1r f1.1 h2.1
  some { s with R1 := r1.1, R1d := r1.2, Phi1r := p1.1, Phi1 := p1.2, A1 := a1.2.2, A1sv := a1.1, A1sd := a1.2.1, M1 := m1.1, M1v := m1.2,
                H2 := H2, energies := ro.energies, H2a := ro.H2a, ro2 := ro.ro2, nv := ro.nv, nd := ro.nd, M1a := h2.2, A1a := f1.2,
                M1p := ra1.2, dPhi1 := dPhi1, dPhi1r := rp.1, forces := rp.2.1, H1a := rp.2.2 }

/-- Derivatives of the first layer, pair_symmetrix_mace_kokkos.cpp:753-756, 1081-1084. -/
def firstLayerBack (V : Env K) (P : Params K) (g : MACE.Graph K) (s : State K) : Option (State K) := do
  let M0a ← reverseH1 V P.C P.Lmax g.N P.H1w s.M0 s.H1a s.M0a
  let ra0 ← reverseM0 V P.C P.M P.LM g.N g.types P.M0spec P.M0coeff s.A0 s.A0a M0a s.M0v s.M0p
  let f0 ← scaledBwd V P.C P.M P.A0spl g s.A0sv s.A0sd s.A0 s.forces ra0.1
  let forces ← reverseA0 V P.C P.M g s.R0 s.R0d s.Y s.Yg f0.2 f0.1
  some { s with M0a := M0a, M0p := ra0.2, A0a := f0.2, forces := forces }

end

end Verif.Kokkos
