import Verif.Base.Loop
import Verif.Base.Trunc
import Verif.Model.Tools
import Verif.Spec.Tools
import Verif.Lemmas.Partitions
import Verif.Lemmas.Permutations
import Verif.Props.Tools
import Verif.Model.CubicSpline
import Verif.Lemmas.CubicSpline
import Verif.Lemmas.SplineSet
import Verif.Props.Spline
import Verif.Base.Edge
import Verif.Spec.ZBL
import Verif.Model.ZBL
import Verif.Lemmas.ZBL
import Verif.Lemmas.ZBLLoop
import Verif.Props.ZBL
import Verif.Base.Tab
import Verif.Spec.Polynomial
import Verif.Model.Polynomial
import Verif.Lemmas.PolyBuild
import Verif.Lemmas.PolyCtor
import Verif.Lemmas.PolyEval
import Verif.Lemmas.PolyBatch
import Verif.Lemmas.PolyReach
import Verif.Props.Polynomial
import Verif.Model.Blas
import Verif.Lemmas.Blas
import Verif.Spec.MLP
import Verif.Model.MLP
import Verif.Lemmas.MLP
import Verif.Lemmas.MLPGrad
import Verif.Props.MLP
import Verif.Base.Writes
import Verif.Model.MACE
import Verif.Spec.MACE
import Verif.Lemmas.MACE.Basic
import Verif.Lemmas.MACE.Setup
import Verif.Lemmas.MACE.Forces
import Verif.Lemmas.MACE.Adjoint
import Verif.Lemmas.MACE.A0
import Verif.Lemmas.MACE.H1
import Verif.Lemmas.MACE.Phi1
import Verif.Lemmas.MACE.Scaled
import Verif.Lemmas.MACE.Products
import Verif.Lemmas.MACE.A1
import Verif.Lemmas.MACE.H2
import Verif.Lemmas.MACE.Radial
import Verif.Lemmas.MACE.Pipeline
import Verif.Lemmas.MACE.Tangent
import Verif.Lemmas.MACE.Gradient
import Verif.Spec.Spline
import Verif.Lemmas.Hermite
import Verif.Spec.Pairs
import Verif.Lemmas.PairIndex
import Verif.Spec.MACEFile
import Verif.Lemmas.MACE.LoadBase
import Verif.Lemmas.MACE.Load
import Verif.Lemmas.MACE.LoadSpec
import Verif.Lemmas.MACE.Eval
import Verif.Lemmas.MACE.EvalGrad
import Verif.Lemmas.MACE.Local
import Verif.Lemmas.MACE.Join
import Verif.Props.MACE
import Verif.Props.MACEExample
import Verif.Lemmas.MACE.Isolated
import Verif.Model.Lammps
import Verif.Spec.Lammps
import Verif.Spec.Elements
import Verif.Lemmas.Lammps.Build
import Verif.Lemmas.Lammps.NoMpi
import Verif.Lemmas.Lammps.Results
import Verif.Lemmas.Lammps.Single
import Verif.Lemmas.Lammps.Comm
import Verif.Lemmas.Lammps.CommFlat
import Verif.Lemmas.Lammps.Coeff
import Verif.Props.Lammps
import Verif.Props.LammpsForces
import Verif.Base.Perm
import Verif.Lemmas.MACE.Part
import Verif.Spec.Decomp
import Verif.Lemmas.Lammps.NoMpiEval
import Verif.Lemmas.Lammps.Decomp
import Verif.Lemmas.Lammps.NoMpiSum
import Verif.Lemmas.Lammps.Share
import Verif.Props.LammpsNoMpi
import Verif.Lemmas.Lammps.CommAll
import Verif.Lemmas.Lammps.MpiEval
import Verif.Lemmas.Lammps.MpiAll
import Verif.Lemmas.Lammps.MpiSum
import Verif.Props.LammpsMpi
import Verif.Model.ASE
import Verif.Spec.ASE
import Verif.Lemmas.ASE.Graph
import Verif.Lemmas.ASE.Results
import Verif.Props.ASE
import Verif.Model.Harmonics
import Verif.Model.Extract
import Verif.Props.Harmonics
import Verif.Props.Extract
import Verif.Base.Par
import Verif.Base.View
import Verif.Base.Kernel
import Verif.Model.Kokkos.Tools
import Verif.Spec.Views
import Verif.Lemmas.Kokkos.Host
import Verif.Lemmas.Kokkos.Tools
import Verif.Props.KokkosTools
import Verif.Base.Local
import Verif.Model.Kokkos.Eval
import Verif.Lemmas.Kokkos.Basic
import Verif.Lemmas.Kokkos.Layer0
import Verif.Lemmas.Kokkos.Radial
import Verif.Lemmas.Kokkos.Products
import Verif.Lemmas.Kokkos.Linear
import Verif.Lemmas.Kokkos.Layer1
import Verif.Lemmas.Kokkos.Percep
import Verif.Lemmas.Kokkos.Readout
import Verif.Lemmas.Kokkos.ZBL
import Verif.Lemmas.Kokkos.Pipeline
import Verif.Model.Kokkos.Load
import Verif.Lemmas.PolyGraph
import Verif.Lemmas.Kokkos.HostSeq
import Verif.Lemmas.Kokkos.LoadRadial
import Verif.Lemmas.Kokkos.LoadPoly
import Verif.Lemmas.Kokkos.LoadTab
import Verif.Spec.KokkosFile
import Verif.Lemmas.Kokkos.LoadFeat
import Verif.Lemmas.Kokkos.LoadSpec
import Verif.Lemmas.Kokkos.Compute
import Verif.Base.Atomic
import Verif.Model.Kokkos.Comm
import Verif.Lemmas.Kokkos.Comm
import Verif.Lemmas.Kokkos.CommHost
import Verif.Props.Kokkos
import Verif.Props.KokkosSched
import Verif.Spec.Rotation
import Verif.Lemmas.MACE.Rotation
import Verif.Props.Rotation
import Verif.Model.Kokkos.Pair
import Verif.Lemmas.Kokkos.PairBuild
import Verif.Lemmas.Kokkos.PairResults
import Verif.Lemmas.Kokkos.PairSingle
import Verif.Props.KokkosPair
import Verif.Model.Kokkos.Layers
import Verif.Model.Kokkos.PairNoMpi
import Verif.Lemmas.Kokkos.Layers
import Verif.Lemmas.Kokkos.PartEval
import Verif.Lemmas.Kokkos.PairNoMpi
import Verif.Props.KokkosPairNoMpi
import Verif.Model.Kokkos.PairMpi
import Verif.Lemmas.Kokkos.PairMpi
import Verif.Props.KokkosPairMpi
import Verif.Model.Kokkos.Polynomial
import Verif.Lemmas.Kokkos.Polynomial
import Verif.Lemmas.Kokkos.PolySimple
import Verif.Props.KokkosPolynomial
import Verif.Props.KokkosASE
import Verif.Model.ExtractMACE
import Verif.Spec.Torch
import Verif.Lemmas.Extract.Dict
import Verif.Lemmas.Extract.Product
import Verif.Lemmas.Extract.Coupling
import Verif.Lemmas.Extract.Tables
import Verif.Lemmas.Extract.Shape
import Verif.Lemmas.Extract.Layers
import Verif.Lemmas.Extract.Run
import Verif.Props.ExtractMACE
import Verif.Props.ExtractExample
import Verif.Model.Kokkos.Classes
import Verif.Lemmas.Kokkos.SplineClasses
import Verif.Lemmas.Kokkos.MLPClass
import Verif.Props.KokkosSplines
import Verif.Props.KokkosMLP
import Verif.Model.Bindings
import Verif.Spec.Bindings
import Verif.Props.Bindings
import Verif.Props.Torque
import Verif.Spec.Cutoff
import Verif.Lemmas.MACE.Limit
import Verif.Lemmas.Lammps.Cutoff
import Verif.Lemmas.Lammps.CutoffDiff
import Verif.Lemmas.Lammps.CutoffCont
import Verif.Props.Cutoff
import Verif.Props.Json
import Verif.Props.Domain
import Verif.Props.LammpsInit
import Verif.Props.Elements
import Verif.Lemmas.HermiteError
import Verif.Lemmas.Slopes
import Verif.Props.SplineError
import Verif.Lemmas.Extract.Limit
import Verif.Props.Limit
import Verif.Lemmas.Extract.LimitForce
import Verif.Props.LimitForces
import Verif.Props.IntIndex
import Verif.Props.Rounding
import Verif.Props.Species
import Verif.Props.Num
import Verif.Props.NumLimit
import Verif.Props.NumHistory
import Verif.Props.Stages
import Verif.Lemmas.MACE.Cover
import Verif.Spec.Crystal
import Verif.Lemmas.ASE.Crystal
import Verif.Props.Crystal
import Verif.Props.Motion
import Verif.Lemmas.Kokkos.StageFlags
import Verif.Props.KokkosStages
import Verif.Model.Kokkos.IntIndex
import Verif.Lemmas.IntIndex.Kok
import Verif.Props.KokkosInt
import Verif.Model.Kokkos.Attributes
import Verif.Lemmas.Kokkos.Doomed
import Verif.Props.Attributes
import Verif.Props.Conservation
import Verif.Props.KokkosSame
import Verif.Model.LammpsLife
import Verif.Model.Kokkos.PairEatom
import Verif.Model.Kokkos.SplineSetViews
import Verif.Props.LammpsLife
import Verif.Props.KokkosEatom
import Verif.Props.SplineSetViews
import Verif.Model.LammpsInts
import Verif.Lemmas.LammpsInts
import Verif.Props.LammpsInts
import Verif.Props.KokkosPairInts
import Verif.Props.ToolsInt
import Verif.Props.PartsInt
import Verif.Props.KokkosSpaces
import Verif.Props.KokkosRuntime
import Verif.Props.KokkosDual
import Verif.Props.KokkosPrec
import Verif.Audit
