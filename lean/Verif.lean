import Verif.Basic
import Verif.Loop
import Verif.Model.Bdm
import Verif.Model.Boundary
import Verif.Model.Curves
import Verif.Model.Debug
import Verif.Model.DemoGeometry
import Verif.Model.Driver
import Verif.Model.Eos
import Verif.Model.FeBasis
import Verif.Model.FeMaps
import Verif.Model.Fortran
import Verif.Model.FortranDemo
import Verif.Model.Fvtpf
import Verif.Model.Geometry
import Verif.Model.HeatState
import Verif.Model.Io
import Verif.Model.Ledger
import Verif.Model.Library
import Verif.Model.Lifecycle
import Verif.Model.Memory
import Verif.Model.MeshConn
import Verif.Model.MeshCount
import Verif.Model.MeshCustom
import Verif.Model.MeshErrors
import Verif.Model.MeshFaceGeom
import Verif.Model.MeshFaceOrient
import Verif.Model.MeshQuery
import Verif.Model.MeshSizes
import Verif.Model.MeshTables
import Verif.Model.MeshTraverse
import Verif.Model.MethodOptions
import Verif.Model.MpfaoCorner
import Verif.Model.MpfaoCoupled
import Verif.Model.MpfaoFlux
import Verif.Model.MpfaoGravity
import Verif.Model.MpfaoLocal
import Verif.Model.MpfaoSteady
import Verif.Model.MpfaoThAccum
import Verif.Model.MpfaoTpf
import Verif.Model.MpfaoTrans
import Verif.Model.MpfaoVelocity
import Verif.Model.Objects
import Verif.Model.Output
import Verif.Model.Pflotran
import Verif.Model.Regression
import Verif.Model.Sections
import Verif.Model.Slots
import Verif.Model.SolverHooks
import Verif.Model.Spe10
import Verif.Model.State
import Verif.Model.SteadyDemo
import Verif.Model.Subcells
import Verif.Model.TimeIntegrator
import Verif.Model.Timers
import Verif.Model.Topology
import Verif.Model.UGrid
import Verif.Model.UGridPartition
import Verif.Model.UserFunctions
import Verif.Model.Wy
import Verif.Proofs.Bdm
import Verif.Proofs.Cubic
import Verif.Proofs.CurveTables
import Verif.Proofs.DemoGeometry
import Verif.Proofs.FeBasis
import Verif.Proofs.FeMaps
import Verif.Proofs.Fortran
import Verif.Proofs.Fvtpf
import Verif.Proofs.Lifecycle
import Verif.Proofs.Memory
import Verif.Proofs.MeshColumns
import Verif.Proofs.MeshConn
import Verif.Proofs.MeshConnect
import Verif.Proofs.MeshConns
import Verif.Proofs.MeshCube
import Verif.Proofs.MeshFaces
import Verif.Proofs.MeshFacesMerge
import Verif.Proofs.MeshFacesNumber
import Verif.Proofs.MeshInternal
import Verif.Proofs.MeshLevels
import Verif.Proofs.MeshRows
import Verif.Proofs.MeshSource
import Verif.Proofs.MeshTables
import Verif.Proofs.MeshTraverse
import Verif.Proofs.MeshVertexCells
import Verif.Proofs.MeshWell
import Verif.Proofs.MpfaoCoupled
import Verif.Proofs.MpfaoFlux
import Verif.Proofs.MpfaoLocal
import Verif.Proofs.MpfaoTrans
import Verif.Proofs.RelPerm
import Verif.Proofs.Slots
import Verif.Proofs.Smoothing
import Verif.Proofs.State
import Verif.Proofs.StateBoundary
import Verif.Proofs.SteadyDemo
import Verif.Proofs.TimeIntegrator
import Verif.Proofs.UGrid
import Verif.Proofs.UGridRecords
import Verif.Proofs.UGridVertices
import Verif.Proofs.UserFunctions
import Verif.Proofs.VanGenuchten
import Verif.Proofs.Wy
import Verif.Proofs.WyBalance
import Verif.Proofs.WyLinear
import Verif.Proofs.WyLocal
import Verif.Proofs.WyParallel
import Verif.Proofs.WyRegular
import Verif.Proofs.WySystem
import Verif.Proofs.WyVelocity
import Verif.Props.Bdm
import Verif.Props.BdmConserve
import Verif.Props.BdmLinear
import Verif.Props.BdmLinearCell
import Verif.Props.BdmLinearWitness
import Verif.Props.BdmParallel
import Verif.Props.BdmRest
import Verif.Props.BdmUnique
import Verif.Props.Boundary
import Verif.Props.CoupledDetails
import Verif.Props.CoupledParallel
import Verif.Props.CurveTables
import Verif.Props.Curves
import Verif.Props.Debug
import Verif.Props.DemoGeometry
import Verif.Props.Driver
import Verif.Props.Eos
import Verif.Props.FeBasis
import Verif.Props.FeMaps
import Verif.Props.Fortran
import Verif.Props.FortranDemo
import Verif.Props.Fvtpf
import Verif.Props.FvtpfJacobian
import Verif.Props.FvtpfMonotone
import Verif.Props.FvtpfNewton
import Verif.Props.FvtpfParallel
import Verif.Props.FvtpfState
import Verif.Props.Geometry
import Verif.Props.Grow
import Verif.Props.GrowMpfao
import Verif.Props.HeatBounds
import Verif.Props.HeatState
import Verif.Props.Io
import Verif.Props.Ledger
import Verif.Props.Library
import Verif.Props.Lifecycle
import Verif.Props.Memory
import Verif.Props.MeshConn
import Verif.Props.MeshCount
import Verif.Props.MeshCustom
import Verif.Props.MeshErrors
import Verif.Props.MeshFaceGeom
import Verif.Props.MeshFaceOrient
import Verif.Props.MeshQuery
import Verif.Props.MeshSizes
import Verif.Props.MeshSource
import Verif.Props.MeshTables
import Verif.Props.MeshTraverse
import Verif.Props.MethodOptions
import Verif.Props.MpfaoCorner
import Verif.Props.MpfaoCoupled
import Verif.Props.MpfaoEnergy
import Verif.Props.MpfaoFlux
import Verif.Props.MpfaoGravity
import Verif.Props.MpfaoJacobian
import Verif.Props.MpfaoLocal
import Verif.Props.MpfaoParallel
import Verif.Props.MpfaoReorder
import Verif.Props.MpfaoSteady
import Verif.Props.MpfaoThAccum
import Verif.Props.MpfaoThJacobian
import Verif.Props.MpfaoThWhole
import Verif.Props.MpfaoTpf
import Verif.Props.MpfaoTpfHeat
import Verif.Props.MpfaoTpfWitness
import Verif.Props.MpfaoTrans
import Verif.Props.MpfaoVelocity
import Verif.Props.MpfaoVelocityWitness
import Verif.Props.Objects
import Verif.Props.Output
import Verif.Props.Pflotran
import Verif.Props.Regression
import Verif.Props.RunBalance
import Verif.Props.RunOrder
import Verif.Props.SaltBounds
import Verif.Props.Sections
import Verif.Props.Shift
import Verif.Props.Slots
import Verif.Props.Spe10
import Verif.Props.State
import Verif.Props.StateBoundary
import Verif.Props.SteadyDemo
import Verif.Props.SteadyParallel
import Verif.Props.Subcells
import Verif.Props.TimeIntegrator
import Verif.Props.Timers
import Verif.Props.Topology
import Verif.Props.Turn
import Verif.Props.TurnMpfao
import Verif.Props.UGrid
import Verif.Props.UGridOrder
import Verif.Props.UGridPartition
import Verif.Props.UserFunctions
import Verif.Props.Wy
import Verif.Props.WyBalance
import Verif.Props.WyEnergy
import Verif.Props.WyEnergyWitness
import Verif.Props.WyLinear
import Verif.Props.WyLinearWitness
import Verif.Props.WyMoved
import Verif.Props.WyParallel
import Verif.Props.WyParallelWitness
import Verif.Props.WyWitness
import Verif.Spec.Bdm
import Verif.Spec.BdmConserve
import Verif.Spec.BdmLinear
import Verif.Spec.BdmParallel
import Verif.Spec.BdmUnique
import Verif.Spec.Boundary
import Verif.Spec.CoupledParallel
import Verif.Spec.CurveTables
import Verif.Spec.Debug
import Verif.Spec.Eos
import Verif.Spec.Fe
import Verif.Spec.FeMaps
import Verif.Spec.Fortran
import Verif.Spec.FortranDemo
import Verif.Spec.Fvtpf
import Verif.Spec.FvtpfMonotone
import Verif.Spec.FvtpfNewton
import Verif.Spec.FvtpfParallel
import Verif.Spec.Geometry
import Verif.Spec.Grow
import Verif.Spec.HeatBounds
import Verif.Spec.HeatState
import Verif.Spec.Io
import Verif.Spec.Ledger
import Verif.Spec.Library
import Verif.Spec.Lifecycle
import Verif.Spec.Memory
import Verif.Spec.MeshConn
import Verif.Spec.MeshCount
import Verif.Spec.MeshCustom
import Verif.Spec.MeshErrors
import Verif.Spec.MeshFaceGeom
import Verif.Spec.MeshFaceOrient
import Verif.Spec.MeshQuery
import Verif.Spec.MeshSizes
import Verif.Spec.MeshSource
import Verif.Spec.MeshTables
import Verif.Spec.MeshTraverse
import Verif.Spec.MethodOptions
import Verif.Spec.MpfaoCorner
import Verif.Spec.MpfaoCoupled
import Verif.Spec.MpfaoEnergy
import Verif.Spec.MpfaoFlux
import Verif.Spec.MpfaoGravity
import Verif.Spec.MpfaoParallel
import Verif.Spec.MpfaoReorder
import Verif.Spec.MpfaoSteady
import Verif.Spec.MpfaoTpf
import Verif.Spec.MpfaoTrans
import Verif.Spec.MpfaoVelocity
import Verif.Spec.Objects
import Verif.Spec.Output
import Verif.Spec.Pflotran
import Verif.Spec.Regression
import Verif.Spec.RunBalance
import Verif.Spec.RunOrder
import Verif.Spec.SaltBounds
import Verif.Spec.Sections
import Verif.Spec.Shift
import Verif.Spec.Slots
import Verif.Spec.Spe10
import Verif.Spec.State
import Verif.Spec.SteadyDemo
import Verif.Spec.SteadyParallel
import Verif.Spec.Subcells
import Verif.Spec.TimeIntegrator
import Verif.Spec.Timers
import Verif.Spec.Topology
import Verif.Spec.Turn
import Verif.Spec.UGrid
import Verif.Spec.UGridPartition
import Verif.Spec.UserFunctions
import Verif.Spec.Wy
import Verif.Spec.WyEnergy
import Verif.Spec.WyLinear
import Verif.Spec.WyMoved
import Verif.Spec.WyParallel
