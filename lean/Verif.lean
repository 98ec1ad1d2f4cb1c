import Verif.Model.Adaptation
import Verif.Model.AeosDescription
import Verif.Model.AeosPrecompute
import Verif.Model.AeosRiemann
import Verif.Model.AeosSystem
import Verif.Model.Airfoil
import Verif.Model.AirfoilTypes
import Verif.Model.Annulus
import Verif.Model.Assembly
import Verif.Model.BoundaryFaces
import Verif.Model.BoundaryMap
import Verif.Model.Concurrency
import Verif.Model.Configuration
import Verif.Model.Descriptions
import Verif.Model.Discretization
import Verif.Model.Distributed
import Verif.Model.ElementaryStates
import Verif.Model.EosLibrary
import Verif.Model.EquationOfState
import Verif.Model.ErrorNorms
import Verif.Model.EulerInitialStates
import Verif.Model.EulerLimiter
import Verif.Model.EulerRiemann
import Verif.Model.EulerSystem
import Verif.Model.FastPow
import Verif.Model.GeoTiff
import Verif.Model.Geometries
import Verif.Model.HyperbolicStep
import Verif.Model.InitialInterpolation
import Verif.Model.InitialValues
import Verif.Model.MultiComponentVector
import Verif.Model.NavierStokes
import Verif.Model.NavierStokesRun
import Verif.Model.Newton
import Verif.Model.OneLane
import Verif.Model.ParabolicPreconditioner
import Verif.Model.PartitionSetup
import Verif.Model.Postprocessor
import Verif.Model.PrepareState
import Verif.Model.Program
import Verif.Model.ProgressReport
import Verif.Model.Quantities
import Verif.Model.QuantitiesFiles
import Verif.Model.Renumbering
import Verif.Model.Rounded
import Verif.Model.RoundedRun
import Verif.Model.RoundedShallow
import Verif.Model.RoundedShallowRun
import Verif.Model.RoundedStep
import Verif.Model.RoundedTime
import Verif.Model.Scalar
import Verif.Model.ScalarFlux
import Verif.Model.Sesame
import Verif.Model.ShallowWater
import Verif.Model.ShallowWaterInitialStates
import Verif.Model.SimdAccess
import Verif.Model.Skeleton
import Verif.Model.SparseExchange
import Verif.Model.SparseMatrix
import Verif.Model.Tensor
import Verif.Model.Threads
import Verif.Model.ThreadsPrecompute
import Verif.Model.TimeIntegrator
import Verif.Model.TimeLoop
import Verif.Model.Transfinite
import Verif.Model.VtuOutput
import Verif.Spec.Adaptation
import Verif.Spec.AeosRiemann
import Verif.Spec.AeosWaves
import Verif.Spec.AirfoilTypes
import Verif.Spec.Assembly
import Verif.Spec.ConservationLaw
import Verif.Spec.EntropyPair
import Verif.Spec.EulerRiemann
import Verif.Spec.EulerWaves
import Verif.Spec.Formula
import Verif.Spec.Frames
import Verif.Spec.NavierStokes
import Verif.Spec.RoundedShallow
import Verif.Spec.RoundedStep
import Verif.Spec.Rounding
import Verif.Spec.RungeKutta
import Verif.Spec.ShallowWaterRiemann
import Verif.Spec.ThreeConvex
import Verif.Spec.ViscousLaw
import Verif.Spec.Written
import Verif.Proofs.AeosBar
import Verif.Proofs.AeosFrames
import Verif.Proofs.AeosLimiter
import Verif.Proofs.AeosRiemann
import Verif.Proofs.AeosShock
import Verif.Proofs.AirfoilTypes
import Verif.Proofs.Assembly
import Verif.Proofs.Concurrency
import Verif.Proofs.DependenceRuns
import Verif.Proofs.Distributed
import Verif.Proofs.EntropyPair
import Verif.Proofs.EulerBar
import Verif.Proofs.EulerEntropy
import Verif.Proofs.EulerFan
import Verif.Proofs.EulerLimiter
import Verif.Proofs.EulerRiemann
import Verif.Proofs.EulerRiemannNewton
import Verif.Proofs.EulerSystem
import Verif.Proofs.ExactSolutions
import Verif.Proofs.FastPow
import Verif.Proofs.Frames
import Verif.Proofs.FreeStream
import Verif.Proofs.HyperbolicStep
import Verif.Proofs.Limiter
import Verif.Proofs.NavierStokes
import Verif.Proofs.NavierStokesSolve
import Verif.Proofs.Newton
import Verif.Proofs.PlanarSolutions
import Verif.Proofs.Program
import Verif.Proofs.Renumbering
import Verif.Proofs.RoundedShallow
import Verif.Proofs.RoundedStep
import Verif.Proofs.Rounding
import Verif.Proofs.Scalar
import Verif.Proofs.ShallowWater
import Verif.Proofs.ShallowWaterRiemann
import Verif.Proofs.ShallowWaterSolutions
import Verif.Proofs.Simulation
import Verif.Proofs.SparseExchange
import Verif.Proofs.SparseMatrix
import Verif.Proofs.StepCongr
import Verif.Proofs.StepEquations
import Verif.Proofs.StepEquivariance
import Verif.Proofs.StepLocal
import Verif.Proofs.ThreadRows
import Verif.Proofs.ThreadStep
import Verif.Proofs.Threads
import Verif.Proofs.TimeIntegrator
import Verif.Proofs.TimeLoop
import Verif.Proofs.VortexDerivatives
import Verif.Props.Adaptation
import Verif.Props.AeosFrames
import Verif.Props.AeosInvariantDomain
import Verif.Props.AeosLimiter
import Verif.Props.AeosPrecompute
import Verif.Props.AeosRiemann
import Verif.Props.AeosRun
import Verif.Props.AeosUniformRun
import Verif.Props.AirfoilCharts
import Verif.Props.AirfoilGrading
import Verif.Props.AirfoilNaca
import Verif.Props.AirfoilPsi
import Verif.Props.AirfoilTypes
import Verif.Props.Annulus
import Verif.Props.Assembly
import Verif.Props.AssemblyRun
import Verif.Props.AssemblyStep
import Verif.Props.Balance
import Verif.Props.BalanceViolation
import Verif.Props.BalanceWalls
import Verif.Props.BoundaryEntropy
import Verif.Props.BoundaryMap
import Verif.Props.Bounds
import Verif.Props.Checkpoint
import Verif.Props.Concurrency
import Verif.Props.Configuration
import Verif.Props.Dependence
import Verif.Props.DependenceRuns
import Verif.Props.Discretization
import Verif.Props.Distributed
import Verif.Props.ElementaryStates
import Verif.Props.EntropyPair
import Verif.Props.EosLibrary
import Verif.Props.EquationOfState
import Verif.Props.ErrorNorms
import Verif.Props.EulerBecker
import Verif.Props.EulerInvariantDomain
import Verif.Props.EulerLeblanc
import Verif.Props.EulerLimiter
import Verif.Props.EulerNewton
import Verif.Props.EulerNoh
import Verif.Props.EulerRampUp
import Verif.Props.EulerRarefaction
import Verif.Props.EulerRiemann
import Verif.Props.EulerShockFront
import Verif.Props.EulerSmoothWave
import Verif.Props.EulerSystem
import Verif.Props.EulerVortex
import Verif.Props.FastPow
import Verif.Props.FrameRuns
import Verif.Props.Frames
import Verif.Props.FreeStream
import Verif.Props.GeoTiff
import Verif.Props.Geometries
import Verif.Props.HyperbolicStep
import Verif.Props.InitialInterpolation
import Verif.Props.InitialValues
import Verif.Props.LakeAtRest
import Verif.Props.LakeRun
import Verif.Props.LimiterSuccess
import Verif.Props.MultiComponentVector
import Verif.Props.NavierStokes
import Verif.Props.NavierStokesExamples
import Verif.Props.NavierStokesRun
import Verif.Props.NavierStokesStep
import Verif.Props.Newton
import Verif.Props.ParabolicPreconditioner
import Verif.Props.PartitionSetup
import Verif.Props.Postprocessor
import Verif.Props.PrepareState
import Verif.Props.Program
import Verif.Props.ProgramNames
import Verif.Props.ProgressReport
import Verif.Props.Quantities
import Verif.Props.QuantitiesFiles
import Verif.Props.QuantitiesLoop
import Verif.Props.QuantitiesSeriesFiles
import Verif.Props.Renumbering
import Verif.Props.Restart
import Verif.Props.RoundedAssembly
import Verif.Props.RoundedBounds
import Verif.Props.RoundedComplete
import Verif.Props.RoundedRun
import Verif.Props.RoundedShallow
import Verif.Props.RoundedShallowAssembly
import Verif.Props.RoundedShallowComplete
import Verif.Props.RoundedShallowDepth
import Verif.Props.RoundedShallowRun
import Verif.Props.RoundedStep
import Verif.Props.RoundedTime
import Verif.Props.Rounding
import Verif.Props.Runs
import Verif.Props.Scalar
import Verif.Props.ScalarFlux
import Verif.Props.Sesame
import Verif.Props.ShallowWater
import Verif.Props.ShallowWaterLimiter
import Verif.Props.ShallowWaterParaboloid
import Verif.Props.ShallowWaterPositivity
import Verif.Props.ShallowWaterRitter
import Verif.Props.ShallowWaterSteady
import Verif.Props.ShallowWaterThreeBumps
import Verif.Props.ShallowWaterVortex
import Verif.Props.SimdAccess
import Verif.Props.SimdWidth
import Verif.Props.Skeleton
import Verif.Props.SparseExchange
import Verif.Props.SparseMatrix
import Verif.Props.StepEquations
import Verif.Props.StepLocality
import Verif.Props.Threads
import Verif.Props.ThreadsPrecompute
import Verif.Props.TimeIntegrator
import Verif.Props.TimeLoop
import Verif.Props.Transfinite2
import Verif.Props.Transfinite3
import Verif.Props.TransfiniteInverse
import Verif.Props.VtuOutput
import Verif.Props.WallsRun
import Verif.Props.Witnesses
import Verif.Props.Written
