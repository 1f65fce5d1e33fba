import Verif.Lemmas.Approximation
import Verif.Lemmas.Cartesian
import Verif.Lemmas.CartesianSim
import Verif.Lemmas.Converge
import Verif.Lemmas.Coupled
import Verif.Lemmas.Deviation
import Verif.Lemmas.DeviationDual
import Verif.Lemmas.Direct
import Verif.Lemmas.Dmp
import Verif.Lemmas.DmpHistory
import Verif.Lemmas.DmpStep
import Verif.Lemmas.Dtypes
import Verif.Lemmas.Dual
import Verif.Lemmas.DualSim
import Verif.Lemmas.ExpPoly
import Verif.Lemmas.FedBack
import Verif.Lemmas.FiniteDifferences
import Verif.Lemmas.Float
import Verif.Lemmas.FloatCall
import Verif.Lemmas.FloatDmp
import Verif.Lemmas.FloatLoop
import Verif.Lemmas.FloatRk4
import Verif.Lemmas.FloatStep
import Verif.Lemmas.Forward
import Verif.Lemmas.Frames
import Verif.Lemmas.FramesFv
import Verif.Lemmas.FramesImitate
import Verif.Lemmas.FramesSim
import Verif.Lemmas.Geodesic
import Verif.Lemmas.Heap
import Verif.Lemmas.HeapClasses
import Verif.Lemmas.HeapFrame
import Verif.Lemmas.HeapRun
import Verif.Lemmas.HeapSound
import Verif.Lemmas.Hinge
import Verif.Lemmas.Io
import Verif.Lemmas.Kinematics
import Verif.Lemmas.Likelihood
import Verif.Lemmas.LinearOde
import Verif.Lemmas.Loops
import Verif.Lemmas.OneStep
import Verif.Lemmas.OrientationEnergy
import Verif.Lemmas.OrientationError
import Verif.Lemmas.OrientationFollow
import Verif.Lemmas.OrientationMovement
import Verif.Lemmas.OrientationRun
import Verif.Lemmas.OrientationSamples
import Verif.Lemmas.OrientationTracking
import Verif.Lemmas.OutputRate
import Verif.Lemmas.Pinv
import Verif.Lemmas.Promp
import Verif.Lemmas.PrompCondition
import Verif.Lemmas.PrompFrames
import Verif.Lemmas.Py
import Verif.Lemmas.Quat
import Verif.Lemmas.Riemann
import Verif.Lemmas.Rk4Order
import Verif.Lemmas.Rotation
import Verif.Lemmas.Signs
import Verif.Lemmas.Sim
import Verif.Lemmas.SimQuat
import Verif.Lemmas.SmallChanges
import Verif.Lemmas.Stability
import Verif.Lemmas.SubSteps
import Verif.Lemmas.Superposition
import Verif.Lemmas.Toy
import Verif.Lemmas.Turn
import Verif.Model.Base
import Verif.Model.Canonical
import Verif.Model.CartesianDmp
import Verif.Model.Coupling
import Verif.Model.CouplingTrajectory
import Verif.Model.Dmp
import Verif.Model.DmpStep
import Verif.Model.Dtypes
import Verif.Model.DtypesPose
import Verif.Model.DtypesSpring
import Verif.Model.DualCartesian
import Verif.Model.DualImitate
import Verif.Model.FinalVelocity
import Verif.Model.FloatClock
import Verif.Model.FloatOpenLoop
import Verif.Model.FloatStep
import Verif.Model.Forcing
import Verif.Model.Heap
import Verif.Model.HeapClasses
import Verif.Model.HeapMinJerk
import Verif.Model.Imitate
import Verif.Model.Io
import Verif.Model.IoClasses
import Verif.Model.Kinematics
import Verif.Model.KinematicsState
import Verif.Model.Lasa
import Verif.Model.MinJerk
import Verif.Model.Plot
import Verif.Model.PotentialField
import Verif.Model.PotentialFieldPlot
import Verif.Model.Promp
import Verif.Model.PrompArrays
import Verif.Model.PrompEM
import Verif.Model.Quat
import Verif.Model.Simulation
import Verif.Model.SpringDamper
import Verif.Model.StateFollowing
import Verif.Model.StateSpaceDistribution
import Verif.Model.StepArguments
import Verif.Model.Toy
import Verif.Model.Visualization
import Verif.Np
import Verif.Props.Canonical
import Verif.Props.Cartesian
import Verif.Props.CartesianClass
import Verif.Props.CartesianImitate
import Verif.Props.CartesianIntegration
import Verif.Props.CartesianReproduction
import Verif.Props.CartesianReproductionSteps
import Verif.Props.CartesianSteps
import Verif.Props.Conditioning
import Verif.Props.Configure
import Verif.Props.ConstantDemonstrations
import Verif.Props.Convergence
import Verif.Props.Coupled
import Verif.Props.Coupling
import Verif.Props.CouplingTrajectory
import Verif.Props.Direct
import Verif.Props.DirectMore
import Verif.Props.Disturbance
import Verif.Props.DmpClass
import Verif.Props.Dtypes
import Verif.Props.DtypesPose
import Verif.Props.DtypesSpring
import Verif.Props.Dual
import Verif.Props.DualArms
import Verif.Props.DualArmsImitate
import Verif.Props.DualClass
import Verif.Props.DualImitate
import Verif.Props.DualIntegration
import Verif.Props.DualReproduction
import Verif.Props.DualTracking
import Verif.Props.Equilibrium
import Verif.Props.Equivariance
import Verif.Props.FinalVelocity
import Verif.Props.FloatClock
import Verif.Props.FloatDmp
import Verif.Props.FloatGoal
import Verif.Props.FloatOpenLoop
import Verif.Props.FloatRk4
import Verif.Props.Forcing
import Verif.Props.Forward
import Verif.Props.Frames
import Verif.Props.FramesDual
import Verif.Props.FramesDualImitate
import Verif.Props.FramesFinalVelocity
import Verif.Props.FramesSpring
import Verif.Props.FramesStateFollowing
import Verif.Props.FvConvergence
import Verif.Props.FvIntegration
import Verif.Props.FvReproduction
import Verif.Props.Heap
import Verif.Props.HeapMinJerk
import Verif.Props.HeapWeights
import Verif.Props.IKBounds
import Verif.Props.IKTrajectory
import Verif.Props.Identifiable
import Verif.Props.IdentifiableImitate
import Verif.Props.Imitate
import Verif.Props.ImitateTime
import Verif.Props.Integration
import Verif.Props.InverseKinematics
import Verif.Props.Io
import Verif.Props.IoClasses
import Verif.Props.IoMore
import Verif.Props.Kinematics
import Verif.Props.KinematicsState
import Verif.Props.Lasa
import Verif.Props.Likelihood
import Verif.Props.Memory
import Verif.Props.MinJerk
import Verif.Props.MinJerkShape
import Verif.Props.NewObjects
import Verif.Props.Obstacle
import Verif.Props.OrientationCartesian
import Verif.Props.OrientationDual
import Verif.Props.OrientationDualReproduction
import Verif.Props.OrientationIntegration
import Verif.Props.OrientationJump
import Verif.Props.OrientationReproduction
import Verif.Props.OrientationSpring
import Verif.Props.OrientationSpringIntegration
import Verif.Props.OutputRate
import Verif.Props.PhaseObjects
import Verif.Props.Plot
import Verif.Props.PoseDist
import Verif.Props.PotentialField
import Verif.Props.PotentialFieldPlot
import Verif.Props.PrecomputedCoupling
import Verif.Props.PrecomputedDmp
import Verif.Props.Promp
import Verif.Props.PrompArrays
import Verif.Props.PrompBayes
import Verif.Props.PrompBayesErrors
import Verif.Props.PrompBayesSequence
import Verif.Props.PrompConditions
import Verif.Props.PrompEM
import Verif.Props.PrompEMSteps
import Verif.Props.PrompFindings
import Verif.Props.PrompFrames
import Verif.Props.PrompRandomVelocity
import Verif.Props.PrompRepresentation
import Verif.Props.PrompSamples
import Verif.Props.PrompVelocity
import Verif.Props.PrompVia
import Verif.Props.PrompViaSuccess
import Verif.Props.Quat
import Verif.Props.QuatAgree
import Verif.Props.RandomDmp
import Verif.Props.RandomDmpAverage
import Verif.Props.RandomDmpFv
import Verif.Props.Regularisation
import Verif.Props.Representation
import Verif.Props.Reproduction
import Verif.Props.ResetObjects
import Verif.Props.Rk4Cartesian
import Verif.Props.Rk4Order
import Verif.Props.Rk4Steps
import Verif.Props.Signs
import Verif.Props.SignsMore
import Verif.Props.SimulationChain
import Verif.Props.SimulationCommands
import Verif.Props.SimulationExceptions
import Verif.Props.SimulationLoops
import Verif.Props.SimulationMockup
import Verif.Props.SimulationPoses
import Verif.Props.SimulationRh5
import Verif.Props.SimulationRobot
import Verif.Props.SimulationSteps
import Verif.Props.SmallChanges
import Verif.Props.SmoothStart
import Verif.Props.SpringDamper
import Verif.Props.StabilityStateFollowing
import Verif.Props.StateFollowing
import Verif.Props.StateFollowingIntegration
import Verif.Props.StateSpaceDistribution
import Verif.Props.StateSpacePipeline
import Verif.Props.StepArguments
import Verif.Props.StepInterchange
import Verif.Props.StepNames
import Verif.Props.StepOpenLoop
import Verif.Props.Steps
import Verif.Props.Superposition
import Verif.Props.SuperpositionStateFollowing
import Verif.Props.Toy
import Verif.Props.Tracking
import Verif.Props.Unused
import Verif.Props.Visualization
import Verif.Py
import Verif.Spec.Cartesian
import Verif.Spec.CartesianHistory
import Verif.Spec.Conditioning
import Verif.Spec.Configure
import Verif.Spec.Coupled
import Verif.Spec.Coupling
import Verif.Spec.CouplingTrajectory
import Verif.Spec.Direct
import Verif.Spec.Disturbance
import Verif.Spec.Dmp
import Verif.Spec.DmpHistory
import Verif.Spec.Dtypes
import Verif.Spec.Dual
import Verif.Spec.DualArms
import Verif.Spec.DualHistory
import Verif.Spec.DualTracking
import Verif.Spec.Execution
import Verif.Spec.Float
import Verif.Spec.FloatGoal
import Verif.Spec.Frames
import Verif.Spec.FramesDual
import Verif.Spec.FvHistory
import Verif.Spec.FvSolution
import Verif.Spec.Geodesic
import Verif.Spec.Heap
import Verif.Spec.HeapMinJerk
import Verif.Spec.Imitate
import Verif.Spec.Io
import Verif.Spec.Kinematics
import Verif.Spec.Lasa
import Verif.Spec.Likelihood
import Verif.Spec.MinJerk
import Verif.Spec.OpenLoop
import Verif.Spec.OrientationMovement
import Verif.Spec.OrientationSolution
import Verif.Spec.OutputRate
import Verif.Spec.Phase
import Verif.Spec.Plot
import Verif.Spec.PositionAhead
import Verif.Spec.PositionSolution
import Verif.Spec.PotentialFieldPlot
import Verif.Spec.Promp
import Verif.Spec.PrompArrays
import Verif.Spec.PrompBayes
import Verif.Spec.PrompConditions
import Verif.Spec.PrompEM
import Verif.Spec.PrompFrames
import Verif.Spec.PrompRepresentation
import Verif.Spec.PrompSamples
import Verif.Spec.Quat
import Verif.Spec.RandomDmp
import Verif.Spec.Regularisation
import Verif.Spec.Representation
import Verif.Spec.Rk4
import Verif.Spec.Signs
import Verif.Spec.Simulation
import Verif.Spec.SmallChanges
import Verif.Spec.SmallChangesStateFollowing
import Verif.Spec.Solution
import Verif.Spec.Spring
import Verif.Spec.Stability
import Verif.Spec.StateFollowing
import Verif.Spec.StateFollowingSolution
import Verif.Spec.StepNames
import Verif.Spec.Superposition
import Verif.Spec.SuperpositionStateFollowing
import Verif.Spec.Toy
import Verif.Spec.Tracking
