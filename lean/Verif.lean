import Verif.Basic.DMat
import Verif.Basic.Mat
import Verif.Basic.OMap
import Verif.Basic.Res
import Verif.Model.Agent
import Verif.Model.AgentInit
import Verif.Model.AgentLog
import Verif.Model.AgentOps
import Verif.Model.AgentQuery
import Verif.Model.Averaging
import Verif.Model.Checks
import Verif.Model.Concurrency
import Verif.Model.DataMatrices
import Verif.Model.Demo
import Verif.Model.Examples
import Verif.Model.G2o
import Verif.Model.Ids
import Verif.Model.Init
import Verif.Model.LiftedVar
import Verif.Model.Logger
import Verif.Model.Main
import Verif.Model.OdometryRound
import Verif.Model.OneStage
import Verif.Model.Optimizer
import Verif.Model.Partition
import Verif.Model.PoseGraph
import Verif.Model.PoseGraphOps
import Verif.Model.Poses
import Verif.Model.ProblemMem
import Verif.Model.Projection
import Verif.Model.Quaternion
import Verif.Model.Robust
import Verif.Model.RobustRound
import Verif.Model.Solver
import Verif.Model.SparseFile
import Verif.Model.Text
import Verif.Model.Utils
import Verif.Spec.Accel
import Verif.Spec.Agent
import Verif.Spec.AgentLog
import Verif.Spec.Alignment
import Verif.Spec.Anchor
import Verif.Spec.Assembly
import Verif.Spec.Async
import Verif.Spec.AsyncLimit
import Verif.Spec.Averaging
import Verif.Spec.Careful
import Verif.Spec.Chordal
import Verif.Spec.Concurrency
import Verif.Spec.Convergence
import Verif.Spec.Cost
import Verif.Spec.Demo
import Verif.Spec.Descent
import Verif.Spec.Examples
import Verif.Spec.Feasible
import Verif.Spec.Floating
import Verif.Spec.Frames
import Verif.Spec.G2o
import Verif.Spec.G2oRound
import Verif.Spec.G2oShort
import Verif.Spec.Guess
import Verif.Spec.History
import Verif.Spec.Init
import Verif.Spec.LiftedVar
import Verif.Spec.LocalInit
import Verif.Spec.LogFile
import Verif.Spec.Logger
import Verif.Spec.Loss
import Verif.Spec.Main
import Verif.Spec.Messages
import Verif.Spec.Mixed
import Verif.Spec.OdometryRound
import Verif.Spec.Optimizer
import Verif.Spec.Partition
import Verif.Spec.PoseGraph
import Verif.Spec.Poses
import Verif.Spec.ProblemMem
import Verif.Spec.Projection
import Verif.Spec.Rest
import Verif.Spec.Reweight
import Verif.Spec.Robust
import Verif.Spec.RobustTeam
import Verif.Spec.Schedule
import Verif.Spec.Sequences
import Verif.Spec.Shared
import Verif.Spec.Solver
import Verif.Spec.SparseFile
import Verif.Spec.Status
import Verif.Spec.Suggest
import Verif.Spec.Team
import Verif.Spec.Text
import Verif.Spec.Topology
import Verif.Spec.Truth
import Verif.Lemmas.Activity
import Verif.Lemmas.AgentAccel
import Verif.Lemmas.AgentActive
import Verif.Lemmas.AgentAlign
import Verif.Lemmas.AgentCache
import Verif.Lemmas.AgentDeliver
import Verif.Lemmas.AgentExample
import Verif.Lemmas.AgentFeasible
import Verif.Lemmas.AgentForms
import Verif.Lemmas.AgentFrame
import Verif.Lemmas.AgentFrames
import Verif.Lemmas.AgentFresh
import Verif.Lemmas.AgentGraph
import Verif.Lemmas.AgentGuard
import Verif.Lemmas.AgentHist
import Verif.Lemmas.AgentInv
import Verif.Lemmas.AgentIterate
import Verif.Lemmas.AgentLog
import Verif.Lemmas.AgentLogFiles
import Verif.Lemmas.AgentLogHist
import Verif.Lemmas.AgentMember
import Verif.Lemmas.AgentMessages
import Verif.Lemmas.AgentPlain
import Verif.Lemmas.AgentReject
import Verif.Lemmas.AgentResidual
import Verif.Lemmas.AgentReweight
import Verif.Lemmas.AgentSequences
import Verif.Lemmas.AgentShared
import Verif.Lemmas.AgentStale
import Verif.Lemmas.AgentStart
import Verif.Lemmas.AgentStatus
import Verif.Lemmas.AgentTeam
import Verif.Lemmas.AgentTeamRun
import Verif.Lemmas.AgentTotal
import Verif.Lemmas.AgentTwin
import Verif.Lemmas.AgentUpdate
import Verif.Lemmas.AgentWeights
import Verif.Lemmas.AlignExample
import Verif.Lemmas.Anchor
import Verif.Lemmas.Assembly
import Verif.Lemmas.AsyncCritical
import Verif.Lemmas.AsyncPrecond
import Verif.Lemmas.AsyncStep
import Verif.Lemmas.AsyncTeam
import Verif.Lemmas.Averaging
import Verif.Lemmas.Caches
import Verif.Lemmas.Checks
import Verif.Lemmas.Chordal
import Verif.Lemmas.ChordalExact
import Verif.Lemmas.ChordalInit
import Verif.Lemmas.Concurrency
import Verif.Lemmas.ConcurrencyComplete
import Verif.Lemmas.ConcurrencyControl
import Verif.Lemmas.ConcurrencyDeadlock
import Verif.Lemmas.ConcurrencyLoop
import Verif.Lemmas.ConcurrencyRace
import Verif.Lemmas.ConcurrencyRun
import Verif.Lemmas.Convergence
import Verif.Lemmas.ConvergenceDemo
import Verif.Lemmas.ConvergenceStep
import Verif.Lemmas.ConvergenceTeam
import Verif.Lemmas.Cost
import Verif.Lemmas.DataCongr
import Verif.Lemmas.DemoCentral
import Verif.Lemmas.DemoCreate
import Verif.Lemmas.DemoGreedy
import Verif.Lemmas.DemoLoop
import Verif.Lemmas.DemoMember
import Verif.Lemmas.DemoRound
import Verif.Lemmas.DemoRun
import Verif.Lemmas.DemoSetup
import Verif.Lemmas.DemoSingle
import Verif.Lemmas.DemoTeam
import Verif.Lemmas.Descent
import Verif.Lemmas.Distances
import Verif.Lemmas.Errors
import Verif.Lemmas.Examples
import Verif.Lemmas.ExamplesRun
import Verif.Lemmas.Feasible
import Verif.Lemmas.Floating
import Verif.Lemmas.Fresh
import Verif.Lemmas.G2o
import Verif.Lemmas.G2oRot
import Verif.Lemmas.G2oRound
import Verif.Lemmas.G2oRun
import Verif.Lemmas.G2oShort
import Verif.Lemmas.Gradient
import Verif.Lemmas.Guess
import Verif.Lemmas.Ids
import Verif.Lemmas.Incidence
import Verif.Lemmas.LeastSquares
import Verif.Lemmas.LiftedProject
import Verif.Lemmas.LiftedVar
import Verif.Lemmas.LogFile
import Verif.Lemmas.Logger
import Verif.Lemmas.LoggerTraj
import Verif.Lemmas.Loss
import Verif.Lemmas.LossTeam
import Verif.Lemmas.Main
import Verif.Lemmas.Measurements
import Verif.Lemmas.Mixed
import Verif.Lemmas.NegativeIndex
import Verif.Lemmas.Odometry
import Verif.Lemmas.OdometryRound
import Verif.Lemmas.Optimizer
import Verif.Lemmas.Partition
import Verif.Lemmas.PartitionAgent
import Verif.Lemmas.PartitionBlocks
import Verif.Lemmas.PartitionCost
import Verif.Lemmas.PoseGraph
import Verif.Lemmas.PoseGraphRun
import Verif.Lemmas.Poses
import Verif.Lemmas.ProblemMem
import Verif.Lemmas.ProjModel
import Verif.Lemmas.Projection
import Verif.Lemmas.Quadratic
import Verif.Lemmas.Quaternion
import Verif.Lemmas.QuaternionNear
import Verif.Lemmas.Rest
import Verif.Lemmas.RestAccel
import Verif.Lemmas.RestDemo
import Verif.Lemmas.RestExact
import Verif.Lemmas.Robust
import Verif.Lemmas.RobustAvg
import Verif.Lemmas.RobustRound
import Verif.Lemmas.RobustTeam
import Verif.Lemmas.RobustWitness
import Verif.Lemmas.Schedule
import Verif.Lemmas.ScheduleStale
import Verif.Lemmas.ScheduleStart
import Verif.Lemmas.Solver
import Verif.Lemmas.SolverRun
import Verif.Lemmas.SparseFile
import Verif.Lemmas.StiefelSteady
import Verif.Lemmas.StiefelSteps
import Verif.Lemmas.Suggest
import Verif.Lemmas.Sums
import Verif.Lemmas.Svd
import Verif.Lemmas.Team
import Verif.Lemmas.TeamForm
import Verif.Lemmas.TeamInv
import Verif.Lemmas.Text
import Verif.Lemmas.TextRound
import Verif.Lemmas.TextShow
import Verif.Lemmas.Words
import Verif.Props.Agent
import Verif.Props.AgentAccel
import Verif.Props.AgentAlign
import Verif.Props.AgentAnchor
import Verif.Props.AgentCaches
import Verif.Props.AgentDescent
import Verif.Props.AgentFeasible
import Verif.Props.AgentFrames
import Verif.Props.AgentGuess
import Verif.Props.AgentInit
import Verif.Props.AgentLog
import Verif.Props.AgentMessages
import Verif.Props.AgentPlain
import Verif.Props.AgentSequences
import Verif.Props.AgentShared
import Verif.Props.AgentStatus
import Verif.Props.AgentVotes
import Verif.Props.AgentWeights
import Verif.Props.Assembly
import Verif.Props.Async
import Verif.Props.AsyncLimit
import Verif.Props.Averaging
import Verif.Props.Checks
import Verif.Props.Chordal
import Verif.Props.Concurrency
import Verif.Props.ConcurrencyLoop
import Verif.Props.ConcurrencyRace
import Verif.Props.Convergence
import Verif.Props.Demo
import Verif.Props.Errors
import Verif.Props.Examples
import Verif.Props.G2o
import Verif.Props.G2oRound
import Verif.Props.G2oShort
import Verif.Props.LiftedVar
import Verif.Props.LogFile
import Verif.Props.Logger
import Verif.Props.Loss
import Verif.Props.Main
import Verif.Props.MainSpace
import Verif.Props.Mixed
import Verif.Props.NegativeIndex
import Verif.Props.Objective
import Verif.Props.Odometry
import Verif.Props.OdometryRound
import Verif.Props.Partition
import Verif.Props.PoseGraph
import Verif.Props.Poses
import Verif.Props.ProblemMem
import Verif.Props.Projection
import Verif.Props.Queries
import Verif.Props.Recompute
import Verif.Props.ResidualShape
import Verif.Props.Rest
import Verif.Props.Robust
import Verif.Props.RobustRound
import Verif.Props.RobustTeam
import Verif.Props.Schedule
import Verif.Props.SetWeight
import Verif.Props.Solver
import Verif.Props.SparseFile
import Verif.Props.Team
import Verif.Props.Words
import Verif.Audit
