import Verif.Model.AgentOps
import Verif.Model.Logger

/-!
# Agents that log

The calls of an agent together with the files they write when `logData` is set.  The functions repeat
those of `AgentInit` and `AgentQuery` with the calls of the logger at their places; the other calls write nothing.
What is printed to the console is left out.
-/

namespace Dpgo

open Res Text

noncomputable section

/-- Where and how an agent logs: `mParams.logDirectory` (PGOAgent.cpp:41, 451) and the text of a matrix in
`CSVFormat` (DPGO_utils.cpp:77-78), which is left open. -/
structure LogEnv where
  dir : Str
  format : DMat ℝ → Str

/-- `writeMatrixToFile` (DPGO_utils.cpp:70-80). -/
def writeMatrixToFile (L : LogEnv) (k : Disk) (M : DMat ℝ) (path : Str) : Disk :=
  if !(k.writable path) then k else k.write path (L.format M)

/-- File names (PGOAgent.cpp:370, 441, 446, 451). -/
def initialFile : Str := "trajectory_initial.csv".toList
def measurementsFile : Str := "measurements.csv".toList
def optimizedFile : Str := "trajectory_optimized.csv".toList
def matrixFile : Str := "X.txt".toList

namespace Agent

/-- The local trajectory in the global frame (PGOAgent.cpp:328-333); `TLocalInit.value()` throws when there is no
value. -/
def globalTrajectory (a : Agent) (Twr : PArr ℝ) : Res (PArr ℝ) :=
  match a.TLocalInit with
  | none => throws
  | some T => Res.foldl (globalStep Twr) T (List.range a.numPoses)

/-- Logging the trajectory the robot is placed with (PGOAgent.cpp:367-371). -/
def logPlaced (L : LogEnv) (a : Agent) (k : Disk) (T : PArr ℝ) : Res Disk :=
  if a.params.logData then Logger.logTrajectory L.dir k a.dimension a.numPoses T.X initialFile else ok k

/-- Restarting the loop (PGOAgent.cpp:373). -/
def restart (a : Agent) : Res Agent := if a.running then a.startOptimizationLoop else ok a

/-- `initializeInGlobalFrame` with lines 367-371 (PGOAgent.cpp:308-374). -/
def inGlobalFrameLog (L : LogEnv) (a : Agent) (k : Disk) (Twr : PArr ℝ) : Res (Agent × Disk) := do
  match a.YLift with
  | none => abort
  | some Y => do
    check (Twr.d == a.dimension)
    let R ← Twr.rotationAt 0
    checkRotationMatrix R
    let a := a.clearNeighborPoses
    let T ← a.globalTrajectory Twr
    require (Y.cols == T.X.rows)
    let X ← a.X.setData (Y.mul T.X)
    let a := { a with X := X, XInit := some X, state := .INITIALIZED }
    let a ← if a.params.robust.costType ≠ .L2 then a.initializeRobustOptimization else ok a
    let a ← a.resetAcceleration
    let k ← a.logPlaced L k T
    let a ← a.restart
    ok (a, k)

/-- Placing the robot at once if it defines the global frame (PGOAgent.cpp:297-301). -/
def firstPlaceLog (L : LogEnv) (a : Agent) (k : Disk) : Res (Agent × Disk) :=
  if a.id = 0 ∨ ¬ a.params.multirobotInit then do
    let I ← PArr.identity a.d
    a.inGlobalFrameLog L k I
  else ok (a, k)

/-- Starting the loop of an asynchronous robot (PGOAgent.cpp:304-305). -/
def startIf (a : Agent) : Res Agent := if a.params.asynchronous then a.startOptimizationLoop else ok a

/-- `initialize` (PGOAgent.cpp:199-306). -/
def initLog (L : LogEnv) (o : AgentOracles) (a : Agent) (k : Disk) (TInit : Option (PArr ℝ)) : Res (Agent × Disk) :=
  if a.state ≠ .WAIT_FOR_DATA then ok (a, k)
  else
    let a := a.endOptimizationLoop
    if a.numPoses = 0 then ok (a, k)
    else do
      let (T, a) ← a.chooseTrajectory o TInit
      let T ← a.normalizeTrajectory T
      let X ← PArr.make a.relaxationRank a.dimension a.numPoses
      let a := { a with TLocalInit := some T, X := X, state := .WAIT_FOR_INITIALIZATION }
      let (a, k) ← a.firstPlaceLog L k
      let a ← a.startIf
      ok (a, k)

/-- Alignment with the sender's frame (PGOAgent.cpp:657-662). -/
def tryInitializeLog (L : LogEnv) (o : AgentOracles) (a : Agent) (k : Disk) (nid : Nat) (dict : PoseDict ℝ) :
    Res (Agent × Disk) :=
  if a.state = .WAIT_FOR_INITIALIZATION then do
    match ← a.computeRobustNeighborTransformTwoStage o nid dict with
    | none => ok (a, k)
    | some T => a.inGlobalFrameLog L k T
  else ok (a, k)

/-- `updateNeighborPoses` (PGOAgent.cpp:650-678). -/
def updateNeighborPosesLog (L : LogEnv) (o : AgentOracles) (a : Agent) (k : Disk) (nid : Nat) (dict : PoseDict ℝ) :
    Res (Agent × Disk) := do
  check (nid != a.id)
  if !a.acceptsFrom nid then ok (a, k)
  else do
    let (a, k) ← a.tryInitializeLog L o k nid dict
    if a.state ≠ .INITIALIZED then ok (a, k)
    else do
      let s ← a.storePoses nid a.neighborPoses dict
      ok ({ a with neighborPoses := s }, k)

/-- What `reset` writes (PGOAgent.cpp:438-452); the optimisation loop has ended. -/
def saveAll (L : LogEnv) (o : AgentOracles) (a : Agent) (k : Disk) : Res Disk := do
  let k ← Logger.logMeasurements L.dir k a.graph.measurements measurementsFile
  let T ← a.getTrajectoryInGlobalFrame o
  let k ← match T with
    | some T => Logger.logTrajectory L.dir k a.dimension a.numPoses T optimizedFile
    | none => ok k
  ok (writeMatrixToFile L k a.X.X (L.dir ++ matrixFile))

/-- `reset` (PGOAgent.cpp:434-473). -/
def resetLog (L : LogEnv) (o : AgentOracles) (a : Agent) (k : Disk) : Res (Agent × Disk) := do
  let k ← if a.params.logData then a.endOptimizationLoop.saveAll L o k else ok k
  let i := u32 (a.instanceNumber + 1)
  ok (clearNeighborPoses
    { a.endOptimizationLoop with
      instanceNumber := i, iterationNumber := 0, latestWeightUpdate := 0, innerIter := 0
      weightUpdateCount := 0, trajectoryResetCount := 0, state := .WAIT_FOR_DATA
      status := ⟨a.id, .WAIT_FOR_DATA, i, 0, false, 0⟩
      teamStatus := [], teamActive := List.replicate a.params.numRobots false
      globalAnchor := none, TLocalInit := none, XInit := none
      publishPublicPoses := false, publishAsynchronous := false
      graph := a.graph.reset }, k)

/-- Effect of one call on the agent and the disk (see `step`). -/
def stepLog (L : LogEnv) (o : AgentOracles) (a : Agent) (k : Disk) : AgOp → Res (Agent × Disk)
  | .init T => a.initLog L o k T
  | .initializeInGlobalFrame T => a.inGlobalFrameLog L k T
  | .updateNeighborPoses nid dict => a.updateNeighborPosesLog L o k nid dict
  | .reset => a.resetLog L o k
  | op => do
    let a ← a.step o op
    ok (a, k)

end Agent

end

end Dpgo
