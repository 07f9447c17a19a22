import Verif.Model.Solver
import Verif.Model.Utils

/-!
# The agent: state, buffers, iteration (`src/PGOAgent.cpp`, `include/DPGO/PGOAgent.h`)

One function per member function; the calls are executed one at a time (an iteration of the
asynchronous loop is a call of `iterate`, see `Verif.Model.AgentOps`).  Log output, timers and
`mLocalOptResult` (never read by the agent) are not modelled.
-/

namespace Dpgo

open Res

noncomputable section

/-- `InitializationMethod` (DPGO_types.h:36-42). -/
inductive InitMethod where
  | Odometry | Chordal | GNC_TLS
  deriving DecidableEq, Repr

/-- `PGOAgentParameters` (PGOAgent.h:47-148) without `asynchronousOptimizationRate`, `verbose` and
`logDirectory`. -/
structure AgentParams where
  d : Nat
  r : Nat
  numRobots : Nat
  asynchronous : Bool
  localOpt : OptParams
  initMethod : InitMethod
  multirobotInit : Bool
  acceleration : Bool
  restartInterval : Nat
  robust : RobustParams
  /-- `robustOptNumWeightUpdates` (an `int`) -/
  numWeightUpdates : Int
  /-- `robustOptNumResets` (an `int`) -/
  numResets : Int
  /-- `robustOptInnerIters` (an `int`) -/
  innerIters : Int
  minConvergenceRatio : ℝ
  /-- `robustInitMinInliers` -/
  minInliers : Nat
  maxNumIters : Nat
  relChangeTol : ℝ
  logData : Bool

/-- Defaults (PGOAgent.h:113-148). -/
def AgentParams.default (d r : Nat) : AgentParams :=
  { d := d, r := r, numRobots := 1, asynchronous := false, localOpt := OptParams.default,
    initMethod := .Odometry, multirobotInit := true, acceleration := false, restartInterval := 30,
    robust := RobustParams.default .L2, numWeightUpdates := 10, numResets := 0, innerIters := 30,
    minConvergenceRatio := 8 / 10, minInliers := 2, maxNumIters := 500, relChangeTol := 5 / 1000,
    logData := false }

/-- `PGOAgentState` (PGOAgent.h:185-193). -/
inductive AgentState where
  | WAIT_FOR_DATA | WAIT_FOR_INITIALIZATION | INITIALIZED
  deriving DecidableEq, Repr

/-- `PGOAgentStatus` (PGOAgent.h:196-240). -/
structure Status where
  agentID : Nat
  state : AgentState
  instanceNumber : Nat
  iterationNumber : Nat
  readyToTerminate : Bool
  relativeChange : ℝ

/-- External code called by the agent. -/
structure AgentOracles extends SolverOracles where
  /-- `fixedStiefelVariable(d, r)` (DPGO_utils.cpp:488-493) -/
  stiefel : (d r : Nat) → Matrix (Fin r) (Fin d) ℝ

/-- `PGOAgent` (PGOAgent.h:557-648, 731-748). -/
structure Agent where
  id : Nat
  d : Nat
  r : Nat
  X : PArr ℝ
  params : AgentParams
  state : AgentState
  status : Status
  cost : RobustCost
  graph : PoseGraph ℝ
  instanceNumber : Nat
  iterationNumber : Nat
  latestWeightUpdate : Nat
  innerIter : Int
  weightUpdateCount : Int
  trajectoryResetCount : Int
  teamStatus : OMap Nat Status
  teamActive : List Bool
  publishPublicPoses : Bool
  publishAsynchronous : Bool
  XInit : Option (PArr ℝ)
  TLocalInit : Option (PArr ℝ)
  YLift : Option (DMat ℝ)
  globalAnchor : Option (PArr ℝ)
  neighborPoses : PoseDict ℝ
  /-- `mOptimizationThread != nullptr` -/
  running : Bool
  neighborAuxPoses : PoseDict ℝ
  gamma : ℝ
  alpha : ℝ
  Y : PArr ℝ
  V : PArr ℝ
  XPrev : PArr ℝ
  /-- number of optimiser calls so far: only numbers the oracles, not part of the C++ state -/
  calls : Nat

/-- `++` on an `int`; overflow is undefined. -/
def incInt (x : Int) : Res Int := if x + 1 < 2 ^ 31 then ok (x + 1) else ub

namespace Agent

/-- `dimension()` (PGOAgent.h:302). -/
def dimension (a : Agent) : Nat := a.graph.d
/-- `relaxation_rank()` (PGOAgent.h:308). -/
def relaxationRank (a : Agent) : Nat := a.graph.r
/-- `num_poses()` (PGOAgent.h:296). -/
def numPoses (a : Agent) : Nat := a.graph.n

/-- `setLiftingMatrix` (PGOAgent.cpp:168-172). -/
def setLiftingMatrix (a : Agent) (M : DMat ℝ) : Res Agent := do
  check (M.rows == a.r)
  check (M.cols == a.d)
  ok { a with YLift := some M }

/-- Constructor (PGOAgent.cpp:29-45). -/
def new (o : AgentOracles) (ID : Nat) (p : AgentParams) : Res Agent := do
  let X ← PArr.make p.r p.d 1
  let g ← PoseGraph.new ID p.r p.d
  let a : Agent :=
    { id := ID, d := p.d, r := p.r, X := X, params := p, state := .WAIT_FOR_DATA
      status := ⟨ID, .WAIT_FOR_DATA, 0, 0, false, 0⟩
      cost := RobustCost.new p.robust, graph := g
      instanceNumber := 0, iterationNumber := 0, latestWeightUpdate := 0, innerIter := 0
      weightUpdateCount := 0, trajectoryResetCount := 0, teamStatus := []
      teamActive := List.replicate p.numRobots true
      publishPublicPoses := false, publishAsynchronous := false
      XInit := none, TLocalInit := none, YLift := none, globalAnchor := none
      neighborPoses := [], running := false, neighborAuxPoses := []
      gamma := 0, alpha := 0, Y := X, V := X, XPrev := X, calls := 0 }
  if ID = 0 then a.setLiftingMatrix (DMat.ofMat (o.stiefel p.d p.r)) else ok a

/-- `initializeAcceleration` (PGOAgent.cpp:899-908). -/
def initializeAcceleration (a : Agent) : Res Agent := do
  check a.params.acceleration
  if a.state = .INITIALIZED then
    ok { a with XPrev := a.X, gamma := 0, alpha := 0, V := a.X, Y := a.X }
  else ok a

/-- `if (mParams.acceleration) initializeAcceleration()` (PGOAgent.cpp:59-61, 358-360, 1138-1140). -/
def resetAcceleration (a : Agent) : Res Agent :=
  if a.params.acceleration then a.initializeAcceleration else ok a

/-- `setX` (PGOAgent.cpp:52-63). -/
def setX (a : Agent) (Xin : DMat ℝ) : Res Agent := do
  check (a.state != .WAIT_FOR_DATA)
  check (Xin.rows == a.relaxationRank)
  check (Xin.cols == (a.dimension + 1) * a.numPoses)
  let X ← a.X.setData Xin
  resetAcceleration { a with state := .INITIALIZED, X := X }

/-- `setXToInitialGuess` (PGOAgent.cpp:65-70). -/
def setXToInitialGuess (a : Agent) : Res Agent := do
  check (a.state != .WAIT_FOR_DATA)
  match a.XInit with
  | none => abort
  | some X => ok { a with X := X }

/-- `addMeasurement` (PGOAgent.cpp:174-182). -/
def addMeasurement (a : Agent) (m : Meas ℝ) : Res Agent :=
  if a.state ≠ .WAIT_FOR_DATA then ok a
  else do
    let g ← a.graph.addMeasurement m
    ok { a with graph := g }

/-- `setMeasurements` (PGOAgent.cpp:184-197). -/
def setMeasurements (a : Agent) (odo priv shared : List (Meas ℝ)) : Res Agent := do
  check (!a.running)
  check (a.state == .WAIT_FOR_DATA)
  if odo.isEmpty then ok a
  else do
    let g ← PoseGraph.new a.id a.r a.d
    let g ← g.setMeasurements (odo ++ priv ++ shared)
    ok { a with graph := g }

/-- `clearNeighborPoses` (PGOAgent.cpp:704-708). -/
def clearNeighborPoses (a : Agent) : Agent := { a with neighborPoses := [], neighborAuxPoses := [] }

/-- `clearActiveNeighborPoses` (PGOAgent.cpp:710-716). -/
def clearActiveNeighborPoses (a : Agent) : Res Agent := do
  let ids ← a.graph.activeNeighborPublicPoseIDs
  ok { a with
    neighborPoses := ids.foldl (fun m k => OMap.erase ltPoseID k m) a.neighborPoses
    neighborAuxPoses := ids.foldl (fun m k => OMap.erase ltPoseID k m) a.neighborAuxPoses }

/-- `setGlobalAnchor` (PGOAgent.cpp:838-844). -/
def setGlobalAnchor (a : Agent) (M : DMat ℝ) : Res Agent := do
  check (M.rows == a.relaxationRank)
  check (M.cols == a.dimension + 1)
  let Xa ← PArr.make a.r a.d 1
  let Xa ← Xa.setPose 0 M
  ok { a with globalAnchor := some Xa }

/-- `getStatus` (PGOAgent.h:342-348): refreshes and returns the status. -/
def getStatus (a : Agent) : Status × Agent :=
  let s := { a.status with
    agentID := a.id, state := a.state, instanceNumber := a.instanceNumber
    iterationNumber := a.iterationNumber }
  (s, { a with status := s })

/-- `hasNeighborStatus` (PGOAgent.h:353-355). -/
def hasNeighborStatus (a : Agent) (nid : Nat) : Bool := (OMap.find? ltNat nid a.teamStatus).isSome

/-- `setNeighborStatus` (PGOAgent.h:370-372). -/
def setNeighborStatus (a : Agent) (s : Status) : Agent :=
  { a with teamStatus := OMap.insert ltNat s.agentID s a.teamStatus }

/-- `startOptimizationLoop` (PGOAgent.cpp:475-484). -/
def startOptimizationLoop (a : Agent) : Res Agent := do
  check (!a.params.acceleration)
  ok { a with running := true }

/-- `endOptimizationLoop` (PGOAgent.cpp:501-509). -/
def endOptimizationLoop (a : Agent) : Agent := { a with running := false }

/-! ### Robust weights -/

/-- Loop of `initializeRobustOptimization` (PGOAgent.cpp:1055-1059). -/
def weightsToOne (g : PoseGraph ℝ) (ps : List PoseGraph.MPtr) : Res (PoseGraph ℝ) :=
  Res.foldl (fun g p =>
    match g.deref p with
    | none => ub
    | some m => ok (if m.fixedWeight then g else g.writeWeight p 1 m.fixedWeight)) g ps

/-- `initializeRobustOptimization` (PGOAgent.cpp:1048-1060): the caches of the graph are kept. -/
def initializeRobustOptimization (a : Agent) : Res Agent := do
  let ps ← a.graph.activeLoopClosures
  let g ← weightsToOne a.graph ps
  ok { a with cost := a.cost.reset, graph := g }

/-- `computeMeasurementError` under a square root with the sizes of the products
(PGOAgent.cpp:1100, DPGO_utils.cpp:495-507). -/
def residualOf (m : Meas ℝ) (Y1 p1 Y2 p2 : DMat ℝ) : Res ℝ := do
  require (Y1.cols == m.R.rows && Y2.cols == m.R.cols && Y1.cols == m.t.rows && m.t.cols == 1
    && Y1.rows == Y2.rows)
  ok (Real.sqrt (measurementError m Y1 p1 Y2 p2))

/-- `computeMeasurementResidual` (PGOAgent.cpp:1062-1102): the residual, or `none` for `false`. -/
def computeMeasurementResidual (a : Agent) (m : Meas ℝ) : Res (Option ℝ) :=
  if a.state ≠ .INITIALIZED then ok none
  else if m.r1 = m.r2 then do
    let Y1 ← a.X.rotationAt (u32 m.p1)
    let p1 ← a.X.translationAt (u32 m.p1)
    let Y2 ← a.X.rotationAt (u32 m.p2)
    let p2 ← a.X.translationAt (u32 m.p2)
    let res ← residualOf m Y1 p1 Y2 p2
    ok (some res)
  else if m.r1 = a.id then do
    let Y1 ← a.X.rotationAt (u32 m.p1)
    let p1 ← a.X.translationAt (u32 m.p1)
    match OMap.find? ltPoseID (PoseID.make m.r2 m.p2) a.neighborPoses with
    | none => ok none
    | some N => do
      let Y2 ← N.rotationAt 0
      let p2 ← N.translationAt 0
      let res ← residualOf m Y1 p1 Y2 p2
      ok (some res)
  else do
    let Y2 ← a.X.rotationAt (u32 m.p2)
    let p2 ← a.X.translationAt (u32 m.p2)
    match OMap.find? ltPoseID (PoseID.make m.r1 m.p1) a.neighborPoses with
    | none => ok none
    | some N => do
      let Y1 ← N.rotationAt 0
      let p1 ← N.translationAt 0
      let res ← residualOf m Y1 p1 Y2 p2
      ok (some res)

/-- Loop body of `updateMeasurementWeights` (PGOAgent.cpp:1111-1118); `g` is the graph with the
weights written so far. -/
def reweightStep (a : Agent) (g : PoseGraph ℝ) (p : PoseGraph.MPtr) : Res (PoseGraph ℝ) :=
  match g.deref p with
  | none => ub
  | some m =>
    if m.fixedWeight then ok g
    else do
      match ← a.computeMeasurementResidual m with
      | none => ok g
      | some res => do
        let w ← a.cost.weight res
        ok (g.writeWeight p w m.fixedWeight)

/-- Trajectory reset after a weight update (PGOAgent.cpp:1130-1135). -/
def resetTrajectory (a : Agent) : Res Agent :=
  if a.trajectoryResetCount < a.params.numResets then do
    let k ← incInt a.trajectoryResetCount
    let a ← setXToInitialGuess { a with trajectoryResetCount := k }
    ok a.clearNeighborPoses
  else ok a

/-- `updateMeasurementWeights` (PGOAgent.cpp:1104-1142). -/
def updateMeasurementWeights (a : Agent) : Res Agent :=
  if a.state ≠ .INITIALIZED then ok a
  else do
    let ps ← a.graph.activeLoopClosures
    let g ← Res.foldl a.reweightStep a.graph ps
    let k ← incInt a.weightUpdateCount
    let a ← resetTrajectory { a with
      graph := g.clearDataMatrices, weightUpdateCount := k, latestWeightUpdate := a.iterationNumber
      innerIter := 0, cost := a.cost.update, teamStatus := []
      status := { a.status with readyToTerminate := false, relativeChange := 0 } }
    a.resetAcceleration

/-- `setMeasurementWeight` (PGOAgent.cpp:1144-1155): the caches of the graph are kept. -/
def setMeasurementWeight (a : Agent) (src dst : PoseID) (w : ℝ) (fixed : Bool) :
    Res (Bool × Agent) := do
  match ← a.graph.findMeasurement src dst with
  | none => ok (false, a)
  | some p => ok (true, { a with graph := a.graph.writeWeight p w fixed })

/-! ### Activity and termination -/

/-- `isRobotActive` (PGOAgent.cpp:1167-1171). -/
def isRobotActive (a : Agent) (rid : Nat) : Res Bool :=
  if rid ≥ a.params.numRobots then ok false
  else match a.teamActive[rid]? with
    | some b => ok b
    | none => ub

/-- `setRobotActive` (PGOAgent.cpp:1173-1184). -/
def setRobotActive (a : Agent) (rid : Nat) (active : Bool) : Res Agent :=
  if rid ≥ a.params.numRobots then ok a
  else do
    require (decide (rid < a.teamActive.length))
    let g ← if a.graph.hasNeighbor rid then a.graph.setNeighborActive rid active else ok a.graph
    ok { a with teamActive := a.teamActive.set rid active, graph := g }

/-- `numActiveRobots` (PGOAgent.cpp:1186-1194). -/
def numActiveRobots (a : Agent) : Res Nat :=
  Res.foldl (fun k rid => do
    let b ← a.isRobotActive rid
    ok (if b then k + 1 else k)) 0 (List.range a.params.numRobots)

/-- `isRobotInitialized` (PGOAgent.cpp:1157-1165). -/
def isRobotInitialized (a : Agent) (rid : Nat) : Bool :=
  if rid = a.id then a.state == .INITIALIZED
  else match OMap.find? ltNat rid a.teamStatus with
    | none => false
    | some s => s.state == .INITIALIZED

/-- Loop of `shouldTerminate` (PGOAgent.cpp:861-875): `false` as soon as an active robot is not ready. -/
def teamReady (a : Agent) : List Nat → Res Bool
  | [] => ok true
  | rid :: l => do
    let b ← a.isRobotActive rid
    if !b then a.teamReady l
    else match OMap.find? ltNat rid a.teamStatus with
      | none => ok false
      | some s => do
        check (s.agentID == rid)
        if s.state ≠ .INITIALIZED then ok false
        else if !s.readyToTerminate then ok false
        else a.teamReady l

/-- `shouldTerminate` (PGOAgent.cpp:846-878). -/
def shouldTerminate (a : Agent) : Res Bool :=
  if a.iterationNumber ≥ a.params.maxNumIters then ok true
  else if a.params.robust.costType ≠ .L2 ∧ a.weightUpdateCount < a.params.numWeightUpdates then
    ok false
  else a.teamReady (List.range a.params.numRobots)

/-- Loop of `shouldUpdateMeasurementWeights` (PGOAgent.cpp:1014-1038). -/
def teamConverged (a : Agent) : List Nat → Res Bool
  | [] => ok true
  | rid :: l => do
    let b ← a.isRobotActive rid
    if !b then a.teamConverged l
    else match OMap.find? ltNat rid a.teamStatus with
      | none => ok false
      | some s => do
        check (s.agentID == rid)
        if s.iterationNumber < a.latestWeightUpdate then ok false
        else if s.state ≠ .INITIALIZED then ok false
        else if !s.readyToTerminate then ok false
        else a.teamConverged l

/-- `shouldUpdateMeasurementWeights` (PGOAgent.cpp:997-1046). -/
def shouldUpdateMeasurementWeights (a : Agent) : Res Bool :=
  if a.params.robust.costType = .L2 then ok false
  else if a.weightUpdateCount ≥ a.params.numWeightUpdates then ok false
  else if a.innerIter ≥ a.params.innerIters then ok true
  else a.teamConverged (List.range a.params.numRobots)

/-- `anchorFirstPose()` (PGOAgent.cpp:1196-1205). -/
def anchorFirstPose (a : Agent) : Res (Bool × Agent) :=
  if a.numPoses > 0 then do
    let prior ← PArr.make a.relaxationRank a.dimension 1
    let M ← a.X.poseAt 0
    let prior ← prior.setData M
    let g ← a.graph.setPrior 0 prior
    ok (true, { a with graph := g })
  else ok (false, a)

/-- `anchorFirstPose(prior)` (PGOAgent.cpp:1207-1212). -/
def anchorFirstPoseWith (a : Agent) (prior : PArr ℝ) : Res (Bool × Agent) := do
  check (prior.d == a.dimension)
  check (prior.r == a.relaxationRank)
  let g ← a.graph.setPrior 0 prior
  ok (true, { a with graph := g })

/-! ### Iteration -/

/-- `updateGamma` (PGOAgent.cpp:910-914); `2 * numRobots` is 32-bit arithmetic. -/
def updateGamma (a : Agent) : Res Agent := do
  check a.params.acceleration
  check (a.state == .INITIALIZED)
  let N := a.params.numRobots
  if u32 (2 * N) = 0 then nonfinite
  else ok { a with
    gamma := (1 + Real.sqrt (1 + 4 * (N : ℝ) ^ 2 * a.gamma ^ 2)) / (u32 (2 * N) : ℝ) }

open Classical in
/-- `updateAlpha` (PGOAgent.cpp:916-920). -/
def updateAlpha (a : Agent) : Res Agent := do
  check a.params.acceleration
  check (a.state == .INITIALIZED)
  if a.gamma * a.params.numRobots = 0 then nonfinite
  else ok { a with alpha := 1 / (a.gamma * a.params.numRobots) }

/-- `manifold.project(M)` (PGOAgent.cpp:925-927, 933-935), blocks in sequential order. -/
def project (o : AgentOracles) (a : Agent) (M : DMat ℝ) : Res (DMat ℝ) :=
  liftedProject o.svd a.relaxationRank a.dimension a.numPoses (List.range a.numPoses) M

/-- `updateY` (PGOAgent.cpp:922-928). -/
def updateY (o : AgentOracles) (a : Agent) : Res Agent := do
  check a.params.acceleration
  check (a.state == .INITIALIZED)
  require (a.X.X.rows == a.V.X.rows && a.X.X.cols == a.V.X.cols)
  let M := (a.X.X.smul (1 - a.alpha)).add (a.V.X.smul a.alpha)
  let P ← a.project o M
  let Y ← a.Y.setData P
  ok { a with Y := Y }

/-- `updateV` (PGOAgent.cpp:930-936). -/
def updateV (o : AgentOracles) (a : Agent) : Res Agent := do
  check a.params.acceleration
  check (a.state == .INITIALIZED)
  require (a.X.X.rows == a.V.X.rows && a.X.X.cols == a.V.X.cols)
  require (a.X.X.rows == a.Y.X.rows && a.X.X.cols == a.Y.X.cols)
  let M := a.V.X.add ((a.X.X.sub a.Y.X).smul a.gamma)
  let P ← a.project o M
  let V ← a.V.setData P
  ok { a with V := V }

/-- Optimisation part of `updateX` (PGOAgent.cpp:966-982): `g` has its data matrices. -/
def optimizeX (o : AgentOracles) (a : Agent) (g : PoseGraph ℝ) (accel : Bool) :
    Res (Bool × Agent) := do
  let X0 := if accel then a.Y.X else a.X.X
  check (X0.rows == g.r)
  check (X0.cols == (g.d + 1) * g.n)
  let (Z, _, g) ← optimize (o.opt a.calls) a.params.localOpt g X0
  let X ← a.X.setData Z
  ok (true, { a with X := X, graph := g, calls := a.calls + 1 })

/-- `updateX` (PGOAgent.cpp:938-995). -/
def updateX (o : AgentOracles) (a : Agent) (doOpt accel : Bool) : Res (Bool × Agent) :=
  if !doOpt then ok (true, if accel then { a with X := a.Y } else a)
  else do
    check (!accel || a.params.acceleration)
    check (a.state == .INITIALIZED)
    let g := a.graph.setNeighborPoses (if accel then a.neighborAuxPoses else a.neighborPoses)
    let (built, g) ← g.constructDataMatrices
    if built then a.optimizeX o g accel else ok (false, { a with graph := g })

/-- `shouldRestart` (PGOAgent.cpp:880-885); `% 0` is undefined. -/
def shouldRestart (a : Agent) : Res Bool :=
  if a.params.acceleration then
    if a.params.restartInterval = 0 then ub
    else ok (decide (u32 (a.iterationNumber + 1) % a.params.restartInterval = 0))
  else ok false

/-- `restartNesterovAcceleration` (PGOAgent.cpp:887-897). -/
def restartNesterovAcceleration (o : AgentOracles) (a : Agent) (doOpt : Bool) : Res Agent :=
  if a.params.acceleration ∧ a.state = .INITIALIZED then do
    let (_, a) ← updateX o { a with X := a.XPrev } doOpt false
    ok { a with V := a.X, Y := a.X, gamma := 0, alpha := 0 }
  else ok a

/-- Accelerated step (PGOAgent.cpp:388-395). -/
def accelStep (o : AgentOracles) (a : Agent) (doOpt : Bool) : Res (Bool × Agent) := do
  let a ← a.updateGamma
  let a ← a.updateAlpha
  let a ← a.updateY o
  let (success, a) ← a.updateX o doOpt true
  let a ← a.updateV o
  let b ← a.shouldRestart
  if b then do
    let a ← a.restartNesterovAcceleration o doOpt
    ok (success, a)
  else ok (success, a)

open Classical in
/-- Status update (PGOAgent.cpp:401-422).  With no loop closure the ratio is NaN and the comparison is
false. -/
def iterateStatus (a : Agent) (success : Bool) : Res Agent := do
  let change ← PArr.maxTranslationDistance a.X a.XPrev
  let tol : ℝ :=
    if a.params.robust.costType ≠ .L2 ∧ a.weightUpdateCount = 0 then 5 else a.params.relChangeTol
  let stat ← a.graph.statistics
  let low : Prop := stat.total ≠ 0 ∧
    ((stat.accept : ℝ) + stat.reject) / stat.total < a.params.minConvergenceRatio
  ok { a with status :=
    { agentID := a.id, state := a.state, instanceNumber := a.instanceNumber
      iterationNumber := a.iterationNumber
      readyToTerminate := success && decide (¬ change > tol) && decide (¬ low)
      relativeChange := change } }

/-- The part of `iterate` run when initialised (PGOAgent.cpp:383-430). -/
def iterateBody (o : AgentOracles) (a : Agent) (doOpt : Bool) : Res (Bool × Agent) := do
  let (success, a) ←
    if a.params.acceleration then accelStep o { a with XPrev := a.X } doOpt
    else updateX o { a with XPrev := a.X } doOpt false
  let a ← if doOpt then a.iterateStatus success else ok a
  ok (success, { a with
    publishPublicPoses := a.publishPublicPoses || doOpt || a.params.acceleration
    publishAsynchronous := true })

/-- Counters at the start of `iterate` (PGOAgent.cpp:377-380). -/
def tick (a : Agent) : Res Agent := do
  let k ← if a.params.robust.costType ≠ .L2 then incInt a.innerIter else ok a.innerIter
  ok { a with iterationNumber := u32 (a.iterationNumber + 1), innerIter := k }

/-- `iterate` (PGOAgent.cpp:376-432). -/
def iterate (o : AgentOracles) (a : Agent) (doOpt : Bool) : Res (Bool × Agent) := do
  let a ← a.tick
  if a.state = .INITIALIZED then a.iterateBody o doOpt else ok (true, a)

end Agent

end

end Dpgo
