import Verif.Model.AgentInit

/-!
# The agent: queries (`src/PGOAgent.cpp:72-166, 718-836`)

Queries do not change the agent; the outcome `none` stands for the return value `false`.
-/

namespace Dpgo

open Res

/-- `std::map::emplace`: an existing entry is kept. -/
def OMap.emplace {κ β : Type} (lt : κ → κ → Bool) (k : κ) (v : β) (m : OMap κ β) : OMap κ β :=
  if (OMap.find? lt k m).isSome then m else OMap.insert lt k v m

noncomputable section

namespace Agent

/-- `getX` (PGOAgent.cpp:72-76). -/
def getX (a : Agent) : DMat ℝ := a.X.X

/-- Common part of `getSharedPose` and `getAuxSharedPose` (PGOAgent.cpp:79-84, 89-94). -/
def sharedPoseOf (a : Agent) (B : PArr ℝ) (i : Nat) : Res (Option (DMat ℝ)) :=
  if a.state ≠ .INITIALIZED then ok none
  else if i ≥ a.numPoses then ok none
  else do
    let M ← B.poseAt i
    ok (some M)

/-- `getSharedPose` (PGOAgent.cpp:78-85). -/
def getSharedPose (a : Agent) (i : Nat) : Res (Option (DMat ℝ)) := a.sharedPoseOf a.X i

/-- `getAuxSharedPose` (PGOAgent.cpp:87-95). -/
def getAuxSharedPose (a : Agent) (i : Nat) : Res (Option (DMat ℝ)) := do
  check a.params.acceleration
  a.sharedPoseOf a.Y i

/-- Common loop of `getSharedPoseDict` and `getAuxSharedPoseDict` (PGOAgent.cpp:98-109, 134-145). -/
def sharedDictOf (a : Agent) (B : PArr ℝ) : Res (Option (PoseDict ℝ)) :=
  if a.state ≠ .INITIALIZED then ok none
  else do
    let m ← Res.foldl (fun (m : PoseDict ℝ) (pid : PoseID) => do
      check (pid.robot == a.id)
      let M ← B.poseAt pid.frame
      let L ← PArr.ofLifted M
      ok (OMap.emplace ltPoseID pid L m)) [] a.graph.localShared
    ok (some m)

/-- `getSharedPoseDict` (PGOAgent.cpp:97-110). -/
def getSharedPoseDict (a : Agent) : Res (Option (PoseDict ℝ)) := a.sharedDictOf a.X

/-- `getAuxSharedPoseDict` (PGOAgent.cpp:132-146). -/
def getAuxSharedPoseDict (a : Agent) : Res (Option (PoseDict ℝ)) := do
  check a.params.acceleration
  a.sharedDictOf a.Y

/-- Loop body of the per-neighbour versions (PGOAgent.cpp:118-128, 154-164). -/
def neighborDictStep (a : Agent) (B : PArr ℝ) (m : PoseDict ℝ) (e : Meas ℝ) : Res (PoseDict ℝ) :=
  if e.r1 = a.id then do
    let M ← B.poseAt (u32 e.p1)
    let L ← PArr.ofLifted M
    ok (OMap.emplace ltPoseID (PoseID.make e.r1 e.p1) L m)
  else if e.r2 = a.id then do
    let M ← B.poseAt (u32 e.p2)
    let L ← PArr.ofLifted M
    ok (OMap.emplace ltPoseID (PoseID.make e.r2 e.p2) L m)
  else ok m

/-- Common part of the per-neighbour versions (PGOAgent.cpp:113-129, 149-165). -/
def neighborDictOf (a : Agent) (B : PArr ℝ) (nid : Nat) : Res (Option (PoseDict ℝ)) :=
  if a.state ≠ .INITIALIZED then ok none
  else do
    let m ← Res.foldl (a.neighborDictStep B) [] (a.graph.sharedLoopClosuresWithRobot nid)
    ok (some m)

/-- `getSharedPoseDictWithNeighbor` (PGOAgent.cpp:112-130). -/
def getSharedPoseDictWithNeighbor (a : Agent) (nid : Nat) : Res (Option (PoseDict ℝ)) :=
  a.neighborDictOf a.X nid

/-- `getAuxSharedPoseDictWithNeighbor` (PGOAgent.cpp:148-166): unlike the other auxiliary queries it
does not check that acceleration is on. -/
def getAuxSharedPoseDictWithNeighbor (a : Agent) (nid : Nat) : Res (Option (PoseDict ℝ)) :=
  a.neighborDictOf a.Y nid

/-! ### Trajectories -/

/-- Loop body of `getTrajectoryInLocalFrame` (PGOAgent.cpp:729-732).  `t0` is a reference to
the first translation of `T` itself, so it is read anew in every pass. -/
def localFrameStep (o : AgentOracles) (T : PArr ℝ) (i : Nat) : Res (PArr ℝ) := do
  let R ← T.rotationAt i
  let P ← projectToRotationGroup o.svd R
  let T ← T.setRotation i P
  let t ← T.translationAt i
  let t0 ← T.translationAt 0
  T.setTranslation i (t.sub t0)

/-- `getTrajectoryInLocalFrame` (PGOAgent.cpp:718-736). -/
def getTrajectoryInLocalFrame (o : AgentOracles) (a : Agent) : Res (Option (DMat ℝ)) :=
  if a.state ≠ .INITIALIZED then ok none
  else do
    let T ← PArr.make a.d a.d a.numPoses
    let R0 ← a.X.rotationAt 0
    require (R0.rows == a.X.X.rows)
    let T ← T.setData (R0.tr.mul a.X.X)
    let _ ← T.translationAt 0
    let T ← Res.foldl (localFrameStep o) T (List.range a.numPoses)
    ok (some T.X)

/-- Loop body of `getTrajectoryInGlobalFrame` (PGOAgent.cpp:760-763): here `t0` is a copy. -/
def globalFrameStep (o : AgentOracles) (t0 : DMat ℝ) (T : PArr ℝ) (i : Nat) : Res (PArr ℝ) := do
  let R ← T.rotationAt i
  let P ← projectToRotationGroup o.svd R
  let T ← T.setRotation i P
  let t ← T.translationAt i
  require (t.rows == t0.rows)
  T.setTranslation i (t.sub t0)

/-- `getTrajectoryInGlobalFrame` (PGOAgent.cpp:738-767). -/
def getTrajectoryInGlobalFrame (o : AgentOracles) (a : Agent) : Res (Option (DMat ℝ)) :=
  match a.globalAnchor with
  | none => ok none
  | some Xa => do
    check (Xa.r == a.relaxationRank)
    check (Xa.d == a.dimension)
    if a.state ≠ .INITIALIZED then ok none
    else do
      let T ← PArr.make a.d a.d a.numPoses
      let Ra ← Xa.rotationAt 0
      require (Ra.rows == a.X.X.rows)
      let T ← T.setData (Ra.tr.mul a.X.X)
      let ta ← Xa.translationAt 0
      let T ← Res.foldl (globalFrameStep o (Ra.tr.mul ta)) T (List.range a.numPoses)
      ok (some T.X)

/-- `Ti = Yaᵀ Xi; Ti.col(d) -= t0` (PGOAgent.cpp:777-784, 799-806); no rounding. -/
def anchored (a : Agent) (Ya ta Xi : DMat ℝ) : Res (DMat ℝ) := do
  require (Ya.rows == Xi.rows)
  let t0 := Ya.tr.mul ta
  let Ti := Ya.tr.mul Xi
  require (decide (a.d < Ti.cols) && Ti.rows == t0.rows)
  let Ti := Ti.setBlock 0 a.d ((Ti.block 0 a.d Ti.rows 1).sub t0)
  check (Ti.rows == a.d)
  check (Ti.cols == a.d + 1)
  ok Ti

/-- `getPoseInGlobalFrame` (PGOAgent.cpp:769-787). -/
def getPoseInGlobalFrame (a : Agent) (i : Nat) : Res (Option (DMat ℝ)) :=
  match a.globalAnchor with
  | none => ok none
  | some Xa => do
    check (Xa.r == a.relaxationRank)
    check (Xa.d == a.dimension)
    if a.state ≠ .INITIALIZED then ok none
    else if i ≥ a.numPoses then ok none
    else do
      let Ya ← Xa.rotationAt 0
      let ta ← Xa.translationAt 0
      let Xi ← a.X.poseAt i
      let T ← a.anchored Ya ta Xi
      ok (some T)

/-- `getNeighborPoseInGlobalFrame` (PGOAgent.cpp:789-810).  The sizes tested by `anchored` are those
tested by the constructor of `Pose` (Poses.cpp:96-101). -/
def getNeighborPoseInGlobalFrame (a : Agent) (nid i : Nat) : Res (Option (DMat ℝ)) :=
  match a.globalAnchor with
  | none => ok none
  | some Xa => do
    check (Xa.r == a.relaxationRank)
    check (Xa.d == a.dimension)
    if a.state ≠ .INITIALIZED then ok none
    else match OMap.find? ltPoseID (PoseID.make nid i) a.neighborPoses with
      | none => ok none
      | some N => do
        let Ya ← Xa.rotationAt 0
        let ta ← Xa.translationAt 0
        check (N.r == a.r)
        check (N.d == a.d)
        let Xi ← N.poseAt 0
        let T ← a.anchored Ya ta Xi
        ok (some T)

/-- `hasNeighbor` (PGOAgent.cpp:812-814). -/
def hasNeighbor (a : Agent) (nid : Nat) : Bool := a.graph.hasNeighbor nid

/-- `getNeighbors` (PGOAgent.cpp:816-821). -/
def getNeighbors (a : Agent) : List Nat := a.graph.nbrRobots

/-- `localPoseGraphOptimization` (PGOAgent.cpp:823-828). -/
def localPoseGraphOptimization (o : AgentOracles) (a : Agent) : Res (DMat ℝ) := do
  let T ← solvePGO o.toSolverOracles a.calls OptParams.default a.graph.localMeasurements none
  ok T.X

/-- `getLiftingMatrix` (PGOAgent.cpp:830-836). -/
def getLiftingMatrix (a : Agent) : Option (DMat ℝ) := a.YLift

/-! ### Reset -/

/-- `reset` (PGOAgent.cpp:434-473).  Of the logging part only the query that can fail is modelled. -/
def reset (o : AgentOracles) (a : Agent) : Res Agent := do
  let a := a.endOptimizationLoop
  let _ ← if a.params.logData then a.getTrajectoryInGlobalFrame o else ok none
  let k := u32 (a.instanceNumber + 1)
  ok <| clearNeighborPoses
    { a with
      instanceNumber := k, iterationNumber := 0, latestWeightUpdate := 0, innerIter := 0
      weightUpdateCount := 0, trajectoryResetCount := 0, state := .WAIT_FOR_DATA
      status := ⟨a.id, .WAIT_FOR_DATA, k, 0, false, 0⟩
      teamStatus := [], teamActive := List.replicate a.params.numRobots false
      globalAnchor := none, TLocalInit := none, XInit := none
      publishPublicPoses := false, publishAsynchronous := false
      graph := a.graph.reset }

end Agent

end

end Dpgo
