import Verif.Model.Agent

/-!
# The agent: initialisation, neighbour transforms, message handling, reset
(`src/PGOAgent.cpp:199-374, 434-473, 515-702`)
-/

namespace Dpgo

open Res

noncomputable section

namespace Agent

/-! ### Initialisation -/

/-- Parameters of the robust local initialisation (PGOAgent.cpp:235-245). -/
def gncInitParams : RobustPGOParams :=
  { opt := { OptParams.default with gradnormTol := 1, RTRIterations := 20 }
    robust := { RobustParams.default .GNC_TLS with
      GNCMaxNumIters := 10, GNCBarc := 5, GNCMuStep := 14 / 10 } }

open Classical in
/-- Rejection of outliers (PGOAgent.cpp:253-260): `fixed_weight` has its default `false`. -/
def rejectOutliers (a : Agent) (ms : List (Meas ℝ)) : Res Agent :=
  Res.foldl (fun (a : Agent) (m : Meas ℝ) =>
    if m.weight < (1 / 100000000 : ℝ) then do
      let (_, a) ← a.setMeasurementWeight (PoseID.make m.r1 m.p1) (PoseID.make m.r2 m.p2) 0 false
      ok a
    else ok a) a ms

/-- The trajectory computed by the configured method (PGOAgent.cpp:222-264). -/
def localInitialization (o : AgentOracles) (a : Agent) : Res (PArr ℝ × Agent) :=
  match a.params.initMethod with
  | .Odometry => do
    let T ← odometryInitialization a.graph.odometry none
    ok (T, a)
  | .Chordal => do
    let T ← chordalInitialization o.svd o.qr a.graph.localMeasurements
    ok (T, a)
  | .GNC_TLS => do
    let TOdom ← odometryInitialization a.graph.odometry none
    let so : SolverOracles := { o.toSolverOracles with opt := fun k => o.opt (a.calls + k) }
    let (T, ms) ← solveRobustPGO so gncInitParams a.graph.localMeasurements (some TOdom)
    let a ← a.rejectOutliers ms
    ok (T, { a with calls := a.calls + gncInitParams.robust.GNCMaxNumIters + 2 })

/-- The supplied trajectory if it is valid, otherwise the computed one (PGOAgent.cpp:211-273).  Both
failure branches set `initialization_successful` to true in the end, so the early return of lines
275-278 is never taken. -/
def chooseTrajectory (o : AgentOracles) (a : Agent) (TInit : Option (PArr ℝ)) :
    Res (PArr ℝ × Agent) :=
  let compute : Res (PArr ℝ × Agent) := do
    let (T, a) ← a.localInitialization o
    check (T.d == a.dimension)
    ok (T, a)
  match TInit with
  | some T => if T.d = a.dimension ∧ T.n = a.numPoses then ok (T, a) else compute
  | none => compute

/-- Loop body of the normalisation (PGOAgent.cpp:283-287). -/
def normalizeStep (Tw0 T : PArr ℝ) (out : PArr ℝ) (i : Nat) : Res (PArr ℝ) := do
  let Mi ← T.poseAt i
  let Twi ← PArr.ofMatrix Mi
  let inv ← Tw0.inverse
  let T0i ← inv.mul Twi
  let P ← T0i.poseAt 0
  out.setPose i P

/-- Normalisation of the local trajectory (PGOAgent.cpp:281-288). -/
def normalizeTrajectory (a : Agent) (T : PArr ℝ) : Res (PArr ℝ) := do
  let out ← PArr.make a.dimension a.dimension a.numPoses
  let M0 ← T.poseAt 0
  let Tw0 ← PArr.ofMatrix M0
  Res.foldl (normalizeStep Tw0 T) out (List.range a.numPoses)

/-- Loop body of `initializeInGlobalFrame` (PGOAgent.cpp:329-333). -/
def globalStep (Twr : PArr ℝ) (T : PArr ℝ) (i : Nat) : Res (PArr ℝ) := do
  let Mi ← T.poseAt i
  let Trf ← PArr.ofMatrix Mi
  let Twf ← Twr.mul Trf
  let P ← Twf.poseAt 0
  T.setPose i P

/-- Moving the local trajectory to the global frame and lifting it (PGOAgent.cpp:324-337);
`TLocalInit.value()` throws when there is no value. -/
def liftTrajectory (a : Agent) (Y : DMat ℝ) (Twr : PArr ℝ) : Res (PArr ℝ) := do
  match a.TLocalInit with
  | none => throws
  | some T => do
    let T ← Res.foldl (globalStep Twr) T (List.range a.numPoses)
    require (Y.cols == T.X.rows)
    a.X.setData (Y.mul T.X)

/-- `initializeInGlobalFrame` (PGOAgent.cpp:308-374).  Halting and restarting the loop (lines 313-320,
373) leaves `running` as it was, but `startOptimizationLoop` repeats its check. -/
def initializeInGlobalFrame (a : Agent) (Twr : PArr ℝ) : Res Agent := do
  match a.YLift with
  | none => abort
  | some Y => do
    check (Twr.d == a.dimension)
    let R ← Twr.rotationAt 0
    checkRotationMatrix R
    let a := a.clearNeighborPoses
    let X ← a.liftTrajectory Y Twr
    let a := { a with X := X, XInit := some X, state := .INITIALIZED }
    let a ← if a.params.robust.costType ≠ .L2 then a.initializeRobustOptimization else ok a
    let a ← a.resetAcceleration
    if a.running then a.startOptimizationLoop else ok a

/-- `initialize` (PGOAgent.cpp:199-306). -/
def init (o : AgentOracles) (a : Agent) (TInit : Option (PArr ℝ)) : Res Agent :=
  if a.state ≠ .WAIT_FOR_DATA then ok a
  else
    let a := a.endOptimizationLoop
    if a.numPoses = 0 then ok a
    else do
      let (T, a) ← a.chooseTrajectory o TInit
      let T ← a.normalizeTrajectory T
      let X ← PArr.make a.relaxationRank a.dimension a.numPoses
      let a := { a with TLocalInit := some T, X := X, state := .WAIT_FOR_INITIALIZATION }
      let a ← if a.id = 0 ∨ ¬ a.params.multirobotInit then do
          let I ← PArr.identity a.d
          a.initializeInGlobalFrame I
        else ok a
      if a.params.asynchronous then a.startOptimizationLoop else ok a

/-! ### Transforms to a neighbour's frame -/

/-- `computeNeighborTransform` (PGOAgent.cpp:515-548). -/
def computeNeighborTransform (a : Agent) (m : Meas ℝ) (N : PArr ℝ) : Res (PArr ℝ) := do
  match a.YLift with
  | none => abort
  | some Y => do
    check (N.r == a.r)
    check (N.d == a.d)
    let dT ← PArr.identity a.d
    let dT ← dT.setRotation 0 m.R
    let dT ← dT.setTranslation 0 m.t
    let W2F2 ← PArr.identity a.d
    let PN ← N.poseAt 0
    require (Y.rows == PN.rows)
    let W2F2 ← W2F2.setPose 0 (Y.tr.mul PN)
    match a.TLocalInit with
    | none => throws
    | some T => do
      let W1F1 ← PArr.identity a.d
      let (F1F2, W1F1) ←
        if m.r2 = a.id then do
          let F ← dT.inverse
          let M ← T.poseAt (u32 m.p2)
          let W ← W1F1.setData M
          ok (F, W)
        else do
          let M ← T.poseAt (u32 m.p1)
          let W ← W1F1.setData M
          ok (dT, W)
      let F2F1 ← F1F2.inverse
      let W2F1 ← W2F2.mul F2F1
      let F1W1 ← W1F1.inverse
      let W2W1 ← W2F1.mul F1W1
      let R ← W2W1.rotationAt 0
      checkRotationMatrix R
      ok W2W1

/-- Loop body collecting the candidate alignments (PGOAgent.cpp:557-571, 611-625). -/
def candidateStep (a : Agent) (nid : Nat) (dict : PoseDict ℝ)
    (acc : List (DMat ℝ) × List (DMat ℝ)) (m : Meas ℝ) : Res (List (DMat ℝ) × List (DMat ℝ)) :=
  match OMap.find? ltPoseID ⟨nid, if m.r1 = nid then u32 m.p1 else u32 m.p2⟩ dict with
  | none => ok acc
  | some N => do
    let T ← a.computeNeighborTransform m N
    let R ← T.rotationAt 0
    let t ← T.translationAt 0
    ok (acc.1 ++ [R], acc.2 ++ [t])

/-- The candidate alignments (PGOAgent.cpp:553-571). -/
def candidates (a : Agent) (nid : Nat) (dict : PoseDict ℝ) :
    Res (List (DMat ℝ) × List (DMat ℝ)) :=
  Res.foldl (a.candidateStep nid dict) ([], []) (a.graph.sharedLoopClosuresWithRobot nid)

/-- `tVec[index]` for every inlier (PGOAgent.cpp:590-592). -/
def pickAll (ts : List (DMat ℝ)) : List Nat → Res (List (DMat ℝ))
  | [] => ok []
  | i :: l => match ts[i]? with
    | none => ub
    | some t => do
      let rest ← pickAll ts l
      ok (t :: rest)

/-- `computeRobustNeighborTransformTwoStage` (PGOAgent.cpp:550-602), called with a `Pose` of dimension
`dimension()` (line 658). -/
def computeRobustNeighborTransformTwoStage (o : AgentOracles) (a : Agent) (nid : Nat)
    (dict : PoseDict ℝ) : Res (Option (PArr ℝ)) := do
  let (Rs, ts) ← a.candidates nid dict
  if Rs.isEmpty then ok none
  else do
    let (R, inl) ← robustSingleRotationAveraging o.svd Rs (List.replicate Rs.length 1)
      (angular2ChordalSO3 (1 / 2))
    if inl.length < a.params.minInliers then ok none
    else do
      let tin ← pickAll ts inl
      let t ← singleTranslationAveraging tin []
      let T ← PArr.identity a.dimension
      let T ← T.setRotation 0 R
      let T ← T.setTranslation 0 t
      ok (some T)

/-! ### Messages -/

/-- Loop of `updateNeighborPoses` and `updateAuxNeighborPoses` (PGOAgent.cpp:668-677, 692-701). -/
def storePoses (a : Agent) (nid : Nat) (store : PoseDict ℝ) (dict : PoseDict ℝ) :
    Res (PoseDict ℝ) :=
  Res.foldl (fun s (kv : PoseID × PArr ℝ) => do
    check (kv.1.robot == nid)
    check (kv.2.r == a.r)
    check (kv.2.d == a.d)
    ok (if a.graph.requireNeighborPose kv.1 then OMap.insert ltPoseID kv.1 kv.2 s else s)) store dict

/-- Conditions under which a message is looked at (PGOAgent.cpp:652-656, 683-688). -/
def acceptsFrom (a : Agent) (nid : Nat) : Bool :=
  a.YLift.isSome &&
    match OMap.find? ltNat nid a.teamStatus with
    | none => false
    | some s => s.state == .INITIALIZED

/-- Alignment with the sender's frame (PGOAgent.cpp:657-662). -/
def tryInitialize (o : AgentOracles) (a : Agent) (nid : Nat) (dict : PoseDict ℝ) : Res Agent :=
  if a.state = .WAIT_FOR_INITIALIZATION then do
    match ← a.computeRobustNeighborTransformTwoStage o nid dict with
    | none => ok a
    | some T => a.initializeInGlobalFrame T
  else ok a

/-- `updateNeighborPoses` (PGOAgent.cpp:650-678). -/
def updateNeighborPoses (o : AgentOracles) (a : Agent) (nid : Nat) (dict : PoseDict ℝ) :
    Res Agent := do
  check (nid != a.id)
  if !a.acceptsFrom nid then ok a
  else do
    let a ← a.tryInitialize o nid dict
    if a.state ≠ .INITIALIZED then ok a
    else do
      let s ← a.storePoses nid a.neighborPoses dict
      ok { a with neighborPoses := s }

/-- `updateAuxNeighborPoses` (PGOAgent.cpp:680-702). -/
def updateAuxNeighborPoses (a : Agent) (nid : Nat) (dict : PoseDict ℝ) : Res Agent := do
  check a.params.acceleration
  check (nid != a.id)
  if !a.acceptsFrom nid then ok a
  else if a.state ≠ .INITIALIZED then ok a
  else do
    let s ← a.storePoses nid a.neighborAuxPoses dict
    ok { a with neighborAuxPoses := s }

end Agent

end

end Dpgo
