import Verif.Model.Demo

/-!
# The single-robot example programs (`examples/ChordalInitializationExample.cpp`,
`examples/SingleRobotExample.cpp`, `examples/SingleRobotGNCExample.cpp`)

The programs after the dataset has been read.  Of the output only the cost is kept; arguments and file are in
`Model/Main`.
-/

namespace Dpgo.Example

open Res

noncomputable section

/-- The problem used for evaluation (examples/ChordalInitializationExample.cpp:42-44,
examples/SingleRobotExample.cpp:78-80, examples/SingleRobotGNCExample.cpp:31-33): `PoseGraph(0, d, d)` with all measurements of the file. -/
def centralGraph (dataset : List (Meas ℝ)) : Res (PoseGraph ℝ) := do
  let d := dimensionOf dataset
  let g ← PoseGraph.new 0 d d
  g.setMeasurements dataset

/-- The number printed by the chordal example (examples/ChordalInitializationExample.cpp:38-48). -/
def chordalProgram (o : AgentOracles) (dataset : List (Meas ℝ)) : Res ℝ := do
  let g ← centralGraph dataset
  let T ← chordalInitialization o.svd o.qr dataset
  let (f, _) ← problemF g T.X
  ok (2 * f)

/-- The measurement copied for the agent (examples/SingleRobotExample.cpp:62-66): both ends belong to
robot 0, the weight is 1. -/
def ownMeas (mIn : Meas ℝ) : Meas ℝ :=
  Meas.make 0 0 (u32 mIn.p1) (u32 mIn.p2) mIn.R mIn.t mIn.kappa mIn.tau

/-- Body of the loop over the dataset (examples/SingleRobotExample.cpp:61-75); `srcIdx + 1` is `unsigned`
arithmetic. -/
def sortStep (s : List (Meas ℝ) × List (Meas ℝ)) (mIn : Meas ℝ) : List (Meas ℝ) × List (Meas ℝ) :=
  if u32 (u32 mIn.p1 + 1) = u32 mIn.p2 then (s.1 ++ [ownMeas mIn], s.2)
  else (s.1, s.2 ++ [ownMeas mIn])

/-- The number printed by the single-robot example (examples/SingleRobotExample.cpp:52-104). -/
def singleProgram (o : AgentOracles) (dataset : List (Meas ℝ)) : Res ℝ := do
  let d := dimensionOf dataset
  let s := dataset.foldl sortStep ([], [])
  let g ← centralGraph dataset
  let a ← Agent.new o 0 (AgentParams.default d d)
  let a ← a.setMeasurements s.1 s.2 []
  let a ← a.init o none
  let X ← a.localPoseGraphOptimization o
  let (f, _) ← problemF g X
  ok (2 * f)

/-- The parameters of the robust example (examples/SingleRobotGNCExample.cpp:35-39, DPGO_solver.h:119-122). -/
def gncParams : RobustPGOParams :=
  ⟨{ OptParams.default with gradnormTol := 1, RTRIterations := 50 }, RobustParams.default .GNC_TLS⟩

/-- The robust example (examples/SingleRobotGNCExample.cpp:30-41): the estimate and the measurements with
their final weights. -/
def gncProgram (o : SolverOracles) (dataset : List (Meas ℝ)) : Res (PArr ℝ × List (Meas ℝ)) := do
  check (!dataset.isEmpty)
  let g ← centralGraph dataset
  let TOdom ← odometryInitialization g.odometry none
  solveRobustPGO o gncParams dataset (some TOdom)

end

end Dpgo.Example
