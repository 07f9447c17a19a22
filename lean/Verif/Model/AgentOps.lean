import Verif.Model.AgentQuery

/-!
# Histories of calls on an agent

Every member function of `PGOAgent` that can change its state (PGOAgent.h:257-748), as one
operation each, including the protected ones that a derived class may call.  In asynchronous mode the
iterations of the loop are `iterate true` operations between other calls; each is taken as one step
(locking is the subject of `Verif.Model.Concurrency`).
-/

namespace Dpgo

open Res

/-- State-changing calls (PGOAgent.h:257-748). -/
inductive AgOp where
  | addMeasurement (m : Meas ℝ)
  | setMeasurements (odo priv shared : List (Meas ℝ))
  | init (T : Option (PArr ℝ))
  | initializeInGlobalFrame (T : PArr ℝ)
  | iterate (doOpt : Bool)
  | reset
  | setX (M : DMat ℝ)
  | setXToInitialGuess
  | setLiftingMatrix (M : DMat ℝ)
  | setGlobalAnchor (M : DMat ℝ)
  | updateNeighborPoses (nid : Nat) (dict : PoseDict ℝ)
  | updateAuxNeighborPoses (nid : Nat) (dict : PoseDict ℝ)
  | clearNeighborPoses
  | clearActiveNeighborPoses
  | getStatus
  | setNeighborStatus (s : Status)
  | startOptimizationLoop
  | endOptimizationLoop
  | initializeAcceleration
  | initializeRobustOptimization
  | updateMeasurementWeights
  | setMeasurementWeight (src dst : PoseID) (w : ℝ) (fixed : Bool)
  | setRobotActive (rid : Nat) (active : Bool)
  | anchorFirstPose
  | anchorFirstPoseWith (prior : PArr ℝ)

noncomputable section

namespace Agent

/-- Effect of one call (each case is the function of the same name; `init` is `initialize`). -/
def step (o : AgentOracles) (a : Agent) : AgOp → Res Agent
  | .addMeasurement m => a.addMeasurement m
  | .setMeasurements odo priv shared => a.setMeasurements odo priv shared
  | .init T => a.init o T
  | .initializeInGlobalFrame T => a.initializeInGlobalFrame T
  | .iterate b => do let (_, a) ← a.iterate o b; ok a
  | .reset => a.reset o
  | .setX M => a.setX M
  | .setXToInitialGuess => a.setXToInitialGuess
  | .setLiftingMatrix M => a.setLiftingMatrix M
  | .setGlobalAnchor M => a.setGlobalAnchor M
  | .updateNeighborPoses nid dict => a.updateNeighborPoses o nid dict
  | .updateAuxNeighborPoses nid dict => a.updateAuxNeighborPoses nid dict
  | .clearNeighborPoses => ok a.clearNeighborPoses
  | .clearActiveNeighborPoses => a.clearActiveNeighborPoses
  | .getStatus => ok a.getStatus.2
  | .setNeighborStatus s => ok (a.setNeighborStatus s)
  | .startOptimizationLoop => a.startOptimizationLoop
  | .endOptimizationLoop => ok a.endOptimizationLoop
  | .initializeAcceleration => a.initializeAcceleration
  | .initializeRobustOptimization => a.initializeRobustOptimization
  | .updateMeasurementWeights => a.updateMeasurementWeights
  | .setMeasurementWeight src dst w f => do let (_, a) ← a.setMeasurementWeight src dst w f; ok a
  | .setRobotActive rid b => a.setRobotActive rid b
  | .anchorFirstPose => do let (_, a) ← a.anchorFirstPose; ok a
  | .anchorFirstPoseWith P => do let (_, a) ← a.anchorFirstPoseWith P; ok a

/-- A history of calls. -/
def run (o : AgentOracles) (a : Agent) (ops : List AgOp) : Res Agent := Res.foldl (step o) a ops

end Agent

end

end Dpgo
