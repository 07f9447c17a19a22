import Verif.Model.Concurrency
import Mathlib.Data.Set.Basic

/-! # Deadlocks and data races -/

namespace Dpgo.Conc

/-- Thread `t` cannot go on before `t'` does: it asks for a lock of `t'`, or waits for the end of the
optimisation thread. -/
def WaitsFor (s : State) (t t' : Thread) : Prop :=
  (∃ l a k, s.stack t = .hold l a :: k ∧ s.owner l = some t') ∨
  (∃ k, s.stack t = .act .join :: k ∧ s.handle = .joinable ∧ s.stack .loop ≠ [] ∧ t' = .loop)

/-- Some threads wait for each other forever. -/
def Deadlock (s : State) : Prop :=
  ∃ S : Set Thread, S.Nonempty ∧ ∀ t ∈ S, ∃ t' ∈ S, WaitsFor s t t'

/-- The next action of `t` is to read or write the cell. -/
def Touches (s : State) (t : Thread) (c : Cell) : Prop :=
  ∃ k, s.stack t = .act (.read c) :: k ∨ s.stack t = .act (.write c) :: k

/-- The next action of `t` is to write the cell. -/
def Writes (s : State) (t : Thread) (c : Cell) : Prop := ∃ k, s.stack t = .act (.write c) :: k

/-- Two threads are about to use the cell, one of them to write it. -/
def Race (s : State) (c : Cell) : Prop := ∃ t t', t ≠ t' ∧ Writes s t c ∧ Touches s t' c

/-- The optimisation thread is about to read `mEndLoopRequested`, which another thread is about to write. -/
def FlagRace (s : State) : Prop :=
  (∃ a k, s.stack .loop = .test a :: k) ∧ ∃ n k, s.stack (.api n) = .act .request :: k

/-- Some call is in progress, or the optimisation thread runs. -/
def Busy (s : State) (t : Thread) : Prop := s.stack t ≠ []

/-- Functions that start, stop or look at the optimisation thread. -/
def Controls : Call → Prop
  | .initialize | .initializeInGlobalFrame | .reset | .startOptimizationLoop | .endOptimizationLoop
  | .destructor | .updateNeighborPoses | .setMeasurements => True
  | _ => False

/-- Only user thread 0 uses these functions. -/
def OneController (may : Nat → Call → Prop) : Prop := ∀ n c, may n c → Controls c → n = 0

/-- Functions that can start the optimisation thread when it does not run. -/
def Starts (cfg : Config) : Call → Prop
  | .startOptimizationLoop => True
  | .initialize => cfg.asynchronous = true
  | _ => False

/-- Functions that hold at most one lock at a time and do not wait for the optimisation thread. -/
def Leaf : Call → Prop
  | .setX | .setXToInitialGuess | .getX | .getSharedPose | .getAuxSharedPose | .getSharedPoseDict
  | .getSharedPoseDictWithNeighbor | .getAuxSharedPoseDict | .getAuxSharedPoseDictWithNeighbor
  | .addMeasurement | .setMeasurements | .updateAuxNeighborPoses | .clearNeighborPoses
  | .clearActiveNeighborPoses | .getTrajectoryInLocalFrame | .getTrajectoryInGlobalFrame
  | .getPoseInGlobalFrame | .getNeighborPoseInGlobalFrame | .initializeAcceleration
  | .initializeRobustOptimization | .computeMeasurementResidual | .setMeasurementWeight | .anchorFirstPose
  | .other => True
  | _ => False

/-- Functions that write the estimate. -/
def WritesEstimate : Call → Prop
  | .setX | .setXToInitialGuess | .initialize | .initializeInGlobalFrame | .iterate _ | .updateNeighborPoses
  | .restartNesterovAcceleration _ | .updateMeasurementWeights => True
  | _ => False

/-- None of these events is a call by user thread `n`. -/
def NoCallBy (n : Nat) (es : List Event) : Prop := ∀ c, Event.call n c ∉ es

/-- Functions that use the estimate without its lock, or may do so. -/
def Careless (cfg : Config) : Call → Prop
  | .iterate _ | .initialize | .computeMeasurementResidual | .updateMeasurementWeights | .anchorFirstPose
  | .initializeAcceleration => True
  | .restartNesterovAcceleration _ => cfg.acceleration = true
  | .reset => cfg.logData = true
  | _ => False

end Dpgo.Conc
