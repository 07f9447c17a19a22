import Verif.Spec.History

/-! # Which delivered poses count -/

namespace Dpgo.Spec

/-- Robot `nid` is known to be initialised. -/
def KnownInitialized (a : Agent) (nid : Nat) : Prop :=
  ∃ s, OMap.find? ltNat nid a.teamStatus = some s ∧ s.state = .INITIALIZED

/-- Pose `k` of another robot is an endpoint of a shared loop closure. -/
def Required (ID : Nat) (a : Agent) (k : PoseID) : Prop :=
  ∃ m ∈ a.graph.sharedLcs, foreignPose ID m = k

/-- `P` arrives for the required pose `k` from the owner of `k`, who is known to be initialised; the agent
has a lifting matrix and is (or becomes) initialised. -/
def Delivers (ID : Nat) (k : PoseID) (P : PArr ℝ) (e : Ev) : Prop :=
  ∃ dict, e.op = .updateNeighborPoses k.robot dict ∧ (k, P) ∈ dict ∧ Required ID e.before k ∧
    KnownInitialized e.before k.robot ∧ (∃ Y, e.before.YLift = some Y) ∧ e.after.state = .INITIALIZED

/-- The same for the auxiliary poses. -/
def DeliversAux (ID : Nat) (k : PoseID) (P : PArr ℝ) (e : Ev) : Prop :=
  ∃ dict, e.op = .updateAuxNeighborPoses k.robot dict ∧ (k, P) ∈ dict ∧ Required ID e.before k ∧
    KnownInitialized e.before k.robot ∧ (∃ Y, e.before.YLift = some Y) ∧ e.after.state = .INITIALIZED

/-- The call clears what is stored for `k`. -/
def Clears (k : PoseID) (e : Ev) : Prop :=
  e.op = .clearNeighborPoses ∨ e.op = .reset ∨ (∃ T, e.op = .initializeInGlobalFrame T) ∨
  (e.op = .updateMeasurementWeights ∧ e.before.state = .INITIALIZED ∧
    e.before.trajectoryResetCount < e.before.params.numResets) ∨
  (e.op = .clearActiveNeighborPoses ∧ e.before.graph.isNeighborActive k.robot = .ok true)

/-- A required pose of an active neighbour is not in the store `s`. -/
def Lacks (ID : Nat) (a : Agent) (s : PoseDict ℝ) : Prop :=
  ∃ k, Required ID a k ∧ a.graph.isNeighborActive k.robot = .ok true ∧ ∀ P, (k, P) ∉ s

/-- The next accelerated iteration restarts the acceleration. -/
def RestartsNext (p : AgentParams) (a : Agent) : Prop :=
  u32 (a.iterationNumber + 2) % p.restartInterval = 0

end Dpgo.Spec
