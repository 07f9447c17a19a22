import Verif.Model.AgentOps
import Verif.Spec.Topology
import Verif.Spec.Poses

/-!
# Specification notions for agents

Which calls are well formed, what an agent history is, and the order of the life-cycle states.
-/

namespace Dpgo.Spec

open Res

/-- A pose dictionary as a `std::map` of `LiftedPose` objects: keys in order, one pose each with data of
the matching size. -/
def DictWF (dict : PoseDict ℝ) : Prop :=
  OMap.Sorted ltPoseID dict ∧ ∀ kv ∈ dict, ArrOk kv.2.r kv.2.d 1 kv.2

/-- The arguments are proper objects of their C++ types, and ids are in range. -/
def AgOpWF : AgOp → Prop
  | .addMeasurement m => MeasWF m
  | .setMeasurements odo priv shared => ∀ m ∈ odo ++ priv ++ shared, MeasWF m
  | .init T => ∀ P, T = some P → ArrOk P.d P.d P.n P
  | .initializeInGlobalFrame T => ArrOk T.d T.d 1 T
  | .updateNeighborPoses _ dict => DictWF dict
  | .updateAuxNeighborPoses _ dict => DictWF dict
  | .anchorFirstPoseWith P => ArrOk P.r P.d 1 P
  | _ => True

/-- `a` is the result of a history of well-formed calls on a new agent. -/
def AgReach (o : AgentOracles) (ID : Nat) (p : AgentParams) (a : Agent) : Prop :=
  ∃ (a₀ : Agent) (ops : List AgOp),
    Agent.new o ID p = ok a₀ ∧ (∀ op ∈ ops, AgOpWF op) ∧ a₀.run o ops = ok a

/-- Order of the life cycle (PGOAgent.h:185-193). -/
def rank : AgentState → Nat
  | .WAIT_FOR_DATA => 0
  | .WAIT_FOR_INITIALIZATION => 1
  | .INITIALIZED => 2

end Dpgo.Spec
