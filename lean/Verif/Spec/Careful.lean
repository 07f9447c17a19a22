import Verif.Spec.History
import Verif.Spec.Assembly

/-! # Histories that change weights and priors only while no matrix is cached -/

namespace Dpgo.Spec

open Res

/-- Calls that change weights or priors without dropping the cached matrices are made only while
nothing is cached. -/
def CarefulCall (a : Agent) : AgOp → Prop
  | .setMeasurementWeight _ _ _ _ => uncached a.graph
  | .initializeRobustOptimization => uncached a.graph
  | .initializeInGlobalFrame _ => uncached a.graph ∨ a.params.robust.costType = .L2
  | .anchorFirstPose => uncached a.graph
  | .anchorFirstPoseWith _ => uncached a.graph
  | _ => True

/-- Every call of the history is careful. -/
def CarefulHist (t : List Ev) : Prop := ∀ e ∈ t, CarefulCall e.before e.op

/-- The agent with all cached matrices dropped. -/
def bare (a : Agent) : Agent := { a with graph := scratch a.graph }

/-- The matrices the optimiser works with in the next step: those of the graph after the neighbours'
poses have been handed over and missing matrices built. -/
def StepMatrices (a : Agent) (accel : Bool) (Q G : DMat ℝ) : Prop :=
  ∃ g, (a.graph.setNeighborPoses (if accel then a.neighborAuxPoses else a.neighborPoses)
    ).constructDataMatrices = ok (true, g) ∧ g.Q = some Q ∧ g.G = some G

end Dpgo.Spec
