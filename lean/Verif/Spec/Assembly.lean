import Verif.Spec.Cost
import Verif.Model.PoseGraphOps

/-!
# Specification of when the data matrices can be assembled
-/

namespace Dpgo.Spec

variable {K : Type}

/-- The measurement has an active neighbour whose pose has not been delivered. -/
def lacksPose (g : PoseGraph K) (m : Meas K) : Prop :=
  g.isNeighborActive (foreignID g.id m).robot = Res.ok true ∧
    ∀ P, (foreignID g.id m, P) ∉ g.neighborPoses

/-- Some shared measurement with an active neighbour lacks the neighbour's pose. -/
def posesMissing (g : PoseGraph K) : Prop := ∃ m ∈ g.sharedLcs, lacksPose g m

/-- Some private measurement connects a pose with itself. -/
def hasSelfLoop (g : PoseGraph K) : Prop := ∃ m ∈ g.localMeasurements, m.p1 = m.p2

/-- Every pose of the graph has an index not exceeding one mentioned in a private measurement. -/
def posesCovered (g : PoseGraph K) : Prop :=
  ∀ i < g.n, ∃ m ∈ g.localMeasurements, i ≤ m.p1 ∨ i ≤ m.p2

/-- A lifted pose of rank `r` and dimension `d` is stored as an `r × (d+1)` matrix. -/
def PoseOk (r d : Nat) (P : PArr K) : Prop := P.X.rows = r ∧ P.X.cols = d + 1

/-- The graph with all cached matrices dropped: what the matrices are built from. -/
def scratch (g : PoseGraph K) : PoseGraph K := { g with Q := none, G := none, precon := none }

/-- No matrix is cached. -/
def uncached (g : PoseGraph K) : Prop := g.Q = none ∧ g.G = none ∧ g.precon = none

/-- A call that is safe with respect to the caches: calls which change measurements, weights or priors
are made only while nothing is cached, calls which change neighbour poses only while neither `Q` nor
the preconditioner is cached or while inactive neighbours are not used. -/
def coherentOp (g : PoseGraph K) : PGOp K → Prop
  | .addMeasurement _ => uncached g
  | .setPrior _ _ => uncached g
  | .clearPriors => uncached g
  | .writeWeight _ _ _ _ => uncached g
  | .setNeighborPoses _ => g.useInactive = false ∨ (g.Q = none ∧ g.precon = none)
  | .clearNeighborPoses => g.useInactive = false ∨ (g.Q = none ∧ g.precon = none)
  | _ => True

/-- Every call of the history is safe in the state in which it is made. -/
def coherent [Field K] (g : PoseGraph K) : List (PGOp K) → Prop
  | [] => True
  | op :: l => coherentOp g op ∧ ∀ g', g.step op = Res.ok g' → coherent g' l

end Dpgo.Spec
