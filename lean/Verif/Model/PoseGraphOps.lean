import Verif.Model.DataMatrices

/-!
# Histories of calls on a `PoseGraph`

Every public member function of `PoseGraph` that can change its state
(include/DPGO/PoseGraph.h:44-290), as one operation each.
-/

namespace Dpgo

open Res

/-- Public state-changing calls (include/DPGO/PoseGraph.h:93-290). `writeWeight` is a write to
`weight`/`fixedWeight` through the pointer returned by `findMeasurement` (src/PoseGraph.cpp:218-239,
used that way in src/PGOAgent.cpp:1144-1155). -/
inductive PGOp (K : Type) where
  | addMeasurement (m : Meas K)
  | setMeasurements (ms : List (Meas K))
  | empty
  | reset
  | clearNeighborPoses
  | clearPriors
  | setPrior (index : Nat) (X : PArr K)
  | setNeighborPoses (dict : PoseDict K)
  | setNeighborActive (nid : Nat) (active : Bool)
  | useInactiveNeighbors (use : Bool)
  | writeWeight (src dst : PoseID) (w : K) (fixed : Bool)
  | quadraticMatrix
  | linearMatrix
  | constructDataMatrices
  | hasPreconditioner (chol : DMat K → Bool)
  | clearQuadraticMatrix
  | clearLinearMatrix
  | clearDataMatrices

namespace PoseGraph
variable {K : Type} [Field K]

/-- Effect of one call (each case is the function of the same name above). -/
def step (g : PoseGraph K) : PGOp K → Res (PoseGraph K)
  | .addMeasurement m => g.addMeasurement m
  | .setMeasurements ms => g.setMeasurements ms
  | .empty => ok g.empty
  | .reset => ok g.reset
  | .clearNeighborPoses => ok g.clearNeighborPoses
  | .clearPriors => ok g.clearPriors
  | .setPrior i X => g.setPrior i X
  | .setNeighborPoses dict => ok (g.setNeighborPoses dict)
  | .setNeighborActive nid a => g.setNeighborActive nid a
  | .useInactiveNeighbors u => ok (g.useInactiveNeighbors u)
  | .writeWeight src dst w fixed => do
    match ← g.findMeasurement src dst with
    | none => ok g
    | some p => ok (g.writeWeight p w fixed)
  | .quadraticMatrix => do let (_, g) ← g.quadraticMatrix; ok g
  | .linearMatrix => do let (_, g) ← g.linearMatrix; ok g
  | .constructDataMatrices => do let (_, g) ← g.constructDataMatrices; ok g
  | .hasPreconditioner chol => do let (_, g) ← g.hasPreconditioner chol; ok g
  | .clearQuadraticMatrix => ok g.clearQuadraticMatrix
  | .clearLinearMatrix => ok g.clearLinearMatrix
  | .clearDataMatrices => ok g.clearDataMatrices

/-- A history of calls. -/
def run (g : PoseGraph K) (ops : List (PGOp K)) : Res (PoseGraph K) := Res.foldl step g ops

end PoseGraph
end Dpgo
