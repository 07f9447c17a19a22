import Verif.Spec.Careful

/-! # The cost an agent can see -/

namespace Dpgo.Spec

open Res

/-- The cost of the estimate `X` for a robot that takes the poses of its neighbours from what they have sent
last. -/
noncomputable def seenCost (a : Agent) (X : DMat ℝ) : ℝ :=
  graphCost { a.graph with neighborPoses := a.neighborPoses } X

/-- Iterations one after the other; `bs` says in which of them the robot optimises. -/
noncomputable def iterations (o : AgentOracles) (a : Agent) (bs : List Bool) : Res Agent :=
  Res.foldl (fun a b => do let (_, a) ← a.iterate o b; ok a) a bs

end Dpgo.Spec
