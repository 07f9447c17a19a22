import Verif.Spec.Descent

/-! # Anchors -/

namespace Dpgo.Spec

open Finset

/-- The pose graph without a prior on pose `i`. -/
def withoutPrior {K : Type} (g : PoseGraph K) (i : Nat) : PoseGraph K :=
  { g with priors := g.priors.filter fun q => q.1 ≠ i }

/-- What the robot's cost would be without an anchor on its first pose. -/
noncomputable def freeCost (a : Agent) (X : DMat ℝ) : ℝ :=
  graphCost { withoutPrior a.graph 0 with neighborPoses := a.neighborPoses } X

/-- Half the weighted squared distance of the first pose of `X` from the first pose of `P`. -/
noncomputable def anchorCost (p : AgentParams) (X P : DMat ℝ) : ℝ := 1 / 2 * priorCost p.r p.d X 0 P

/-- The weighted inner product of the first poses of `X` and `P`. -/
noncomputable def anchorPull (p : AgentParams) (X P : DMat ℝ) : ℝ :=
  10000 * ∑ ρ ∈ range p.r, ∑ c ∈ range p.d, rot p.d P 0 ρ c * rot p.d X 0 ρ c +
    100 * ∑ ρ ∈ range p.r, tra p.d P 0 ρ * tra p.d X 0 ρ

/-- No measurement counts negatively. -/
def NonnegWeights (g : PoseGraph ℝ) : Prop :=
  ∀ m ∈ g.odometry ++ g.privateLcs ++ g.sharedLcs, 0 ≤ m.weight ∧ 0 ≤ m.kappa ∧ 0 ≤ m.tau

end Dpgo.Spec
