import Verif.Model.Robust

/-! # Specification of the robust costs -/

namespace Dpgo.Spec

/-- Thresholds and GNC parameters are positive. -/
structure ParamsOk (p : RobustParams) : Prop where
  huber : 0 < p.HuberThreshold
  barc : 0 < p.GNCBarc
  mu : 0 < p.GNCInitMu
  step : 0 < p.GNCMuStep

/-- Calls on a robust cost. -/
inductive CostOp where
  | reset
  | update
  deriving DecidableEq, Repr

/-- Effect of a call. -/
noncomputable def costStep (c : RobustCost) : CostOp → RobustCost
  | .reset => c.reset
  | .update => c.update

/-- A robust cost after a history of calls. -/
noncomputable def costRun (p : RobustParams) (ops : List CostOp) : RobustCost :=
  ops.foldl costStep (RobustCost.new p)

/-- Number of updates since the last reset. -/
def updatesSinceReset (ops : List CostOp) : Nat :=
  (ops.reverse.takeWhile (· = .update)).length

/-- Squared residual below which a measurement is kept for sure, at control parameter `mu`. -/
noncomputable def lowerSq (barc mu : ℝ) : ℝ := barc ^ 2 * mu / (mu + 1)

/-- Squared residual above which a measurement is rejected for sure. -/
noncomputable def upperSq (barc mu : ℝ) : ℝ := barc ^ 2 * (mu + 1) / mu

end Dpgo.Spec
