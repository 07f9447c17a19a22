import Verif.Spec.RobustTeam

/-!
# Robust losses

The loss functions that the weights of `RobustCost` are meant to minimise, scaled so that the loss of a small
residual is its square.
-/

namespace Dpgo.Spec

noncomputable section

/-- Truncated least squares: the squared residual, at most `t²`. -/
def tlsLoss (t r : ℝ) : ℝ := min (r ^ 2) (t ^ 2)

/-- The surrogate of truncated least squares with control parameter `mu` (Yang, Antonante, Tzoumas, Carlone:
Graduated non-convexity for robust spatial perception). -/
def gncLoss (t mu r : ℝ) : ℝ :=
  if r ^ 2 ≤ mu / (mu + 1) * t ^ 2 then r ^ 2
  else if (mu + 1) / mu * t ^ 2 ≤ r ^ 2 then t ^ 2
  else 2 * t * |r| * √(mu * (mu + 1)) - mu * (t ^ 2 + r ^ 2)

/-- The penalty for a weight `w` that belongs to `gncLoss`. -/
def gncPenalty (t mu w : ℝ) : ℝ := mu * (1 - w) / (mu + w) * t ^ 2

/-- The loss of a residual. -/
def loss (c : RobustCost) (r : ℝ) : ℝ :=
  match c.params.costType with
  | .L2 => r ^ 2
  | .L1 => 2 * |r|
  | .Huber => if |r| ≤ c.params.HuberThreshold then r ^ 2
      else 2 * c.params.HuberThreshold * |r| - c.params.HuberThreshold ^ 2
  | .TLS => tlsLoss c.params.TLSThreshold r
  | .GM => r ^ 2 / (1 + r ^ 2)
  | .GNC_TLS => gncLoss c.params.GNCBarc c.mu r

/-- Truncated least squares with the threshold of graduated non-convexity. -/
def truncated (c : RobustCost) : RobustCost :=
  { c with params := { c.params with costType := .TLS, TLSThreshold := c.params.GNCBarc } }

/-- The parameters that the cost uses are positive. -/
structure CostOk (c : RobustCost) : Prop where
  huber : c.params.costType = .Huber → 0 < c.params.HuberThreshold
  tls : c.params.costType = .TLS → 0 ≤ c.params.TLSThreshold
  barc : c.params.costType = .GNC_TLS → 0 < c.params.GNCBarc
  mu : c.params.costType = .GNC_TLS → 0 < c.mu

/-- Part of an edge in the robust cost: its weighted squared residual if its weight is never changed, and the
loss of its residual otherwise. -/
def edgeLoss (r d : Nat) (c : RobustCost) (m : Meas ℝ) (A : DMat ℝ) (i : Nat) (B : DMat ℝ) (j : Nat) : ℝ :=
  if m.fixedWeight = true ∨ isOdo m.r1 m = true then edgeCost r d m A i B j else loss c (resid r d m A i B j)

/-- The robust cost of a team. -/
def robustCost (r d : Nat) (c : RobustCost) (E : List (Meas ℝ)) (X : Joint ℝ) : ℝ :=
  1 / 2 * ((firstWins E).map fun m => edgeLoss r d c m (X m.r1) m.p1 (X m.r2) m.p2).sum

end

end Dpgo.Spec
