import Mathlib.Analysis.Real.Sqrt
import Verif.Spec.Messages

/-! # The accelerated method: scalars and synchronisation -/

namespace Dpgo.Spec

/-- The scalars of the accelerated method for `N` robots: `γ₀ = 0` and `γₖ₊₁` is the positive root of
`N x² - x = N γₖ²`. -/
noncomputable def gammaSeq (N : Nat) : Nat → ℝ
  | 0 => 0
  | k + 1 => (1 + Real.sqrt (1 + 4 * (N : ℝ) ^ 2 * gammaSeq N k ^ 2)) / (2 * N)

/-- The call sets the auxiliary sequences to the estimate: the agent becomes initialised, its estimate is
replaced, its weights are updated, or an iteration restarts the acceleration. -/
def Syncs (p : AgentParams) (e : Ev) : Prop :=
  e.after.state = .INITIALIZED ∧
    (e.before.state ≠ .INITIALIZED ∨ (∃ M, e.op = .setX M) ∨ (∃ T, e.op = .initializeInGlobalFrame T) ∨
      e.op = .initializeAcceleration ∨ e.op = .updateMeasurementWeights ∨
      ∃ b, e.op = .iterate b ∧ RestartsNext p e.before)

open Classical in
/-- Number of iterations of the initialised agent since the sequences were last synchronised. -/
noncomputable def acceleratedSteps (p : AgentParams) : List Ev → Nat :=
  List.foldl (fun k e =>
    if Syncs p e then 0
    else if (∃ b, e.op = .iterate b) ∧ e.before.state = .INITIALIZED then k + 1 else k) 0

/-- Two graphs with the same measurements, weights, priors and activity flags. -/
structure SameProblem (g g' : PoseGraph ℝ) : Prop where
  n : g'.n = g.n
  odometry : g'.odometry = g.odometry
  privateLcs : g'.privateLcs = g.privateLcs
  sharedLcs : g'.sharedLcs = g.sharedLcs
  priors : g'.priors = g.priors
  active : g'.nbrActive = g.nbrActive

/-- The parameters with acceleration switched off. -/
def plain (p : AgentParams) : AgentParams := { p with acceleration := false }

end Dpgo.Spec
