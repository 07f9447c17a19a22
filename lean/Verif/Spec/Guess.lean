import Verif.Spec.Reweight

/-! # Where a robot was placed in the global frame -/

namespace Dpgo.Spec

/-- The call places the robot in the global frame: on request, by initialising it or by aligning it with a
neighbour. -/
def Places (e : Ev) : Prop :=
  (∃ T, e.op = .initializeInGlobalFrame T) ∨
  (e.before.state ≠ .INITIALIZED ∧ e.after.state = .INITIALIZED ∧ ∀ M, e.op ≠ .setX M)

/-- `X` is the estimate the robot had right after it was last placed, and there was no reset since. -/
def LastPlaced (X : PArr ℝ) : List Ev → Prop :=
  Last (fun e => Places e ∧ e.after.X = X) (fun e => Places e ∨ e.op = .reset)

end Dpgo.Spec
