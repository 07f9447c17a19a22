import Verif.Model.AgentLog
import Verif.Spec.Guess
import Verif.Spec.Logger

/-! # Specification of what an agent leaves on the disk -/

namespace Dpgo.Spec

open Res Text

/-- Calls, oldest first, of a logging agent from its construction with the disk `k₀` to the agent `a` with the
disk `k`. -/
inductive LogHist (L : LogEnv) (o : AgentOracles) (ID : Nat) (p : AgentParams) (k₀ : Disk) :
    List Ev → Agent → Disk → Prop
  | new {a : Agent} : Agent.new o ID p = ok a → LogHist L o ID p k₀ [] a k₀
  | call {t : List Ev} {a a' : Agent} {k k' : Disk} {op : AgOp} : LogHist L o ID p k₀ t a k → AgOpWF op →
      a.stepLog L o k op = ok (a', k') → LogHist L o ID p k₀ (t ++ [⟨a, op, a'⟩]) a' k'

/-- The robot is reset. -/
def Resets (e : Ev) : Prop := e.op = .reset

/-- The robot is reset while it has measurements. -/
def ResetsData (e : Ev) : Prop := e.op = .reset ∧ e.before.graph.measurements ≠ []

/-- The robot is reset while it has an estimate and an anchor. -/
def ResetsSolved (e : Ev) : Prop :=
  e.op = .reset ∧ e.before.state = .INITIALIZED ∧ e.before.globalAnchor.isSome = true

/-- `e` is the last event of `t` of its kind. -/
def LastOf (kind : Ev → Prop) (e : Ev) (t : List Ev) : Prop :=
  ∃ pre post, t = pre ++ e :: post ∧ kind e ∧ ∀ x ∈ post, ¬ kind x

/-- The estimate `X` is the trajectory `T` of `n` poses lifted by `Y`. -/
def LiftOf (r n : Nat) (Y T X : DMat ℝ) : Prop :=
  ∀ i < r, ∀ j < 4 * n, X.v i j = ∑ c ∈ Finset.range 3, Y.v i c * T.v c j

end Dpgo.Spec
