import Verif.Spec.Agent

/-!
# Histories of an agent as lists of events, and "the last one that still counts"
-/

namespace Dpgo.Spec

open Res

/-- One completed call: the agent before, the call, the agent after. -/
structure Ev where
  before : Agent
  op : AgOp
  after : Agent

/-- `t` lists the calls, oldest first, that lead from a new agent to `a`. -/
inductive Hist (o : AgentOracles) (ID : Nat) (p : AgentParams) : List Ev → Agent → Prop
  | new {a : Agent} : Agent.new o ID p = ok a → Hist o ID p [] a
  | call {t : List Ev} {a a' : Agent} {op : AgOp} : Hist o ID p t a → AgOpWF op →
      a.step o op = ok a' → Hist o ID p (t ++ [⟨a, op, a'⟩]) a'

/-- Some event of `t` is a `hit` and no later one is a `wipe`. -/
def Last (hit wipe : Ev → Prop) (t : List Ev) : Prop :=
  ∃ pre e post, t = pre ++ e :: post ∧ hit e ∧ ∀ x ∈ post, ¬ wipe x

/-- Number of `iterate` calls since the last `reset`. -/
def iteratesSinceReset : List AgOp → Nat :=
  List.foldl (fun k op => match op with
    | .iterate _ => k + 1
    | .reset => 0
    | _ => k) 0

/-- Number of `reset` calls. -/
def numResets : List AgOp → Nat :=
  List.foldl (fun k op => match op with
    | .reset => k + 1
    | _ => k) 0

/-- Robot `rid` reports status `s`. -/
def Reports (rid : Nat) (s : Status) (e : Ev) : Prop := e.op = .setNeighborStatus s ∧ s.agentID = rid

/-- The reports are thrown away: reset, or a weight update that takes place. -/
def DropsReports (e : Ev) : Prop :=
  e.op = .reset ∨ (e.op = .updateMeasurementWeights ∧ e.before.state = .INITIALIZED)

/-- `s` is the last status reported by `rid`, and has not been thrown away. -/
def LastReport (rid : Nat) (s : Status) : List Ev → Prop :=
  Last (Reports rid s) (fun e => DropsReports e ∨ ∃ s', Reports rid s' e)

/-- The measurements handed over by a call. -/
def addedBy : AgOp → List (Meas ℝ)
  | .addMeasurement m => [m]
  | .setMeasurements x y z => x ++ y ++ z
  | _ => []

/-- The pose graph's view of which neighbours are active is that of the team. -/
def InStep (p : AgentParams) (a : Agent) : Prop :=
  ∀ j < p.numRobots, a.graph.hasNeighbor j = true → a.graph.isNeighborActive j = a.isRobotActive j

end Dpgo.Spec
