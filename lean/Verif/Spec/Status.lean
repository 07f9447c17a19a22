import Verif.Spec.Messages

/-! # What the status reported by an agent stands for -/

namespace Dpgo.Spec

open Res

/-- How far the translation of pose `i` moved between the estimates of two agent states. -/
noncomputable def poseMove (p : AgentParams) (a a' : Agent) (i : Nat) : ℝ :=
  dist p.r (traV p.r p.d a'.X i) (traV p.r p.d a.X i)

/-- `m` is the largest of `f 0, …, f (n - 1)`. -/
def IsLargest (n : Nat) (f : Nat → ℝ) (m : ℝ) : Prop := (∀ i < n, f i ≤ m) ∧ ∃ i < n, f i = m

/-- Movement allowed for an agent that wants to stop; generous before the first weight update. -/
noncomputable def allowedMove (p : AgentParams) (a : Agent) : ℝ :=
  if p.robust.costType ≠ .L2 ∧ a.weightUpdateCount = 0 then 5 else p.relChangeTol

open Classical in
/-- The loop closures that count: the agent's own and the shared ones with active neighbours. -/
noncomputable def liveLcs (ID : Nat) (g : PoseGraph ℝ) : List (Meas ℝ) :=
  g.privateLcs ++ g.sharedLcs.filter fun m =>
    decide (g.isNeighborActive (foreignPose ID m).robot = ok true)

open Classical in
/-- The demanded share of the counting loop closures is decided, that is, has weight zero or one. -/
def EnoughDecided (ID : Nat) (p : AgentParams) (g : PoseGraph ℝ) : Prop :=
  p.minConvergenceRatio * (liveLcs ID g).length ≤
    ((liveLcs ID g).filter fun m => decide (m.weight = 0 ∨ m.weight = 1)).length

/-- An initialised agent runs an iteration with optimisation. -/
def Optimizes (e : Ev) : Prop := e.op = .iterate true ∧ e.before.state = .INITIALIZED

/-- Such an iteration that succeeds, moves no pose farther than allowed, and finds enough loop closures
decided. -/
def Settles (o : AgentOracles) (ID : Nat) (p : AgentParams) (e : Ev) : Prop :=
  Optimizes e ∧ e.before.iterate o true = ok (true, e.after) ∧
  (∀ i < e.before.graph.n, poseMove p e.before e.after i ≤ allowedMove p e.before) ∧
  ((liveLcs ID e.before.graph).length ≠ 0 → EnoughDecided ID p e.before.graph)

/-- What an agent says about itself is forgotten: a later iteration, a reset, or a weight update. -/
def Renews (e : Ev) : Prop := Optimizes e ∨ DropsReports e

/-- An iteration of an initialised agent. -/
def Works (e : Ev) : Prop := (∃ b, e.op = .iterate b) ∧ e.before.state = .INITIALIZED

/-- Every report that still counts is what an agent with the reported id, somewhere in its own history,
says about itself. -/
def Truthful (q : Nat → AgentParams) (t : List Ev) : Prop :=
  ∀ rid s, LastReport rid s t → ∃ o u b, Hist o rid (q rid) u b ∧ s = b.getStatus.1

end Dpgo.Spec
