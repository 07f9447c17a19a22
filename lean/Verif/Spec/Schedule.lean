import Verif.Spec.Team
import Verif.Spec.Shared
import Verif.Spec.Agent

/-!
# A team of agents under an arbitrary schedule

Robots put messages with their public poses on the network, receive messages and iterate, in any order.  A
message may be delivered late, more than once, out of order, to any other robot, or never.  The schedule is
judged by a clock that knows nothing of poses.
-/

namespace Dpgo.Spec

open Res

/-- A message on the network: the sender's status and (some of) its public poses. -/
structure Letter where
  src : Nat
  status : Status
  dict : PoseDict ℝ

/-- The agents and all messages sent so far. -/
structure Net where
  agents : Nat → Agent
  mail : List Letter

/-- What may happen next.  `send j none`: robot `j` sends all its public poses; `send j (some i)`: only those
needed by robot `i`; `deliver i k`: message number `k` arrives at robot `i`. -/
inductive NetOp where
  | send (j : Nat) (dst : Option Nat)
  | deliver (i k : Nat)
  | iterate (i : Nat) (doOpt : Bool)
deriving DecidableEq

noncomputable section

/-- The public poses robot `j` puts into a message. -/
def outgoing (b : Agent) : Option Nat → Res (Option (PoseDict ℝ))
  | none => b.getSharedPoseDict
  | some i => b.getSharedPoseDictWithNeighbor i

/-- One event; sender and receiver make the calls of examples/MultiRobotExample.cpp:184-192. -/
def netStep (o : AgentOracles) (s : Net) : NetOp → Res Net
  | .send j dst => do
    match ← outgoing (s.agents j) dst with
    | none => ok s
    | some dict =>
      ok ⟨Function.update s.agents j (s.agents j).getStatus.2,
        s.mail ++ [⟨j, (s.agents j).getStatus.1, dict⟩]⟩
  | .deliver i k =>
    match s.mail[k]? with
    | none => ok s
    | some l => do
      let a ← ((s.agents i).setNeighborStatus l.status).updateNeighborPoses o l.src l.dict
      ok ⟨Function.update s.agents i a, s.mail⟩
  | .iterate i doOpt => do
    let (_, a) ← (s.agents i).iterate o doOpt
    ok ⟨Function.update s.agents i a, s.mail⟩

/-- A schedule. -/
def netRun (o : AgentOracles) (s : Net) (ops : List NetOp) : Res Net := Res.foldl (netStep o) s ops

/-- The joint estimate. -/
def Net.estimate (s : Net) : Joint ℝ := fun i => (s.agents i).X.X

end

/-- What the schedule alone says: how often each robot has optimised, what was sent (sender, addressee and
how often the sender had optimised by then), and the age of what each robot last received from each other
robot (`none`: nothing, or only poses meant for a third robot). -/
structure Clock where
  moves : Nat → Nat
  sent : List (Nat × Option Nat × Nat)
  seen : Nat → Nat → Option Nat

namespace Clock

def start : Clock := ⟨fun _ => 0, [], fun _ _ => none⟩

def tick (c : Clock) : NetOp → Clock
  | .send j dst => { c with sent := c.sent ++ [(j, dst, c.moves j)] }
  | .deliver i k =>
    match c.sent[k]? with
    | none => c
    | some (j, dst, v) => { c with
        seen := Function.update c.seen i
          (Function.update (c.seen i) j (if dst = none ∨ dst = some i then some v else none)) }
  | .iterate i true => { c with moves := Function.update c.moves i (c.moves i + 1) }
  | .iterate _ false => c

def after (ops : List NetOp) : Clock := ops.foldl tick start

end Clock

/-- The event concerns robots of the team; messages exist and do not return to their sender; no robot
addresses itself. -/
def Sound (N : Nat) (c : Clock) : NetOp → Prop
  | .send j dst => j < N ∧ dst ≠ some j
  | .deliver i k => i < N ∧ ∃ x, c.sent[k]? = some x ∧ x.1 ≠ i
  | .iterate i _ => i < N

/-- Robots `i` and `j` share an edge. -/
def Partners (E : List (Meas ℝ)) (i j : Nat) : Prop :=
  i ≠ j ∧ ∃ m ∈ E, (m.r1 = i ∧ m.r2 = j) ∨ (m.r1 = j ∧ m.r2 = i)

/-- When a robot optimises, what it last received from each neighbour was sent after the last optimisation
of that neighbour. -/
def Timely (E : List (Meas ℝ)) (c : Clock) : NetOp → Prop
  | .iterate i true => ∀ j, Partners E i j → c.seen i j = some (c.moves j)
  | _ => True

/-- Every event of the schedule is as required at its time. -/
def Always (P : Clock → NetOp → Prop) (ops : List NetOp) : Prop :=
  ∀ before op after, ops = before ++ op :: after → P (Clock.after before) op

/-- At some point of the schedule, robot `j` had optimised `v` times and its estimate was `B`. -/
def Was (o : AgentOracles) (s : Net) (ops : List NetOp) (j v : Nat) (B : PArr ℝ) : Prop :=
  ∃ before t, before <+: ops ∧ netRun o s before = ok t ∧ (Clock.after before).moves j = v ∧
    (t.agents j).X = B

/-- Robot `i` is ready to start optimising the edges `E` of the team: it has been given its edges, it is
initialised and knows the lifting matrix, and it has not optimised or been reset yet. -/
structure OnDuty (o : AgentOracles) (p : AgentParams) (E : List (Meas ℝ)) (i : Nat) (a : Agent) : Prop where
  reach : AgReach o i p a
  edges : a.graph.measurements = buckets i (firstWins (E.filter (touches i)))
  priors : a.graph.priors = []
  active : allActive a.graph
  use : a.graph.useInactive = false
  uncached : uncached a.graph
  noSelf : ¬ hasSelfLoop a.graph
  covered : posesCovered a.graph
  state : a.state = .INITIALIZED
  lift : ∃ Y, a.YLift = some Y
  first : a.instanceNumber = 0

/-- The edges of the team allow robot `i` to take part: sizes fit, robot `i` has odometry, no private edge
joins a pose with itself, and private edges reach as far as the poses of robot `i` mentioned in any edge. -/
structure Equips (d : Nat) (E : List (Meas ℝ)) (i : Nat) : Prop where
  wf : ∀ m ∈ E, MeasWF m
  dims : ∀ m ∈ E, m.R.rows = d ∧ m.R.cols = d ∧ m.t.rows = d ∧ m.t.cols = 1
  odo : ∃ m ∈ E, isOdo i m = true
  noSelf : ∀ m ∈ E, m.r1 = i → m.r2 = i → m.p1 ≠ m.p2
  reaches : ∀ m ∈ E, ∀ x ∈ ownIndices i m, ∃ m' ∈ E, m'.r1 = i ∧ m'.r2 = i ∧ (x ≤ m'.p1 ∨ x ≤ m'.p2)

end Dpgo.Spec
