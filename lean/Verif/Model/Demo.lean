import Verif.Model.AgentQuery
import Verif.Model.Partition

/-!
# The multi-robot demo (`examples/MultiRobotExample.cpp:46-262`)

The program after the dataset has been read.  The `assert`s are taken as checks (they are compiled out
in a Release build).  Of the output only the line printed per iteration is kept; arguments and file are in `Model/Main`.
-/

namespace Dpgo.Example

open Res

noncomputable section

/-- Constants of the program (examples/MultiRobotExample.cpp:55-58) without `verbose`. -/
structure Options where
  r : Nat
  acceleration : Bool
  numIters : Nat

/-- The values compiled in (examples/MultiRobotExample.cpp:55-58). -/
def Options.shipped : Options := ⟨5, true, 1000⟩

/-- `d` (examples/MultiRobotExample.cpp:53): `t.size()` of the first measurement, or 0. -/
def dimensionOf (dataset : List (Meas ℝ)) : Nat :=
  match dataset with
  | [] => 0
  | m :: _ => u32 (m.t.rows * m.t.cols)

/-- `PGOAgentParameters options(d, r, num_robots)` with `acceleration` set
(examples/MultiRobotExample.cpp:128-130). -/
def agentParams (q : Options) (d N : Nat) : AgentParams :=
  { AgentParams.default d q.r with numRobots := N, acceleration := q.acceleration }

/-- `v[i]` of a `vector` (examples/MultiRobotExample.cpp:142-144, 172); an index out of range is
undefined behaviour. -/
def at! {α : Type} (v : List α) (i : Nat) : Res α :=
  match v[i]? with
  | some x => ok x
  | none => ub

/-- A call that changes the agent `agents[i]`. -/
def onAgent (f : Agent → Res Agent) (agents : List Agent) (i : Nat) : Res (List Agent) := do
  let a ← at! agents i
  let a ← f a
  ok (agents.set i a)

/-- Construction of one agent (examples/MultiRobotExample.cpp:127-147).  `getLiftingMatrix` leaves `M`
an empty matrix if there is none (its result is ignored). -/
def createAgent (o : AgentOracles) (q : Options) (d N : Nat) (s : Split ℝ) (agents : List Agent)
    (robot : Nat) : Res (List Agent) := do
  let a ← Agent.new o robot (agentParams q d N)
  let a ← if robot > 0 then do
      let a0 ← at! agents 0
      a.setLiftingMatrix (a0.getLiftingMatrix.getD ⟨0, 0, fun _ _ => 0⟩)
    else ok a
  let odo ← at! s.odometry robot
  let priv ← at! s.privateLcs robot
  let shared ← at! s.sharedLcs robot
  let a ← a.setMeasurements odo priv shared
  let a ← a.init o none
  ok (agents ++ [a])

/-- `fixedStiefelVariable(d, r) * TChordal.getData()` (examples/MultiRobotExample.cpp:154-155). -/
def liftedGuess (o : AgentOracles) (q : Options) (d : Nat) (dataset : List (Meas ℝ)) :
    Res (DMat ℝ) := do
  let T ← chordalInitialization o.svd o.qr dataset
  require (T.X.rows == d)
  ok ((DMat.ofMat (o.stiefel d q.r)).mul T.X)

/-- One robot's share of the lifted estimate (examples/MultiRobotExample.cpp:157-160). -/
def giveShare (q : Options) (d N n per : Nat) (X : DMat ℝ) (agents : List Agent) (robot : Nat) :
    Res (List Agent) := do
  let B ← localBlock q.r d (startIdx per robot) (endIdx N n per robot) X
  onAgent (fun a => a.setX B) agents robot

/-- Creation and initialisation of all agents (examples/MultiRobotExample.cpp:126-161). -/
def setupAgents (o : AgentOracles) (q : Options) (d N n per : Nat) (s : Split ℝ)
    (dataset : List (Meas ℝ)) : Res (List Agent) := do
  let agents ← Res.foldl (createAgent o q d N s) [] (List.range N)
  let X ← liftedGuess o q d dataset
  Res.foldl (giveShare q d N n per X) agents (List.range N)

/-- A robot that is not selected (examples/MultiRobotExample.cpp:175-181); the assertions are tested
for all robots. -/
def idleStep (o : AgentOracles) (sel iter : Nat) (a : Agent) : Res Agent := do
  check (a.instanceNumber == 0)
  check (a.iterationNumber == iter)
  if a.id ≠ sel then do
    let (_, a) ← a.iterate o false
    ok a
  else ok a

/-- Exchange of the public poses of `agents[i]` (examples/MultiRobotExample.cpp:184-192). -/
def sendPoses (o : AgentOracles) (sel : Nat) (agents : List Agent) (i : Nat) : Res (List Agent) := do
  let b ← at! agents i
  if b.id = sel then ok agents
  else do
    match ← b.getSharedPoseDict with
    | none => ok agents
    | some dict => do
      let (st, b) := b.getStatus
      let agents := agents.set i b
      onAgent (fun a => (a.setNeighborStatus st).updateNeighborPoses o b.id dict) agents sel

/-- Exchange of the auxiliary poses of `agents[i]` (examples/MultiRobotExample.cpp:196-204). -/
def sendAuxPoses (sel : Nat) (agents : List Agent) (i : Nat) : Res (List Agent) := do
  let b ← at! agents i
  if b.id = sel then ok agents
  else do
    match ← b.getAuxSharedPoseDict with
    | none => ok agents
    | some dict => do
      let (st, b) := b.getStatus
      let agents := agents.set i b
      onAgent (fun a => (a.setNeighborStatus st).updateAuxNeighborPoses b.id dict) agents sel

/-- The part of an iteration played by the agents (examples/MultiRobotExample.cpp:172-207). -/
def teamRound (o : AgentOracles) (q : Options) (N sel iter : Nat) (agents : List Agent) :
    Res (List Agent) := do
  let agents ← Res.foldl (onAgent (idleStep o sel iter)) agents (List.range N)
  let agents ← Res.foldl (sendPoses o sel) agents (List.range N)
  let agents ← if q.acceleration then Res.foldl (sendAuxPoses sel) agents (List.range N) else ok agents
  onAgent (fun a => do let (_, a) ← a.iterate o true; ok a) agents sel

/-- `getX` of the agents (examples/MultiRobotExample.cpp:215-216), which always succeeds. -/
def estimates (agents : List Agent) (i : Nat) : DMat ℝ :=
  match agents[i]? with
  | some a => a.getX
  | none => ⟨0, 0, fun _ _ => 0⟩

/-- `problemCentral.RieGrad(Xopt)` (examples/MultiRobotExample.cpp:220, QuadraticProblem.cpp:71-79,
LiftedSEVariable.cpp:59-67). -/
def centralGrad (oc : OptOracles) (g : PoseGraph ℝ) (Y : DMat ℝ) : Res (DMat ℝ × PoseGraph ℝ) := do
  check (Y.rows == g.r)
  check (Y.cols == (g.d + 1) * g.n)
  let (Q, g) ← g.quadraticMatrix
  let (G, g) ← g.linearMatrix
  require (Q.rows == Y.cols && Q.cols == Y.cols && G.rows == Y.rows && G.cols == Y.cols)
  ok (DMat.ofMat (rieGrad oc g Q G Y), g)

/-- `RGrad.block(...).norm()` for every robot (examples/MultiRobotExample.cpp:238-246). -/
def blockNorms (q : Options) (d N n per : Nat) (RGrad : DMat ℝ) : Res (List ℝ) :=
  Res.foldl (fun v robot => do
    let B ← localBlock q.r d (startIdx per robot) (endIdx N n per robot) RGrad
    ok (v ++ [PArr.norm B])) [] (List.range N)

open Classical in
/-- `std::max_element(v.begin(), v.end()) - v.begin()` (examples/MultiRobotExample.cpp:247): the first
of the largest entries. -/
def maxElement (v : List ℝ) : Nat :=
  (List.range v.length).foldl (fun best i => if v.getD best 0 < v.getD i 0 then i else best) 0

/-- Choice of the next robot (examples/MultiRobotExample.cpp:233-248); `sel` is the robot that has just
been optimised. -/
def selectNext (q : Options) (d N n per : Nat) (RGrad : DMat ℝ) (a : Agent) : Res Nat :=
  if a.getNeighbors.isEmpty then ok a.id
  else do
    let v ← blockNorms q d N n per RGrad
    ok (maxElement v)

/-- Sharing of the anchor (examples/MultiRobotExample.cpp:250-255); `getSharedPose` leaves `M` an empty
matrix if it fails (its result is ignored). -/
def shareAnchor (N : Nat) (agents : List Agent) : Res (List Agent) := do
  let a0 ← at! agents 0
  let M ← a0.getSharedPose 0
  Res.foldl (onAgent fun a => a.setGlobalAnchor (M.getD ⟨0, 0, fun _ _ => 0⟩)) agents (List.range N)

/-- What is printed in an iteration (examples/MultiRobotExample.cpp:222-226). -/
structure Line where
  iter : Nat
  robot : Nat
  cost : ℝ
  gradnorm : ℝ

/-- Variables of the optimisation loop (examples/MultiRobotExample.cpp:168-256). -/
structure LoopState where
  agents : List Agent
  /-- the graph of `problemCentral` -/
  central : PoseGraph ℝ
  Xopt : DMat ℝ
  selected : Nat
  /-- lines printed so far -/
  lines : List Line
  /-- the loop has been left by `break` -/
  done : Bool

open Classical in
/-- One iteration of the optimisation loop (examples/MultiRobotExample.cpp:171-256). -/
def demoIter (o : AgentOracles) (oc : OptOracles) (q : Options) (d N n per : Nat) (s : LoopState)
    (iter : Nat) : Res LoopState :=
  if s.done then ok s
  else do
    let agents ← teamRound o q N s.selected iter s.agents
    let Xopt ← assemble q.r d N n per (estimates agents) s.Xopt
    let (RGrad, central) ← centralGrad oc s.central Xopt
    let (f, central) ← problemF central Xopt
    let a ← at! agents s.selected
    let norm := PArr.norm RGrad
    let lines := s.lines ++ [⟨iter, a.id, 2 * f, norm⟩]
    if norm < 1 / 10 then ok ⟨agents, central, Xopt, s.selected, lines, true⟩
    else do
      let sel ← selectNext q d N n per RGrad a
      let agents ← shareAnchor N agents
      ok ⟨agents, central, Xopt, sel, lines, false⟩

/-- Start of the optimisation loop (examples/MultiRobotExample.cpp:60-161, 168-169).  The entries of
`Xopt` are not initialised: `junk` is what happens to be in memory. -/
def demoStart (o : AgentOracles) (q : Options) (junk : Nat → Nat → ℝ) (numRobots : Int) (n : Nat)
    (dataset : List (Meas ℝ)) : Res LoopState := do
  let d := dimensionOf dataset
  let central ← PoseGraph.new 0 q.r d
  let central ← central.setMeasurements dataset
  let (_, s) ← partition numRobots n dataset
  let N := numRobots.toNat
  let per := perRobot N n
  let agents ← setupAgents o q d N n per s dataset
  ok ⟨agents, central, ⟨q.r, u32 (u32 n * (d + 1)), junk⟩, 0, [], false⟩

/-- The program after the dataset has been read up to the end of the optimisation loop
(examples/MultiRobotExample.cpp:46-256). -/
def demoLoop (o : AgentOracles) (oc : OptOracles) (q : Options) (junk : Nat → Nat → ℝ) (numRobots : Int)
    (n : Nat) (dataset : List (Meas ℝ)) : Res LoopState := do
  let s ← demoStart o q junk numRobots n dataset
  let N := numRobots.toNat
  Res.foldl (demoIter o oc q (dimensionOf dataset) N n (perRobot N n)) s (List.range q.numIters)

/-- The whole program (examples/MultiRobotExample.cpp:46-262): after the optimisation loop every agent is
reset (lines 258-260) and the program exits. -/
def demo (o : AgentOracles) (oc : OptOracles) (q : Options) (junk : Nat → Nat → ℝ) (numRobots : Int)
    (n : Nat) (dataset : List (Meas ℝ)) : Res LoopState := do
  let s ← demoLoop o oc q junk numRobots n dataset
  let agents ← Res.foldl (onAgent fun a => a.reset o) s.agents (List.range numRobots.toNat)
  ok { s with agents := agents }

end

end Dpgo.Example
