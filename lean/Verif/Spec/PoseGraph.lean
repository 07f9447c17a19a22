import Verif.Model.PoseGraphOps

/-!
# Specification of the measurement store: an insertion log, first write wins

Nothing here mentions the containers of the implementation: the store is one list of edges.
-/

namespace Dpgo.Spec

variable {K : Type}

/-- All ids fit in 32 bits and are not the last value (so that `index + 1` fits too). -/
def MeasWF (m : Meas K) : Prop :=
  m.r1 < 2 ^ 32 - 1 ∧ m.r2 < 2 ^ 32 - 1 ∧ m.p1 < 2 ^ 32 - 1 ∧ m.p2 < 2 ^ 32 - 1

/-- The edge has an endpoint on robot `id`. -/
def touches (id : Nat) (m : Meas K) : Bool := m.r1 == id || m.r2 == id

/-- Same ordered pair of endpoints. -/
def sameEnds (a b : Meas K) : Bool :=
  a.r1 == b.r1 && a.p1 == b.p1 && a.r2 == b.r2 && a.p2 == b.p2

/-- The edge runs from pose `src` to pose `dst`. -/
def hasEnds (src dst : PoseID) (m : Meas K) : Bool :=
  m.r1 == src.robot && m.p1 == src.frame && m.r2 == dst.robot && m.p2 == dst.frame

/-- Edge between consecutive poses of robot `id`. -/
def isOdo (id : Nat) (m : Meas K) : Bool := m.r1 == id && m.r2 == id && m.p1 + 1 == m.p2

/-- Any other edge between two poses of robot `id`. -/
def isPriv (id : Nat) (m : Meas K) : Bool := m.r1 == id && m.r2 == id && m.p1 + 1 != m.p2

/-- Exactly one endpoint on robot `id`. -/
def isShared (id : Nat) (m : Meas K) : Bool :=
  (m.r1 == id && m.r2 != id) || (m.r1 != id && m.r2 == id)

/-- Adding an edge to the log: ignored when it does not touch the robot or is already present. -/
def add (id : Nat) (log : List (Meas K)) (m : Meas K) : List (Meas K) :=
  if touches id m && !(log.any (sameEnds m)) then log ++ [m] else log

/-- Changing the weight of the edge `src → dst`. -/
def setWeight (src dst : PoseID) (w : K) (fixed : Bool) (m : Meas K) : Meas K :=
  if hasEnds src dst m then { m with weight := w, fixedWeight := fixed } else m

/-- Effect of a call on the log. -/
def step (id : Nat) (log : List (Meas K)) : PGOp K → List (Meas K)
  | .addMeasurement m => add id log m
  | .setMeasurements ms => ms.foldl (add id) []
  | .empty => []
  | .writeWeight src dst w fixed => log.map (setWeight src dst w fixed)
  | _ => log

/-- The log after a history, starting from nothing. -/
def run (id : Nat) (ops : List (PGOp K)) : List (Meas K) := ops.foldl (step id) []

/-- Keep the first edge of every endpoint pair. -/
def firstWins : List (Meas K) → List (Meas K)
  | [] => []
  | m :: l => m :: (firstWins l).filter (fun x => !(sameEnds m x))

/-- The order in which measurements are reported. -/
def buckets (id : Nat) (log : List (Meas K)) : List (Meas K) :=
  log.filter (isOdo id) ++ log.filter (isPriv id) ++ log.filter (isShared id)

/-- Own pose indices mentioned by an edge. -/
def ownIndices (id : Nat) (m : Meas K) : List Nat :=
  (if m.r1 = id then [m.p1] else []) ++ (if m.r2 = id then [m.p2] else [])

/-- Own pose of a shared edge. -/
def ownPose (id : Nat) (m : Meas K) : PoseID := if m.r1 = id then ⟨m.r1, m.p1⟩ else ⟨m.r2, m.p2⟩

/-- Foreign pose of a shared edge. -/
def foreignPose (id : Nat) (m : Meas K) : PoseID := if m.r1 = id then ⟨m.r2, m.p2⟩ else ⟨m.r1, m.p1⟩

/-- The call only carries ids in range. -/
def OpWF : PGOp K → Prop
  | .addMeasurement m => MeasWF m
  | .setMeasurements ms => ∀ m ∈ ms, MeasWF m
  | _ => True

/-- `g` is the result of some history of public calls with ids in range on a new graph. -/
def Reachable [Field K] (id r d : Nat) (g : PoseGraph K) : Prop :=
  ∃ (g₀ : PoseGraph K) (ops : List (PGOp K)),
    PoseGraph.new id r d = Res.ok g₀ ∧ (∀ op ∈ ops, OpWF op) ∧ g₀.run ops = Res.ok g

end Dpgo.Spec
