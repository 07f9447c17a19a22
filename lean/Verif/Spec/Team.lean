import Verif.Spec.Assembly
import Verif.Spec.PoseGraph

/-!
# Specification of a team of robots optimising one pose graph

The team-wide cost is a plain sum over the team's edge list; an execution is any sequence of single
robot updates.
-/

namespace Dpgo.Spec

variable {K : Type} [Field K]

/-- A joint estimate: one array of poses per robot. -/
abbrev Joint (K : Type) := Nat → DMat K

/-- Half the weighted sum of squared residuals over the edges of the team (repeated edges count
once). -/
def teamCost (r d : Nat) (E : List (Meas K)) (X : Joint K) : K :=
  1 / 2 * ((firstWins E).map fun m => edgeCost r d m (X m.r1) m.p1 (X m.r2) m.p2).sum

omit [Field K] in
/-- `P` is the pose `p` of the joint estimate. -/
def carries (r d : Nat) (X : Joint K) (p : PoseID) (P : PArr K) : Prop :=
  ∀ ρ c, ρ < r → c < d + 1 → P.X.v ρ c = (X p.robot).v ρ (p.frame * (d + 1) + c)

omit [Field K] in
/-- The dictionary has the current value of every foreign pose the graph needs. -/
def upToDate (r d : Nat) (X : Joint K) (g : PoseGraph K) (dict : PoseDict K) : Prop :=
  ∀ p ∈ g.nbrShared, ∃ P, OMap.find? ltPoseID p dict = some P ∧ carries r d X p P

omit [Field K] in
/-- Every neighbour of the graph is active. -/
def allActive (g : PoseGraph K) : Prop := ∀ i ∈ g.nbrRobots, g.isNeighborActive i = Res.ok true

/-- State of a team: pose graphs and joint estimate. -/
structure TeamState (K : Type) where
  graph : Nat → PoseGraph K
  X : Joint K

/-- Robot `a` receives current neighbour poses, evaluates its local objective at its estimate and at a
candidate, and adopts the candidate if the objective did not increase. -/
inductive TeamStep [LE K] (r d : Nat) : TeamState K → TeamState K → Prop
  | update (s : TeamState K) (a : Nat) (dict : PoseDict K) (Xa : DMat K) (f₀ f₁ : K)
      (g₁ g₂ : PoseGraph K) (hdict : upToDate r d s.X (s.graph a) dict)
      (e₀ : problemF ((s.graph a).setNeighborPoses dict) (s.X a) = Res.ok (f₀, g₁))
      (e₁ : problemF g₁ Xa = Res.ok (f₁, g₂)) (hle : f₁ ≤ f₀) :
      TeamStep r d s ⟨Function.update s.graph a g₂, Function.update s.X a Xa⟩

/-- Any finite schedule of updates. -/
inductive TeamRun [LE K] (r d : Nat) : TeamState K → TeamState K → Prop
  | refl (s : TeamState K) : TeamRun r d s s
  | tail (s t u : TeamState K) (h : TeamRun r d s t) (h' : TeamStep r d t u) : TeamRun r d s u

/-- Every robot's graph has been built from the team-wide edge list. -/
def teamStart (r d : Nat) (E : List (Meas K)) (s : TeamState K) : Prop :=
  ∀ a, ∃ g₀, PoseGraph.new a r d = Res.ok g₀ ∧ g₀.setMeasurements E = Res.ok (s.graph a)

end Dpgo.Spec
