import Verif.Spec.Schedule
import Verif.Spec.Reweight

/-!
# A team of agents with a robust cost

Phases of optimisation under arbitrary schedules alternate with rounds in which every robot updates the
weights of its loop closures.
-/

namespace Dpgo.Spec

open Res

/-- The edge `m` of the team becomes `m'`: weights that are fixed and weights of odometry stay; any other
weight is the one the robust cost gives to the residual at the joint estimate. -/
def Reweighed (r d : Nat) (c : RobustCost) (X : Joint ℝ) (m m' : Meas ℝ) : Prop :=
  (m.fixedWeight = true ∨ isOdo m.r1 m = true → m' = m) ∧
  (m.fixedWeight = false → isOdo m.r1 m = false →
    ∃ w, c.weight (resid r d m (X m.r1) m.p1 (X m.r2) m.p2) = ok w ∧ m' = { m with weight := w })

/-- What every robot last received from each neighbour was sent after the last optimisation of that
neighbour. -/
def Informed (E : List (Meas ℝ)) (c : Clock) : Prop := ∀ i j, Partners E i j → c.seen i j = some (c.moves j)

/-- Number of iterations of robot `i`. -/
def iterationsOf (i : Nat) (ops : List NetOp) : Nat :=
  ops.countP fun op => decide (op = .iterate i true ∨ op = .iterate i false)

/-- A schedule followed by weight updates of the robots in `order`. -/
structure Round where
  ops : List NetOp
  order : List Nat

/-- Every robot updates its weights once, and does so with the current poses of its neighbours; the counter
of inner iterations does not overflow. -/
structure Orderly (N : Nat) (E : List (Meas ℝ)) (f : Round) : Prop where
  sound : Always (Sound N) f.ops
  informed : Informed E (Clock.after f.ops)
  once : f.order.Perm (List.range N)
  short : ∀ i < N, iterationsOf i f.ops < 2 ^ 31

noncomputable section

/-- The robots in `order` update their weights; messages still under way are lost. -/
def reweighAll (s : Net) (order : List Nat) : Res Net :=
  Res.foldl (fun s i => do
    let a ← (s.agents i).updateMeasurementWeights
    ok ⟨Function.update s.agents i a, []⟩) ⟨s.agents, []⟩ order

/-- The team goes through rounds, starting with edges `E`, robust cost `c` and agents `s`, and ends with
edges `E'`, cost `c'` and agents `t`. -/
inductive Course (o : AgentOracles) (p : AgentParams) (E : List (Meas ℝ)) (c : RobustCost) (s : Net) :
    List Round → List (Meas ℝ) → RobustCost → Net → Prop
  | start : Course o p E c s [] E c s
  | round {l : List Round} {f : Round} {E' E'' : List (Meas ℝ)} {c' : RobustCost} {t u v : Net}
      (h : Course o p E c s l E' c' t) (e : netRun o t f.ops = ok u)
      (w : List.Forall₂ (Reweighed p.r p.d c' u.estimate) E' E'') (e' : reweighAll u f.order = ok v) :
      Course o p E c s (l ++ [f]) E'' c'.update v

end

/-- Robot `i` is ready to start a phase: it is ready to optimise the edges `E`, its robust cost is `c`, it
has updated its weights `k` times, and it has an initial guess in case a reset is due. -/
structure RobustDuty (o : AgentOracles) (p : AgentParams) (E : List (Meas ℝ)) (c : RobustCost) (k : Int)
    (i : Nat) (a : Agent) : Prop where
  duty : OnDuty o p E i a
  cost : a.cost = c
  inner : a.innerIter = 0
  count : a.weightUpdateCount = k
  guess : a.trajectoryResetCount < p.numResets → ∃ X, a.XInit = some X

end Dpgo.Spec
