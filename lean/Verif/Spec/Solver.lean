import Verif.Model.Solver
import Verif.Spec.Chordal
import Verif.Spec.Optimizer
import Verif.Spec.Poses
import Verif.Spec.Team

/-!
# Specification of the single-robot solvers
-/

namespace Dpgo.Spec

/-- The two measurements agree in everything but the weight. -/
def SameButWeight {K : Type} (m m' : Meas K) : Prop := m' = { m with weight := m'.weight }

/-- A pose-graph problem of one robot in dimension `d` with `n` poses: ids in range, matching sizes, no
edge from a pose to itself. -/
structure OneRobot {K : Type} (id d n : Nat) (ms : List (Meas K)) : Prop where
  nonempty : ms ≠ []
  dim : d = 2 ∨ d = 3
  ids : ∀ m ∈ ms, m.r1 = id ∧ m.r2 = id
  wf : ∀ m ∈ ms, MeasWF m
  dims : ∀ m ∈ ms, MeasDim d m
  noSelf : ∀ m ∈ ms, m.p1 ≠ m.p2
  num : NumPoses ms n

/-- The precisions of all measurements are non-negative. -/
def Precise (ms : List (Meas ℝ)) : Prop := ∀ m ∈ ms, 0 ≤ m.kappa ∧ 0 ≤ m.tau

/-- The start of the solver is usable: a trajectory of the right shape is given, or the linear solver
used to compute one is correct. -/
def StartOk (o : SolverOracles) (d n : Nat) : Option (PArr ℝ) → Prop
  | some P => ArrOk d d n P
  | none => LawfulLsq o.qr

/-- The starting point: the given trajectory, or the chordal initialisation. -/
def StartsAt (o : SolverOracles) (ms : List (Meas ℝ)) : Option (PArr ℝ) → PArr ℝ → Prop
  | some T, P => T = P
  | none, P => chordalInitialization o.svd o.qr ms = Res.ok P

/-- `ms'` differs from `ms` in the weights of measurements not marked as fixed only. -/
def Reweighted {K : Type} (ms ms' : List (Meas K)) : Prop :=
  List.Forall₂ (fun m m' => SameButWeight m m' ∧ (m.fixedWeight = true → m' = m)) ms ms'

/-- All weights not marked as fixed lie in `[0, 1]`. -/
def WeightsOk (ms : List (Meas ℝ)) : Prop :=
  ∀ m ∈ ms, m.fixedWeight = false → 0 ≤ m.weight ∧ m.weight ≤ 1

/-- Weighted cost of a trajectory (a repeated edge counts once). -/
noncomputable def pgoCost (d : Nat) (ms : List (Meas ℝ)) (T : PArr ℝ) : ℝ :=
  teamCost d d ms (fun _ => T.X)

end Dpgo.Spec
