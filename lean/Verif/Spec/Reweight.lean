import Verif.Spec.History
import Verif.Spec.Cost
import Verif.Spec.Solver

/-! # What a weight update should do, and disciplined histories of weight updates -/

namespace Dpgo.Spec

open Res

/-- The estimate robot `ID` holds of pose `k`: pose `i` of the matrix `A`. -/
def Holds (ID : Nat) (a : Agent) (k : PoseID) (A : DMat ℝ) (i : Nat) : Prop :=
  (k.robot = ID ∧ A = a.X.X ∧ i = k.frame) ∨
  (k.robot ≠ ID ∧ i = 0 ∧ ∃ P, (k, P) ∈ a.neighborPoses ∧ A = P.X)

/-- Residual of a measurement: square root of the unweighted squared error. -/
noncomputable def resid (r d : Nat) (m : Meas ℝ) (A : DMat ℝ) (i : Nat) (B : DMat ℝ) (j : Nat) : ℝ :=
  Real.sqrt (m.kappa * rotRes r d m A i B j + m.tau * traRes r d m A i B j)

/-- The loop closure takes part in the optimisation: both ends are own poses, or the other robot is
active. -/
def Live (ID : Nat) (a : Agent) (m : Meas ℝ) : Prop :=
  m.r1 = m.r2 ∨ a.graph.isNeighborActive (foreignPose ID m).robot = ok true

/-- First and second end of a measurement. -/
def tailId (m : Meas ℝ) : PoseID := ⟨m.r1, m.p1⟩

@[inherit_doc tailId] def headId (m : Meas ℝ) : PoseID := ⟨m.r2, m.p2⟩

/-- Both ends are known to the robot. -/
def EndsKnown (ID : Nat) (a : Agent) (m : Meas ℝ) : Prop :=
  (∃ A i, Holds ID a (tailId m) A i) ∧ ∃ B j, Holds ID a (headId m) B j

/-- `m'` is the loop closure `m` after a weight update of `a`. -/
def Updated (ID : Nat) (p : AgentParams) (a : Agent) (m m' : Meas ℝ) : Prop :=
  (m.fixedWeight = true ∨ ¬ Live ID a m ∨ ¬ EndsKnown ID a m → m' = m) ∧
  (m.fixedWeight = false → Live ID a m → ∀ A i B j, Holds ID a (tailId m) A i →
    Holds ID a (headId m) B j →
    ∃ w, a.cost.weight (resid p.r p.d m A i B j) = ok w ∧ m' = { m with weight := w })

/-- Every pose of robot `i` that `b` stores has the value it has in the estimate of `a`. -/
def UpToDate (r d i : Nat) (a b : Agent) : Prop :=
  ∀ k P, k.robot = i → (k, P) ∈ b.neighborPoses → ∀ ρ < r, ∀ c < d + 1,
    P.X.v ρ c = a.X.X.v ρ (k.frame * (d + 1) + c)

/-- The call updates weights. -/
def Reweights (e : Ev) : Prop := e.op = .updateMeasurementWeights ∧ e.before.state = .INITIALIZED

/-- Weights are updated only when `shouldUpdateMeasurementWeights` says so. -/
def Guarded (t : List Ev) : Prop :=
  ∀ e ∈ t, e.op = .updateMeasurementWeights → e.before.shouldUpdateMeasurementWeights = ok true

open Classical in
/-- Number of weight updates since the last reset. -/
noncomputable def reweightsSinceReset (t : List Ev) : Nat :=
  t.foldl (fun k e => if e.op = .reset then 0 else if Reweights e then k + 1 else k) 0

open Classical in
/-- Number of `iterate` calls since the last reset or weight update. -/
noncomputable def iteratesSinceUpdate (t : List Ev) : Nat :=
  t.foldl (fun k e => if DropsReports e then 0 else if ∃ b, e.op = .iterate b then k + 1 else k) 0

open Classical in
/-- Number of `iterate` calls. -/
noncomputable def numIterates (t : List Ev) : Nat :=
  (t.filter fun e => decide (∃ b, e.op = .iterate b)).length

end Dpgo.Spec
