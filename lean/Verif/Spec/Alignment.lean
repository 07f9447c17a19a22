import Verif.Spec.Truth

/-!
# The alignment phase of a team

Robots collect noise-free measurements, initialise, hand on the lifting matrix and exchange poses, in any
order.  A pose message may be delivered late, more than once, to any robot, or never.
-/

namespace Dpgo.Spec

open Res Matrix

namespace Truth
variable {d : Nat}

/-- The true poses as seen from the first pose of robot 0. -/
def seen (w : Truth d) : Truth d where
  R r i := (w.R 0 0)ᵀ * w.R r i
  t r i := (w.R 0 0)ᵀ *ᵥ (w.t r i - w.t 0 0)
  rigid r i := by
    have h0 := w.rigid 0 0
    have h1 := w.rigid r i
    refine ⟨?_, ?_⟩
    · rw [Matrix.transpose_mul, transpose_transpose, Matrix.mul_assoc, ← Matrix.mul_assoc (w.R 0 0),
        mul_eq_one_comm.1 h0.1, Matrix.one_mul, h1.1]
    · rw [det_mul, det_transpose, h0.2, h1.2, mul_one]

end Truth

/-- A pose message. -/
structure Message where
  src : Nat
  dict : PoseDict ℝ

/-- The robot's own measurements determine its trajectory by the configured method. -/
def SelfSufficient (o : AgentOracles) (p : AgentParams) (a : Agent) : Prop :=
  Complete p.d a.graph ∧ (p.initMethod = .Odometry ∨ p.initMethod = .Chordal ∧ LawfulLsq o.qr ∧
    ∀ m ∈ a.graph.localMeasurements, 0 < m.kappa ∧ 0 < m.tau)

/-- Calls on robot `id` in the alignment phase: measurements and supplied trajectories are exact, estimates
are not moved (no iteration, no estimate or frame set by hand).  Lifting matrices and poses of other robots
arrive by `SetupRun.lift` and `SetupRun.receive`. -/
def SetupCall (o : AgentOracles) (p : AgentParams) (w : Truth p.d) (resets : Prop) (id : Nat) (a : Agent) :
    AgOp → Prop
  | .addMeasurement m => MeasWF m ∧ w.Exact m
  | .setMeasurements x y z => ∀ m ∈ x ++ y ++ z, MeasWF m ∧ w.Exact m
  | .init T => (∀ P, T = some P → ArrOk P.d P.d P.n P) ∧
      ((∃ P, T = some P ∧ P.d = p.d ∧ P.n = a.graph.n ∧ ∃ S s, w.Local id P.n S s P) ∨
        (∀ P, T = some P → P.d ≠ p.d ∨ P.n ≠ a.graph.n) ∧ SelfSufficient o p a)
  | .initializeInGlobalFrame _ => False
  | .iterate _ => False
  | .setX _ => False
  | .setLiftingMatrix _ => False
  | .updateNeighborPoses _ _ => False
  | .reset => resets
  | op => AgOpWF op

/-- Robots `A` and all messages `M` sent so far, after some run of the alignment phase. -/
inductive SetupRun (o : AgentOracles) (p : AgentParams) (w : Truth p.d) (resets : Prop) :
    (Nat → Agent) → List Message → Prop
  | new {A : Nat → Agent} : (∀ id, Agent.new o id p = ok (A id)) → SetupRun o p w resets A []
  | call {A : Nat → Agent} {M : List Message} {id : Nat} {op : AgOp} {a' : Agent} :
      SetupRun o p w resets A M → SetupCall o p w resets id (A id) op → (A id).step o op = ok a' →
      SetupRun o p w resets (Function.update A id a') M
  | lift {A : Nat → Agent} {M : List Message} {id j : Nat} {Y : DMat ℝ} {a' : Agent} :
      SetupRun o p w resets A M → (A j).getLiftingMatrix = some Y → (A id).setLiftingMatrix Y = ok a' →
      SetupRun o p w resets (Function.update A id a') M
  | send {A : Nat → Agent} {M : List Message} {id : Nat} {dict : PoseDict ℝ} :
      SetupRun o p w resets A M → ((A id).getSharedPoseDict = ok (some dict) ∨
        ∃ j, j ≠ id ∧ (A id).getSharedPoseDictWithNeighbor j = ok (some dict)) →
      SetupRun o p w resets A (⟨id, dict⟩ :: M)
  | receive {A : Nat → Agent} {M : List Message} {id : Nat} {m : Message} {a' : Agent} :
      SetupRun o p w resets A M → m ∈ M → (A id).updateNeighborPoses o m.src m.dict = ok a' →
      SetupRun o p w resets (Function.update A id a') M

/-- Robot `i` is a neighbour of robot `j`, both initialised. -/
def Adjacent (A : Nat → Agent) (i j : Nat) : Prop :=
  (A i).state = .INITIALIZED ∧ (A j).state = .INITIALIZED ∧ (A i).hasNeighbor j = true

end Dpgo.Spec
