import Verif.Spec.Schedule
import Verif.Spec.Demo
import Verif.Spec.Feasible
import Verif.Model.Optimizer

/-!
# Rate of convergence

Gradients by their second-order expansion, projections pose by pose, and the decrease a solver guarantees
on smooth problems.
-/

namespace Dpgo.Spec

open Res Finset

noncomputable section

/-- The joint estimate in which only robot `i` has non-zero poses. -/
def only (i : Nat) (V : DMat ℝ) : Joint ℝ := Function.update (fun _ => DMat.zero 0 0) i V

/-- `Gr` is the gradient of the cost of the team with respect to the `n` poses of robot `i`, the others being
fixed: it is the linear part of the exact second-order expansion. -/
def IsBlockGradient (r d n : Nat) (E : List (Meas ℝ)) (X : Joint ℝ) (i : Nat) (Gr : DMat ℝ) : Prop :=
  Gr.rows = r ∧ Gr.cols = (d + 1) * n ∧ ∀ V : DMat ℝ, V.rows = r → V.cols = (d + 1) * n →
    teamCost r d E (Function.update X i ((X i).add V)) =
      teamCost r d E X + Gr.dot V + teamCost r d E (only i V)

/-- Pose `k` of a matrix of poses. -/
def poseOf (r d : Nat) (X : DMat ℝ) (k : Nat) : Matrix (Fin r) (Fin (d + 1)) ℝ :=
  Matrix.of fun ρ c => X.v ρ (k * (d + 1) + c)

/-- A projection of directions at a pose. -/
abbrev PoseProj := (r d : Nat) → Matrix (Fin r) (Fin (d + 1)) ℝ → Matrix (Fin r) (Fin (d + 1)) ℝ →
  Matrix (Fin r) (Fin (d + 1)) ℝ

/-- The projection of a product of manifolds: every pose is projected by itself. -/
def ActsPosewise (π : PoseProj) (o : OptOracles) : Prop :=
  ∀ (r d n : Nat) (X V : LVar r d n) (k : Nat), k < n →
    poseOf r d (DMat.ofMat (o.proj r d n X V)) k = π r d (poseOf r d (DMat.ofMat X) k) (poseOf r d (DMat.ofMat V) k)

/-- Squared norm of the projected gradient of `n` poses. -/
def slopeSq (π : PoseProj) (r d n : Nat) (X Gr : DMat ℝ) : ℝ :=
  ∑ k ∈ range n, ∑ ρ, ∑ c, π r d (poseOf r d X k) (poseOf r d Gr k) ρ c ^ 2

/-- A run of the solver with the given parameters lowers a symmetric quadratic objective with curvature at most `L`,
started on the manifold where the squared norm of the gradient is at most `M` and the norm of the projected gradient
at least the tolerance, by at least `c` times the squared norm of the projected gradient. -/
def Decreasing (p : OptParams) (L M c : ℝ) (o : OptOracles) : Prop :=
  ∀ (r d n : Nat) (Q G : DMat ℝ) (Y : LVar r d n), Orthonormal r d n ⟨r, d, n, DMat.ofMat Y⟩ →
    Q.rows = (d + 1) * n → Q.cols = (d + 1) * n → G.rows = r → G.cols = (d + 1) * n →
    (∀ i < (d + 1) * n, ∀ j < (d + 1) * n, Q.v i j = Q.v j i) →
    (∀ V : DMat ℝ, V.rows = r → V.cols = (d + 1) * n → (V.mul Q).dot V ≤ L * V.normSq) →
    (eucGrad Q G (DMat.ofMat Y)).normSq ≤ M →
    p.gradnormTol ≤ PArr.norm (DMat.ofMat (o.proj r d n Y ((eucGrad Q G (DMat.ofMat Y)).toMat _ _))) →
    objective Q G (DMat.ofMat (o.rtr r d n Q G p 0 p.RTRInitialRadius (5 * p.RTRInitialRadius) Y).X) +
        c * (DMat.ofMat (o.proj r d n Y ((eucGrad Q G (DMat.ofMat Y)).toMat _ _))).normSq ≤
      objective Q G (DMat.ofMat Y)

/-- `L` bounds the curvature of the cost of the team in the poses of robot `i`. -/
def SmoothFor (r d n : Nat) (E : List (Meas ℝ)) (i : Nat) (L : ℝ) : Prop :=
  ∀ V : DMat ℝ, V.rows = r → V.cols = (d + 1) * n → 2 * teamCost r d E (only i V) ≤ L * V.normSq

/-- Event number `k` of the schedule is a robot optimising where the projected gradient of the cost of the team
with respect to its own poses has norm at least `ε`. -/
def Steep (o : AgentOracles) (p : AgentParams) (E : List (Meas ℝ)) (π : PoseProj) (ε : ℝ) (s : Net)
    (ops : List NetOp) (k : Nat) : Prop :=
  ∃ i t Gr, ops[k]? = some (.iterate i true) ∧ netRun o s (ops.take k) = ok t ∧
    IsBlockGradient p.r p.d (s.agents i).graph.n E t.estimate i Gr ∧
    ε ≤ Real.sqrt (slopeSq π p.r p.d (s.agents i).graph.n (t.estimate i) Gr)

end

end Dpgo.Spec
