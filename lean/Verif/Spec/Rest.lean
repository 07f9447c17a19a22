import Verif.Spec.Convergence

/-! # Robots that have converged -/

namespace Dpgo.Spec

noncomputable section

/-- The projected gradient of the cost of the team with respect to the `n` poses of robot `i` is below the
tolerance of the local solver. -/
def Settled (o : AgentOracles) (p : AgentParams) (E : List (Meas ℝ)) (X : Joint ℝ) (i n : Nat) : Prop :=
  ∀ c Gr, IsBlockGradient p.r p.d n E X i Gr →
    PArr.norm (DMat.ofMat ((o.opt c).proj p.r p.d n ((X i).toMat _ _) (Gr.toMat _ _))) < p.localOpt.gradnormTol

/-- Whatever the robot has stored about other robots is what they estimate. -/
def TrueStore (r d : Nat) (X : Joint ℝ) (a : Agent) : Prop :=
  ∀ q P, OMap.find? ltPoseID q a.neighborPoses = some P → carries r d X q P

/-- The projection of the zero direction is zero. -/
def KeepsZero (o : OptOracles) : Prop := ∀ (r d n : Nat) (Y : LVar r d n), o.proj r d n Y 0 = 0

end

end Dpgo.Spec
