import Verif.Spec.Truth

/-! # Which frame a shared loop closure suggests -/

namespace Dpgo.Spec

open Matrix

/-- The shared loop closure `m` of robot `ID` holds exactly between the pose of the local trajectory `T`, moved by
`(S, s)`, and the pose `N` of the neighbour, projected by `Y`. -/
def Suggests {r d : Nat} (ID : Nat) (Y : Matrix (Fin r) (Fin d) ℝ) (T N : PArr ℝ) (m : Meas ℝ)
    (S : Matrix (Fin d) (Fin d) ℝ) (s : Fin d → ℝ) : Prop :=
  if m.r1 = ID then
    S * rotM d d T m.p1 * m.R.toMat d d = Yᵀ * rotM r d N 0 ∧
    S *ᵥ (rotM d d T m.p1 *ᵥ colV d m.t + traV d d T m.p1) + s = Yᵀ *ᵥ traV r d N 0
  else
    Yᵀ * rotM r d N 0 * m.R.toMat d d = S * rotM d d T m.p2 ∧
    (Yᵀ * rotM r d N 0) *ᵥ colV d m.t + Yᵀ *ᵥ traV r d N 0 = S *ᵥ traV d d T m.p2 + s

/-- A shared loop closure and the frame that it suggests. -/
structure Vote (d : Nat) where
  meas : Meas ℝ
  S : Matrix (Fin d) (Fin d) ℝ
  s : Fin d → ℝ

/-- The vote is what its loop closure suggests for the poses of robot `nid` in the dictionary. -/
def Vote.Holds {r d : Nat} (v : Vote d) (ID nid : Nat) (Y : Matrix (Fin r) (Fin d) ℝ) (T : PArr ℝ)
    (dict : PoseDict ℝ) : Prop :=
  (foreignPose ID v.meas).robot = nid ∧
  ∃ N, OMap.find? ltPoseID (foreignPose ID v.meas) dict = some N ∧ Suggests ID Y T N v.meas v.S v.s

/-- The rotations of the loop closures and of the trajectory can be inverted. -/
structure Regular (d : Nat) (g : PoseGraph ℝ) (T : PArr ℝ) : Prop where
  meas : ∀ m ∈ g.sharedLcs, (m.R.toMat d d).det ≠ 0
  traj : ∀ i < g.n, (rotM d d T i).det ≠ 0

end Dpgo.Spec
