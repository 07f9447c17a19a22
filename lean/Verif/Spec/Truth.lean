import Verif.Spec.Projection
import Verif.Spec.Poses
import Verif.Spec.Shared
import Verif.Spec.LocalInit

/-! # True poses of a team, exact measurements and exact trajectories -/

namespace Dpgo.Spec

open Matrix

/-- True poses of all robots, in one frame. -/
structure Truth (d : Nat) where
  R : Nat → Nat → Matrix (Fin d) (Fin d) ℝ
  t : Nat → Nat → Fin d → ℝ
  rigid : ∀ r i, IsRot (R r i)

namespace Truth
variable {d : Nat}

/-- The measurement is the true relative pose of its endpoints. -/
def Exact (w : Truth d) (m : Meas ℝ) : Prop :=
  m.R.toMat d d = (w.R m.r1 m.p1)ᵀ * w.R m.r2 m.p2 ∧
  colV d m.t = (w.R m.r1 m.p1)ᵀ *ᵥ (w.t m.r2 m.p2 - w.t m.r1 m.p1)

/-- The first `n` poses of `T` are the true poses of robot `id`, seen from a frame at `(S, s)`. -/
structure Local (w : Truth d) (id n : Nat) (S : Matrix (Fin d) (Fin d) ℝ) (s : Fin d → ℝ) (T : PArr ℝ) :
    Prop where
  rigid : IsRot S
  rot : ∀ i < n, w.R id i = S * rotM d d T i
  tra : ∀ i < n, w.t id i = S *ᵥ traV d d T i + s

/-- Pose `j` of `P` is the true pose `i` of robot `id`, embedded by `Y`. -/
def Lifted {r : Nat} (w : Truth d) (Y : Matrix (Fin r) (Fin d) ℝ) (id i : Nat) (P : PArr ℝ) (j : Nat) :
    Prop :=
  rotM r d P j = Y * w.R id i ∧ traV r d P j = Y *ᵥ w.t id i

/-- The dictionary holds true poses, embedded by `Y`. -/
def Dict {r : Nat} (w : Truth d) (Y : Matrix (Fin r) (Fin d) ℝ) (dict : PoseDict ℝ) : Prop :=
  ∀ kv ∈ dict, ArrOk r d 1 kv.2 ∧ w.Lifted Y kv.1.robot kv.1.frame kv.2 0

end Truth

/-- Number of shared loop closures of robot `ID` with robot `nid` whose neighbour pose is in the
dictionary. -/
def numUsable (ID nid : Nat) (g : PoseGraph ℝ) (dict : PoseDict ℝ) : Nat :=
  g.sharedLcs.countP fun m => (foreignPose ID m).robot == nid &&
    (OMap.find? ltPoseID (foreignPose ID m) dict).isSome

end Dpgo.Spec
