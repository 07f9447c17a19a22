import Verif.Spec.Agent

/-! # What the shared pose dictionaries should contain -/

namespace Dpgo.Spec

/-- `P` is a single lifted pose with the values of pose `i` of `B`. -/
def Copies (r d : Nat) (B : PArr ℝ) (i : Nat) (P : PArr ℝ) : Prop :=
  ArrOk r d 1 P ∧ rotM r d P 0 = rotM r d B i ∧ traV r d P 0 = traV r d B i

/-- The values of a lifted pose matrix are those of pose `i` of `B`. -/
def BlockOf (r d : Nat) (B : PArr ℝ) (i : Nat) (M : DMat ℝ) : Prop :=
  M.rows = r ∧ M.cols = d + 1 ∧ M.toMat r d = rotM r d B i ∧
    (fun c : Fin r => M.v c d) = traV r d B i

/-- `m` is a `std::map` with exactly one entry for each of the given ids, carrying the values of the
pose of that frame in `B`. -/
def DictOf (r d : Nat) (ids : PoseID → Prop) (B : PArr ℝ) (m : PoseDict ℝ) : Prop :=
  OMap.Sorted ltPoseID m ∧ (∀ k, (∃ P, (k, P) ∈ m) ↔ ids k) ∧
    ∀ k P, (k, P) ∈ m → Copies r d B k.frame P

/-- Own pose of some shared loop closure. -/
def IsPublic (ID : Nat) (g : PoseGraph ℝ) (k : PoseID) : Prop := ∃ m ∈ g.sharedLcs, ownPose ID m = k

/-- Own pose of some shared loop closure with robot `j`. -/
def NeededBy (ID j : Nat) (g : PoseGraph ℝ) (k : PoseID) : Prop :=
  ∃ m ∈ g.sharedLcs, (foreignPose ID m).robot = j ∧ ownPose ID m = k

end Dpgo.Spec
