import Verif.Spec.PoseGraph

/-!
# Specification of the split of one trajectory over several robots
-/

namespace Dpgo.Spec

variable {K : Type}

/-- `f` cuts the trajectory `0, …, n-1` into `N` consecutive stretches, one per robot: walking along
the trajectory one either stays on the robot and advances its index, or passes to index 0 of the next
robot. -/
structure Tiling (N n : Nat) (f : Nat → PoseID) : Prop where
  first : f 0 = ⟨0, 0⟩
  next : ∀ i, i + 1 < n →
    f (i + 1) = ⟨(f i).robot, (f i).frame + 1⟩ ∨ f (i + 1) = ⟨(f i).robot + 1, 0⟩
  last : (f (n - 1)).robot = N - 1

/-- The edge between the same two poses, named by robot and local index. -/
def relabel [One K] (f : Nat → PoseID) (m : Meas K) : Meas K where
  r1 := (f m.p1).robot
  r2 := (f m.p2).robot
  p1 := (f m.p1).frame
  p2 := (f m.p2).frame
  R := m.R
  t := m.t
  kappa := m.kappa
  tau := m.tau
  fixedWeight := false
  weight := 1

/-- Both ends of the edge are poses `0, …, n-1`. -/
def EndsBelow (n : Nat) (m : Meas K) : Prop := m.p1 < n ∧ m.p2 < n

end Dpgo.Spec
