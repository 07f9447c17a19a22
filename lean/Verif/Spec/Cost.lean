import Verif.Model.DataMatrices

/-!
# Specification of the optimisation cost

Written directly as sums of squared residuals over rotation columns and translations; no data matrix
and no flattened measurement index occurs.  `X` is an `r × (d+1)n` estimate, pose `i` being its
columns `i*(d+1), …, i*(d+1)+d` (rotation block followed by translation), as documented in
include/DPGO/manifold/Poses.h:17-20.
-/

namespace Dpgo.Spec

open Finset

variable {K : Type} [Field K]

/-- Entry `(ρ, c)` of the rotation block of pose `i`. -/
def rot (d : Nat) (X : DMat K) (i ρ c : Nat) : K := X.v ρ (i * (d + 1) + c)

/-- Entry `ρ` of the translation of pose `i`. -/
def tra (d : Nat) (X : DMat K) (i ρ : Nat) : K := X.v ρ (i * (d + 1) + d)

/-- Squared rotation residual `‖R_j − R_i R‖²` of a measurement from pose `i` of `A` to pose `j` of
`B`. -/
def rotRes (r d : Nat) (m : Meas K) (A : DMat K) (i : Nat) (B : DMat K) (j : Nat) : K :=
  ∑ ρ ∈ range r, ∑ c ∈ range d, (rot d B j ρ c - ∑ s ∈ range d, rot d A i ρ s * m.R.v s c) ^ 2

/-- Squared translation residual `‖t_j − t_i − R_i t‖²`. -/
def traRes (r d : Nat) (m : Meas K) (A : DMat K) (i : Nat) (B : DMat K) (j : Nat) : K :=
  ∑ ρ ∈ range r, (tra d B j ρ - tra d A i ρ - ∑ s ∈ range d, rot d A i ρ s * m.t.v s 0) ^ 2

/-- Weighted squared residual of one measurement. -/
def edgeCost (r d : Nat) (m : Meas K) (A : DMat K) (i : Nat) (B : DMat K) (j : Nat) : K :=
  m.weight * (m.kappa * rotRes r d m A i B j + m.tau * traRes r d m A i B j)

/-- Weighted squared distance of pose `i` to a prior `P`, with the weights fixed in the code. -/
def priorCost (r d : Nat) (X : DMat K) (i : Nat) (P : DMat K) : K :=
  10000 * ∑ ρ ∈ range r, ∑ c ∈ range d, (rot d X i ρ c - rot d P 0 ρ c) ^ 2 +
    100 * ∑ ρ ∈ range r, (tra d X i ρ - tra d P 0 ρ) ^ 2

/-- The foreign pose of a shared measurement. -/
def foreignID (id : Nat) (m : Meas K) : PoseID :=
  if m.r1 = id then ⟨m.r2, m.p2⟩ else ⟨m.r1, m.p1⟩

/-- Delivered pose of the neighbour of a shared measurement, if the measurement is to be used: the
neighbour is active, or measurements with inactive neighbours are enabled. -/
def usedPose (g : PoseGraph K) (m : Meas K) : Option (PArr K) :=
  if g.useInactive = true ∨ g.isNeighborActive (foreignID g.id m).robot = Res.ok true
  then OMap.find? ltPoseID (foreignID g.id m) g.neighborPoses else none

/-- Cost of a shared measurement with the neighbour pose held fixed. -/
def sharedCost (g : PoseGraph K) (m : Meas K) (X : DMat K) : K :=
  match usedPose g m with
  | none => 0
  | some P => if m.r1 = g.id then edgeCost g.r g.d m X m.p1 P.X 0
    else edgeCost g.r g.d m P.X 0 X m.p2

/-- The cost a robot's pose graph stands for. -/
def graphCost (g : PoseGraph K) (X : DMat K) : K :=
  1 / 2 * ((g.localMeasurements.map fun m => edgeCost g.r g.d m X m.p1 X m.p2).sum +
    (g.sharedLcs.map fun m => sharedCost g m X).sum +
    (g.priors.map fun p => priorCost g.r g.d X p.1 p.2.X).sum)

/-- The zero estimate. -/
def zeroEst (g : PoseGraph K) : DMat K := DMat.zero g.r ((g.d + 1) * g.n)

end Dpgo.Spec
