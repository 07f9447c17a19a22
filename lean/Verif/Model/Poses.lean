import Verif.Basic.Mat
import Verif.Model.PoseGraph
import Mathlib.Analysis.SpecialFunctions.Sqrt

/-!
# Pose arrays (`include/DPGO/manifold/Poses.h`, `src/manifold/Poses.cpp`)

Writing through the `Eigen::Ref` returned by the non-const accessors is modelled by the `set…`
functions.  A block outside the matrix, or an assignment between different sizes, is undefined (Eigen
assertions are off in Release).  Products `index * (d+1)` are not truncated to 32 bits.
-/

namespace Dpgo.PArr

open Res

section
variable {K : Type} [Field K]

/-- `setData` (Poses.cpp:29-33). -/
def setData (P : PArr K) (X : DMat K) : Res (PArr K) := do
  check (X.rows == P.r)
  check (X.cols == (P.d + 1) * P.n)
  ok { P with X := X }

/-- `pose(index) const` (Poses.cpp:46-49). -/
def poseAt (P : PArr K) (i : Nat) : Res (DMat K) := do
  check (decide (i < P.n))
  require (P.X.inRange 0 (i * (P.d + 1)) P.r (P.d + 1))
  ok (P.X.block 0 (i * (P.d + 1)) P.r (P.d + 1))

/-- `rotation(index) const` (Poses.cpp:57-61). -/
def rotationAt (P : PArr K) (i : Nat) : Res (DMat K) := do
  check (decide (i < P.n))
  require (P.X.inRange 0 (i * (P.d + 1)) P.r (P.d + 1))
  let Xi := P.X.block 0 (i * (P.d + 1)) P.r (P.d + 1)
  ok (Xi.block 0 0 P.r P.d)

/-- `translation(index) const` (Poses.cpp:69-73). -/
def translationAt (P : PArr K) (i : Nat) : Res (DMat K) := do
  check (decide (i < P.n))
  require (P.X.inRange 0 (i * (P.d + 1)) P.r (P.d + 1))
  let Xi := P.X.block 0 (i * (P.d + 1)) P.r (P.d + 1)
  ok (Xi.block 0 P.d P.r 1)

/-- `pose(index) = B` (Poses.cpp:41-44). -/
def setPose (P : PArr K) (i : Nat) (B : DMat K) : Res (PArr K) := do
  check (decide (i < P.n))
  require (P.X.inRange 0 (i * (P.d + 1)) P.r (P.d + 1))
  require (B.rows == P.r && B.cols == P.d + 1)
  ok { P with X := P.X.setBlock 0 (i * (P.d + 1)) B }

/-- `rotation(index) = B` (Poses.cpp:51-55). -/
def setRotation (P : PArr K) (i : Nat) (B : DMat K) : Res (PArr K) := do
  check (decide (i < P.n))
  require (P.X.inRange 0 (i * (P.d + 1)) P.r (P.d + 1))
  require (B.rows == P.r && B.cols == P.d)
  ok { P with X := P.X.setBlock 0 (i * (P.d + 1)) B }

/-- `translation(index) = b` (Poses.cpp:63-67). -/
def setTranslation (P : PArr K) (i : Nat) (b : DMat K) : Res (PArr K) := do
  check (decide (i < P.n))
  require (P.X.inRange 0 (i * (P.d + 1)) P.r (P.d + 1))
  require (b.rows == P.r && b.cols == 1)
  ok { P with X := P.X.setBlock 0 (i * (P.d + 1) + P.d) b }

/-- Body of the loop of the constructor (Poses.cpp:19-22). -/
def makeStep (r : Nat) (Yinit : DMat K) (P : PArr K) (i : Nat) : Res (PArr K) := do
  let P ← P.setRotation i Yinit
  P.setTranslation i (DMat.zero r 1)

/-- Constructor `LiftedPoseArray(r, d, n)` (Poses.cpp:14-23); `r < d` makes the identity block leave
the matrix. -/
def make (r d n : Nat) : Res (PArr K) := do
  let Y : DMat K := DMat.zero r d
  require (Y.inRange 0 0 d d)
  let Yinit := Y.setBlock 0 0 (DMat.one d d)
  Res.foldl (makeStep r Yinit) ⟨r, d, n, DMat.zero r ((d + 1) * n)⟩ (List.range n)

/-- `LiftedPose(const Matrix&)` (Poses.h:144-145); zero columns would wrap `cols() - 1`. -/
def ofLifted (X : DMat K) : Res (PArr K) := do
  require (decide (1 ≤ X.cols))
  let P ← make X.rows (X.cols - 1) 1
  P.setData X

/-- `Pose(const Matrix&)` (Poses.cpp:96-101). -/
def ofMatrix (T : DMat K) : Res (PArr K) := do
  let P ← make T.rows T.rows 1
  check (T.rows == P.d)
  check (T.cols == P.d + 1)
  P.setData T

/-- `Pose(unsigned)`, `Pose::Identity(d)` and `identity()` (Poses.h:171, Poses.cpp:103-109). -/
def identity (d : Nat) : Res (PArr K) := make d d 1

/-- `Pose::matrix()` (Poses.cpp:122-127). -/
def matrix (P : PArr K) : Res (DMat K) := do
  let T : DMat K := DMat.one (P.d + 1) (P.d + 1)
  let R ← P.rotationAt 0
  require (R.rows == P.d && R.cols == P.d)
  let T := T.setBlock 0 0 R
  let t ← P.translationAt 0
  ok (T.setBlock 0 P.d t)

/-- `Pose::operator*` (Poses.cpp:116-120). -/
def mul (A B : PArr K) : Res (PArr K) := do
  check (A.d == B.d)
  let MA ← A.matrix
  let MB ← B.matrix
  ofMatrix ((MA.mul MB).block 0 0 A.d (A.d + 1))

/-- `Pose::inverse()` (Poses.cpp:111-114). -/
noncomputable def inverse (A : PArr K) : Res (PArr K) := do
  let M ← A.matrix
  let V ← M.inverse
  ofMatrix (V.block 0 0 A.d (A.d + 1))

end

/-- Euclidean norm `norm()` of a vector or matrix. -/
noncomputable def norm (A : DMat ℝ) : ℝ := Real.sqrt A.normSq

/-- Distance term of the two loops below; arrays of different rank `r` are not rejected by the code
(undefined). -/
noncomputable def transDist (A B : PArr ℝ) (i : Nat) : Res ℝ := do
  let a ← A.translationAt i
  let b ← B.translationAt i
  require (a.rows == b.rows)
  ok (norm (a.sub b))

/-- `averageTranslationDistance` (Poses.cpp:75-84); dividing by `n = 0` gives NaN. -/
noncomputable def averageTranslationDistance (A B : PArr ℝ) : Res ℝ := do
  check (A.d == B.d)
  check (A.n == B.n)
  let s ← Res.foldl (fun (s : ℝ) i => do let x ← transDist A B i; ok (s + x)) 0 (List.range A.n)
  if A.n = 0 then nonfinite else ok (s / A.n)

/-- `maxTranslationDistance` (Poses.cpp:86-94). -/
noncomputable def maxTranslationDistance (A B : PArr ℝ) : Res ℝ := do
  check (A.d == B.d)
  check (A.n == B.n)
  Res.foldl (fun (s : ℝ) i => do let x ← transDist A B i; ok (max s x)) 0 (List.range A.n)

end Dpgo.PArr
