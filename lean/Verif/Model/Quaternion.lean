import Verif.Basic.DMat
import Mathlib.Analysis.Real.Sqrt

/-!
# Quaternions and rotation matrices

The conversions of `Eigen::Quaternion<double>` used by `src/PGOLogger.cpp:34, 68, 121-122, 192-193` and by
`src/DPGO_utils.cpp:215`.  Eigen is not in the repository; its formulas (`Eigen/src/Geometry/Quaternion.h`)
are modelled over the reals.
-/

namespace Dpgo

/-- `Eigen::Quaternion<double>` (src/PGOLogger.cpp:34): coefficients `x y z w`. -/
structure Quat where
  x : ℝ
  y : ℝ
  z : ℝ
  w : ℝ

namespace Quat

/-- `Eigen::Quaternion<double> quat(R)` when the trace is positive (src/PGOLogger.cpp:34, 68). -/
noncomputable def ofTrace (m : Nat → Nat → ℝ) : Quat :=
  let t := √(m 0 0 + m 1 1 + m 2 2 + 1)
  let s := 0.5 / t
  ⟨(m 2 1 - m 1 2) * s, (m 0 2 - m 2 0) * s, (m 1 0 - m 0 1) * s, 0.5 * t⟩

/-- `Eigen::Quaternion<double> quat(R)` from the diagonal entry `i` (src/PGOLogger.cpp:34, 68). -/
noncomputable def ofAxis (m : Nat → Nat → ℝ) (i : Nat) : Quat :=
  let j := (i + 1) % 3
  let k := (j + 1) % 3
  let t := √(m i i - m j j - m k k + 1)
  let s := 0.5 / t
  let c (a : Nat) : ℝ := if a = i then 0.5 * t else if a = j then (m j i + m i j) * s else (m k i + m i k) * s
  ⟨c 0, c 1, c 2, (m k j - m j k) * s⟩

open Classical in
/-- `Eigen::Quaternion<double> quat(R)` (src/PGOLogger.cpp:34, 68): from the trace if it is positive, else from
the largest diagonal entry. -/
noncomputable def ofMatrix (m : Nat → Nat → ℝ) : Quat :=
  if 0 < m 0 0 + m 1 1 + m 2 2 then ofTrace m
  else
    let i := if m 0 0 < m 1 1 then 1 else 0
    ofAxis m (if m i i < m 2 2 then 2 else i)

/-- `squaredNorm()`. -/
def normSq (q : Quat) : ℝ := q.x * q.x + q.y * q.y + q.z * q.z + q.w * q.w

open Classical in
/-- `quat.normalize()` (src/PGOLogger.cpp:122, 193): the zero quaternion stays. -/
noncomputable def normalize (q : Quat) : Quat :=
  if 0 < q.normSq then ⟨q.x / √q.normSq, q.y / √q.normSq, q.z / √q.normSq, q.w / √q.normSq⟩ else q

/-- `quat.toRotationMatrix()` (src/PGOLogger.cpp:134, 214, src/DPGO_utils.cpp:215). -/
def toRotation (q : Quat) : DMat ℝ where
  rows := 3
  cols := 3
  v i j :=
    match i, j with
    | 0, 0 => 1 - (2 * q.y * q.y + 2 * q.z * q.z)
    | 0, 1 => 2 * q.y * q.x - 2 * q.z * q.w
    | 0, 2 => 2 * q.z * q.x + 2 * q.y * q.w
    | 1, 0 => 2 * q.y * q.x + 2 * q.z * q.w
    | 1, 1 => 1 - (2 * q.x * q.x + 2 * q.z * q.z)
    | 1, 2 => 2 * q.z * q.y - 2 * q.x * q.w
    | 2, 0 => 2 * q.z * q.x - 2 * q.y * q.w
    | 2, 1 => 2 * q.z * q.y + 2 * q.x * q.w
    | 2, 2 => 1 - (2 * q.x * q.x + 2 * q.y * q.y)
    | _, _ => 0

end Quat
end Dpgo
