import Verif.Model.PoseGraph
import Verif.Basic.Mat
import Verif.Spec.Text
import Verif.Spec.Projection

/-!
# Specification of logged measurements and trajectories
-/

namespace Dpgo.Spec

open Dpgo

/-- A measurement in three dimensions. -/
structure Meas3 (m : Meas ℝ) : Prop where
  R_rows : m.R.rows = 3
  R_cols : m.R.cols = 3
  rot : IsRot (m.R.toMat 3 3)
  t_rows : m.t.rows = 3
  t_cols : m.t.cols = 1

/-- Robot and pose indices fit in an `int`. -/
structure SmallIds (m : Meas ℝ) : Prop where
  r1 : m.r1 < 2 ^ 31
  p1 : m.p1 < 2 ^ 31
  r2 : m.r2 < 2 ^ 31
  p2 : m.p2 < 2 ^ 31

/-- `m'` is `m` up to six digits in every number and `10⁻⁴` in every entry of the rotation; the weight
counts only when it is asked for. -/
structure Logged (withWeight : Bool) (m m' : Meas ℝ) : Prop where
  r1 : m'.r1 = m.r1
  p1 : m'.p1 = m.p1
  r2 : m'.r2 = m.r2
  p2 : m'.p2 = m.p2
  meas3 : Meas3 m'
  R : ∀ i < 3, ∀ j < 3, |m'.R.v i j - m.R.v i j| ≤ 1 / 10 ^ 4
  t : ∀ i < 3, Rounded6 (m.t.v i 0) (m'.t.v i 0)
  kappa : Rounded6 m.kappa m'.kappa
  tau : Rounded6 m.tau m'.tau
  fixedWeight : m'.fixedWeight = m.fixedWeight
  weight : if withWeight then Rounded6 m.weight m'.weight else m'.weight = 1

/-- The same measurement: endpoints, sizes, entries and scalars. -/
structure SameMeas (m m' : Meas ℝ) : Prop where
  r1 : m'.r1 = m.r1
  p1 : m'.p1 = m.p1
  r2 : m'.r2 = m.r2
  p2 : m'.p2 = m.p2
  R : m.R.Same m'.R
  t : m.t.Same m'.t
  kappa : m'.kappa = m.kappa
  tau : m'.tau = m.tau
  fixedWeight : m'.fixedWeight = m.fixedWeight
  weight : m'.weight = m.weight

/-- The rotation matrix of a quaternion. -/
def quatMatrix (x y z w : ℝ) : Matrix (Fin 3) (Fin 3) ℝ :=
  !![w ^ 2 + x ^ 2 - y ^ 2 - z ^ 2, 2 * (x * y - z * w), 2 * (x * z + y * w);
     2 * (x * y + z * w), w ^ 2 - x ^ 2 + y ^ 2 - z ^ 2, 2 * (y * z - x * w);
     2 * (x * z - y * w), 2 * (y * z + x * w), w ^ 2 - x ^ 2 - y ^ 2 + z ^ 2]

/-- The rotation is that of a unit quaternion with coefficients of six digits. -/
def SixDigitRot (R : Matrix (Fin 3) (Fin 3) ℝ) : Prop :=
  ∃ x y z w, SixDigits x ∧ SixDigits y ∧ SixDigits z ∧ SixDigits w ∧ x ^ 2 + y ^ 2 + z ^ 2 + w ^ 2 = 1 ∧
    R = quatMatrix x y z w

/-- All numbers of the measurement have six digits. -/
structure SixDigitMeas (m : Meas ℝ) : Prop where
  R : SixDigitRot (m.R.toMat 3 3)
  t : ∀ i < 3, SixDigits (m.t.v i 0)
  kappa : SixDigits m.kappa
  tau : SixDigits m.tau
  weight : SixDigits m.weight

/-- A trajectory of `n` poses in three dimensions. -/
structure Traj3 (n : Nat) (T : DMat ℝ) : Prop where
  rows : T.rows = 3
  cols : T.cols = 4 * n
  rot : ∀ i < n, IsRot ((T.block 0 (4 * i) 3 3).toMat 3 3)

/-- `T'` is the trajectory `T` up to six digits in every translation and `10⁻⁴` in every entry of the
rotations. -/
structure LoggedTraj (n : Nat) (T T' : DMat ℝ) : Prop where
  traj3 : Traj3 n T'
  R : ∀ i < n, ∀ a < 3, ∀ b < 3, |T'.v a (4 * i + b) - T.v a (4 * i + b)| ≤ 1 / 10 ^ 4
  t : ∀ i < n, ∀ a < 3, Rounded6 (T.v a (4 * i + 3)) (T'.v a (4 * i + 3))

end Dpgo.Spec
