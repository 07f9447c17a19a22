import Verif.Model.Poses
import Verif.Model.Averaging

/-!
# Warnings about matrices that are not orthonormal (`src/DPGO_utils.cpp:518-540`, `src/manifold/Poses.cpp:35-39`)

The functions only print; the model returns whether they print.  The arithmetic is exact and the threshold is the real
number `1e-5`.
-/

namespace Dpgo

open Res

/-- The threshold `1e-5` (DPGO_utils.cpp:523, 533). -/
noncomputable def orthoTol : ℝ := 1 / 100000

/-- `(R.transpose() * R - Matrix::Identity(d, d)).norm()` (DPGO_utils.cpp:522, 532). -/
noncomputable def orthoErr (Y : DMat ℝ) : ℝ := PArr.norm ((Y.tr.mul Y).sub (DMat.one Y.cols Y.cols))

open Classical in
/-- Whether `checkRotationMatrix` warns (DPGO_utils.cpp:518-528); a matrix that is not square stops the program. -/
noncomputable def rotationWarning (R : DMat ℝ) : Res Bool := do
  checkRotationMatrix R
  ok (decide (orthoTol < |R.det - 1| ∨ orthoTol < orthoErr R))

open Classical in
/-- Whether `checkStiefelMatrix` warns (DPGO_utils.cpp:530-538). -/
noncomputable def stiefelWarning (Y : DMat ℝ) : Bool := decide (orthoTol < orthoErr Y)

/-- The poses about which `LiftedPoseArray::checkData` warns, in order (Poses.cpp:35-39). -/
noncomputable def PArr.checkData (P : PArr ℝ) : Res (List Nat) :=
  Res.foldl (fun w i => do
    let Y ← P.rotationAt i
    ok (if stiefelWarning Y then w ++ [i] else w)) [] (List.range P.n)

end Dpgo
