import Verif.Model.Projection
import Verif.Model.Robust

/-!
# Single and robust averaging (`src/DPGO_solver.cpp:23-218`)

Weight vectors (`Vector`) are lists.  `int n = (int) size()` is not truncated.  Samples of different
sizes make the Eigen expressions undefined.
-/

namespace Dpgo

open Res

noncomputable section

/-- `Vector v_ = dflt * Ones(n); if (v.rows() == n) v_ = v` (DPGO_solver.cpp:29-32, 48-51, 80-84,
146-154). -/
def weightsOr (dflt : ℝ) (n : Nat) (v : List ℝ) : List ℝ :=
  if v.length = n then v else List.replicate n dflt

/-- `a.cwiseProduct(b)` (DPGO_solver.cpp:104, 165-166, 189-190). -/
def cwise (a b : List ℝ) : List ℝ := List.zipWith (· * ·) a b

/-- Accumulation loops `s += w(i) * A[i]` (DPGO_solver.cpp:33-36, 52-55). -/
def weightedSum (rows cols : Nat) (l : List (ℝ × DMat ℝ)) : Res (DMat ℝ) :=
  Res.foldl (fun s p => do
    require (p.2.rows == s.rows && p.2.cols == s.cols)
    ok (s.add (p.2.smul p.1))) (DMat.zero rows cols) l

open Classical in
/-- `singleTranslationAveraging` (DPGO_solver.cpp:23-40). -/
def singleTranslationAveraging (tVec : List (DMat ℝ)) (tau : List ℝ) : Res (DMat ℝ) :=
  match tVec with
  | [] => abort
  | t0 :: _ => do
    let tau_ := weightsOr 1 tVec.length tau
    let s ← weightedSum t0.rows 1 (tau_.zip tVec)
    let w := tau_.sum
    if w = 0 then nonfinite else ok (s.smul (1 / w))

/-- `singleRotationAveraging` (DPGO_solver.cpp:42-57). -/
def singleRotationAveraging (svd : SvdOracle) (RVec : List (DMat ℝ)) (kappa : List ℝ) :
    Res (DMat ℝ) :=
  match RVec with
  | [] => abort
  | R0 :: _ => do
    let kappa_ := weightsOr 1 RVec.length kappa
    let M ← weightedSum R0.rows R0.rows (kappa_.zip RVec)
    projectToRotationGroup svd M

/-- `singlePoseAveraging` (DPGO_solver.cpp:59-70). -/
def singlePoseAveraging (svd : SvdOracle) (RVec tVec : List (DMat ℝ)) (kappa tau : List ℝ) :
    Res (DMat ℝ × DMat ℝ) :=
  match RVec, tVec with
  | R0 :: _, t0 :: _ => do
    check (RVec.length == tVec.length)
    check (R0.rows == t0.rows)
    let t ← singleTranslationAveraging tVec tau
    let R ← singleRotationAveraging svd RVec kappa
    ok (R, t)
  | _, _ => abort

/-- `checkRotationMatrix` (DPGO_utils.cpp:518-528): only the shape is enforced, the rest is a
warning. -/
def checkRotationMatrix (R : DMat ℝ) : Res Unit := check (R.cols == R.rows)

/-- Loop calling `checkRotationMatrix` (DPGO_solver.cpp:85-87, 155-157). -/
def checkRotations (RVec : List (DMat ℝ)) : Res Unit :=
  Res.foldl (fun _ R => checkRotationMatrix R) () RVec

/-- `w_tol` (DPGO_solver.cpp:77, 144). -/
def wTol : ℝ := 1 / 100000000

open Classical in
/-- `wi < w_tol || wi > 1 - w_tol` (DPGO_solver.cpp:110, 196). -/
def decided (w : ℝ) : Bool := decide (w < wTol ∨ w > 1 - wTol)

open Classical in
/-- `cost.weight(sqrt(rSq))` (DPGO_solver.cpp:109, 195); the root of a negative number is NaN. -/
def sqrtWeight (c : RobustCost) (rSq : ℝ) : Res ℝ :=
  if rSq < 0 then nonfinite else c.weight (Real.sqrt rSq)

/-- Weights of all residuals (DPGO_solver.cpp:107-114, 193-200). -/
def sqrtWeights (c : RobustCost) : List ℝ → Res (List ℝ)
  | [] => ok []
  | r :: l => do
    let w ← sqrtWeight c r
    let ws ← sqrtWeights c l
    ok (w :: ws)

/-- `rSqVec.maxCoeff()` (DPGO_solver.cpp:97, 174). -/
def maxCoeff : List ℝ → ℝ
  | [] => 0
  | a :: l => l.foldl max a

open Classical in
/-- `muInit` and the test `muInit > 0` (DPGO_solver.cpp:95-100, 172-177); `none` when the graduated
scheme is skipped.  A zero denominator gives `+inf`, hence `1e-5` after `std::min`; `0/0` is NaN, for
which the test is false. -/
def initMu (barc rMax : ℝ) : Option ℝ :=
  let barcSq := barc * barc
  let den := 2 * rMax - barcSq
  if den = 0 then (if barcSq = 0 then none else some (1 / 100000))
  else
    let mu := min (barcSq / den) (1 / 100000)
    if mu > 0 then some mu else none

/-- Outcome of the graduated loop: estimate, `weights_`, and the number of passes. -/
structure GncOut (E : Type) where
  est : E
  weights : List ℝ
  iters : Nat

/-- The graduated loop (DPGO_solver.cpp:107-124 and 184-209), which is the same text for rotations and
poses: `solve` is the averaging call with the current weights, `resid` the squared residuals of the
new estimate.  `fuel` is the number of passes left, `i` the value of `iter`. -/
def gncLoop {E : Type} (n : Nat) (solve : List ℝ → Res E) (resid : E → Res (List ℝ)) :
    Nat → Nat → RobustCost → E → List ℝ → Res (GncOut E)
  | 0, i, _, e, w => ok ⟨e, w, i⟩
  | fuel + 1, i, c, _, w => do
    let e ← solve w
    let rs ← resid e
    let w ← sqrtWeights c rs
    let nc := (w.filter decided).length
    if nc = n then ok ⟨e, w, i + 1⟩ else gncLoop n solve resid fuel (i + 1) c.update e w

open Classical in
/-- Inlier indices (DPGO_solver.cpp:128-134, 211-217). -/
def inliers (ws : List ℝ) : List Nat := (ws.zipIdx.filter fun p => p.1 > 1 - wTol).map (·.2)

/-- Parameters of the robust cost (DPGO_solver.cpp:101-105, 178-182): the others keep their
defaults. -/
def averagingParams (barc mu : ℝ) (maxIters : Nat) : RobustParams :=
  { RobustParams.default .GNC_TLS with GNCBarc := barc, GNCMaxNumIters := maxIters, GNCInitMu := mu }

/-- Common part of the two robust averaging functions (DPGO_solver.cpp:91-134 and 167-217): `e0` is
the initial estimate, all weights start at one. -/
def robustAverage {E : Type} (n maxIters : Nat) (barc : ℝ) (solve : List ℝ → Res E)
    (resid : E → Res (List ℝ)) (e0 : E) : Res (GncOut E) := do
  let rs ← resid e0
  match initMu barc (maxCoeff rs) with
  | none => ok ⟨e0, List.replicate n 1, 0⟩
  | some mu =>
    gncLoop n solve resid maxIters 0 (RobustCost.new (averagingParams barc mu maxIters)) e0
      (List.replicate n 1)

/-- Squared residuals of a rotation (DPGO_solver.cpp:91-93, 108). -/
def rotResiduals (R : DMat ℝ) : List (ℝ × DMat ℝ) → Res (List ℝ)
  | [] => ok []
  | p :: l => do
    require (R.rows == p.2.rows && R.cols == p.2.cols)
    let rs ← rotResiduals R l
    ok (p.1 * (R.sub p.2).normSq :: rs)

/-- Squared residuals of a pose (DPGO_solver.cpp:168-170, 194). -/
def poseResiduals (e : DMat ℝ × DMat ℝ) : List ((ℝ × DMat ℝ) × (ℝ × DMat ℝ)) → Res (List ℝ)
  | [] => ok []
  | p :: l => do
    require (e.1.rows == p.1.2.rows && e.1.cols == p.1.2.cols)
    require (e.2.rows == p.2.2.rows && e.2.cols == p.2.2.cols)
    let rs ← poseResiduals e l
    ok ((p.1.1 * (e.1.sub p.1.2).normSq + p.2.1 * (e.2.sub p.2.2).normSq) :: rs)

/-- `robustSingleRotationAveraging` (DPGO_solver.cpp:72-135). -/
def robustSingleRotationAveraging (svd : SvdOracle) (RVec : List (DMat ℝ)) (kappa : List ℝ)
    (errorThreshold : ℝ) : Res (DMat ℝ × List Nat) := do
  check (decide (RVec.length > 0))
  let kappa_ := weightsOr 1 RVec.length kappa
  checkRotations RVec
  let R0 ← singleRotationAveraging svd RVec kappa_
  let o ← robustAverage RVec.length 1000 errorThreshold
    (fun w => singleRotationAveraging svd RVec (cwise kappa_ w))
    (fun R => rotResiduals R (kappa_.zip RVec)) R0
  ok (o.est, inliers o.weights)

/-- `robustSinglePoseAveraging` (DPGO_solver.cpp:137-218). -/
def robustSinglePoseAveraging (svd : SvdOracle) (RVec tVec : List (DMat ℝ)) (kappa tau : List ℝ)
    (errorThreshold : ℝ) : Res ((DMat ℝ × DMat ℝ) × List Nat) := do
  check (decide (RVec.length > 0))
  check (tVec.length == RVec.length)
  let kappa_ := weightsOr 10000 RVec.length kappa
  let tau_ := weightsOr 100 RVec.length tau
  let ones := List.replicate RVec.length (1 : ℝ)
  checkRotations RVec
  let e0 ← singlePoseAveraging svd RVec tVec (cwise kappa_ ones) (cwise tau_ ones)
  let o ← robustAverage RVec.length 10000 errorThreshold
    (fun w => singlePoseAveraging svd RVec tVec (cwise kappa_ w) (cwise tau_ w))
    (fun e => poseResiduals e ((kappa_.zip RVec).zip (tau_.zip tVec))) e0
  ok (o.est, inliers o.weights)

end

end Dpgo
