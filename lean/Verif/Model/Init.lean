import Verif.Model.DataMatrices
import Verif.Model.Poses
import Verif.Model.Projection

/-!
# Single-robot initialisation (`src/DPGO_utils.cpp:259-270, 346-462`, `src/DPGO_solver.cpp:220-303`)

`Eigen::SPQR` is an oracle: a function of the matrix and the right-hand side.  Indices and sizes are
natural numbers (a graph whose block indices exceed 64 bits does not fit in memory), except for
`meas.p1 + 1`, which wraps.
-/

namespace Dpgo

open Res Finset

section
variable {K : Type} [Field K]

/-- `get_dimension_and_num_poses` (DPGO_utils.cpp:259-270): dimension and number of poses. -/
def getDimensionAndNumPoses (ms : List (Meas K)) : Res (Nat × Nat) :=
  match ms with
  | [] => abort
  | m :: _ => do
    let dimension := m.t.rows * m.t.cols
    check (dimension == 2 || dimension == 3)
    ok (dimension, ms.foldl (fun n m => max (max n (u64 (m.p1 + 1))) (u64 (m.p2 + 1))) 0)

/-- Copy loop of `odometryInitialization` (DPGO_solver.cpp:283-286): pose `i`. -/
def copyPose (P : PArr K) (T : PArr K) (i : Nat) : Res (PArr K) := do
  let B ← P.poseAt i
  T.setPose i B

/-- Body of the chaining loop (DPGO_solver.cpp:292-300). -/
def odometryStep (odometry : List (Meas K)) (T : PArr K) (dst : Nat) : Res (PArr K) :=
  let src := dst - 1
  match odometry[src]? with
  | none => ub
  | some m => do
    check (m.p1 == src)
    check (m.p2 == dst)
    let Rsrc ← T.rotationAt src
    let tsrc ← T.translationAt src
    require (Rsrc.cols == m.R.rows && Rsrc.cols == m.t.rows)
    let T ← T.setRotation dst (Rsrc.mul m.R)
    require (m.t.cols == 1)
    T.setTranslation dst (tsrc.add (Rsrc.mul m.t))

/-- Part of `odometryInitialization` before the chaining loop (DPGO_solver.cpp:278-290): the array with
its first poses and `next_index`. -/
def odometryStart (dimension numPoses : Nat) (partialTraj : Option (PArr K)) :
    Res (PArr K × Nat) := do
  let T ← PArr.make dimension dimension numPoses
  match partialTraj with
  | some P =>
    if P.n > 0 then do
      check (P.d == dimension)
      let T ← Res.foldl (copyPose P) T (List.range (min P.n numPoses))
      ok (T, min P.n numPoses)
    else do
      let I ← PArr.identity dimension
      let T ← T.setPose 0 I.X
      ok (T, 1)
  | none => do
    let I ← PArr.identity dimension
    let T ← T.setPose 0 I.X
    ok (T, 1)

/-- `odometryInitialization` (DPGO_solver.cpp:271-303). -/
def odometryInitialization (odometry : List (Meas K)) (partialTraj : Option (PArr K)) :
    Res (PArr K) := do
  let (dimension, numPoses) ← getDimensionAndNumPoses odometry
  let (T, next) ← odometryStart dimension numPoses partialTraj
  Res.foldl (odometryStep odometry) T (List.range' next (numPoses - next))

end

noncomputable section

/-- Entries of `B1` for measurement `e` (DPGO_utils.cpp:371-382). -/
def b1Entries (d e : Nat) (m : Meas ℝ) : List (Nat × Nat × ℝ) :=
  (List.range d).flatMap fun l =>
    [(e * d + l, m.p1 * d + l, - Real.sqrt m.tau), (e * d + l, m.p2 * d + l, Real.sqrt m.tau)]

/-- Entries of `B2` for measurement `e` (DPGO_utils.cpp:398-405). -/
def b2Entries (d e : Nat) (m : Meas ℝ) : List (Nat × Nat × ℝ) :=
  (List.range d).flatMap fun k => (List.range d).map fun r =>
    (d * e + r, d * d * m.p1 + d * k + r, - Real.sqrt m.tau * m.t.v k 0)

/-- Entries of `B3` for measurement `e` (DPGO_utils.cpp:414-431). -/
def b3Entries (d e : Nat) (m : Meas ℝ) : List (Nat × Nat × ℝ) :=
  ((List.range d).flatMap fun r => (List.range d).flatMap fun c => (List.range d).map fun l =>
    (e * (d * d) + d * r + l, m.p1 * (d * d) + d * c + l, - Real.sqrt m.kappa * m.R.v c r)) ++
  ((List.range (d * d)).map fun l => (e * (d * d) + l, m.p2 * (d * d) + l, Real.sqrt m.kappa))

/-- The three sparse matrices of the chordal relaxation. -/
structure BMats where
  B1 : SpMat ℝ
  B2 : SpMat ℝ
  B3 : SpMat ℝ

open Classical in
/-- Body of `constructBMatrices` (DPGO_utils.cpp:356-432) for dimension `d` and `n` poses.  The root of a
negative precision is NaN. -/
def bMatricesOf (d n : Nat) (ms : List (Meas ℝ)) : Res BMats := do
  require (ms.all (measReadable d))
  if ∃ m ∈ ms, m.tau < 0 ∨ m.kappa < 0 then nonfinite
  else do
    let B1 ← SpMat.ofTriplets (d * ms.length) (d * n) (ms.zipIdx.flatMap fun p => b1Entries d p.2 p.1)
    let B2 ← SpMat.ofTriplets (d * ms.length) (d * d * n)
      (ms.zipIdx.flatMap fun p => b2Entries d p.2 p.1)
    let B3 ← SpMat.ofTriplets (d * d * ms.length) (d * d * n)
      (ms.zipIdx.flatMap fun p => b3Entries d p.2 p.1)
    ok ⟨B1, B2, B3⟩

/-- `constructBMatrices` (DPGO_utils.cpp:346-433). -/
def constructBMatrices (ms : List (Meas ℝ)) : Res BMats :=
  let d := match ms with
    | [] => 0
    | m :: _ => m.t.rows * m.t.cols
  bMatricesOf d (maxPoseIndex ms + 1) ms

/-- `QR.solve(b)` of `Eigen::SPQR` (DPGO_utils.cpp:449-450, DPGO_solver.cpp:246-247). -/
abbrev LsqOracle := (m k : Nat) → Matrix (Fin m) (Fin k) ℝ → (Fin m → ℝ) → (Fin k → ℝ)

/-- `B * x` for a sparse matrix and a vector (DPGO_utils.cpp:446, DPGO_solver.cpp:243). -/
def SpMat.mulVec (B : SpMat ℝ) (x : Nat → ℝ) (a : Nat) : ℝ := ∑ b ∈ range B.cols, B.coeff a b * x b

/-- `-QR.solve(c)` for the matrix of the right `k` columns of `B` (DPGO_utils.cpp:443, 449-450,
DPGO_solver.cpp:234, 246-247). -/
def solveRight (qr : LsqOracle) (B : SpMat ℝ) (k : Nat) (c : Nat → ℝ) : Nat → ℝ := fun a =>
  if h : a < k then
    - qr B.rows k (Matrix.of fun i j => B.coeff i (B.cols - k + j)) (fun i => c i) ⟨a, h⟩
  else 0

/-- `recoverTranslations` (DPGO_utils.cpp:435-462); a `d × (d n)` matrix is read column-wise. -/
def recoverTranslations (qr : LsqOracle) (B1 B2 : SpMat ℝ) (R : DMat ℝ) : Res (DMat ℝ) := do
  let d := R.rows
  require (decide (0 < d))
  let n := R.cols / d
  require (decide (0 < n))
  let rvec : Nat → ℝ := fun a => R.v (a % d) (a / d)
  require (decide (d * (n - 1) ≤ B1.cols))
  require (B2.cols == d * d * n && B2.rows == B1.rows)
  let c := B2.mulVec rvec
  let tred := solveRight qr B1 (d * (n - 1)) c
  ok ⟨d, n, fun r i => if i = 0 then 0 else tred ((i - 1) * d + r)⟩

/-- Projection loop of `chordalInitialization` (DPGO_solver.cpp:253-255). -/
def chordalProject (svd : SvdOracle) (d : Nat) (Rc : DMat ℝ) (i : Nat) : Res (DMat ℝ) := do
  require (Rc.inRange 0 (i * d) d d)
  let B ← projectToRotationGroup svd (Rc.block 0 (i * d) d d)
  ok (Rc.setBlock 0 (i * d) B)

/-- Assembly loop of `chordalInitialization` (DPGO_solver.cpp:264-267). -/
def chordalAssemble (d : Nat) (Rc tc : DMat ℝ) (T : DMat ℝ) (i : Nat) : DMat ℝ :=
  (T.setBlock 0 (i * (d + 1)) (Rc.block 0 (i * d) d d)).setBlock 0 (i * (d + 1) + d)
    (tc.block 0 i d 1)

/-- `chordalInitialization` (DPGO_solver.cpp:220-269).  `num_poses - 1` cannot wrap: the first `CHECK`
gives at least one pose unless an index is `2^64 - 1`, in which case the second one fails. -/
def chordalInitialization (svd : SvdOracle) (qr : LsqOracle) (ms : List (Meas ℝ)) :
    Res (PArr ℝ) := do
  let (d, n) ← getDimensionAndNumPoses ms
  let B ← constructBMatrices ms
  check (n == B.B3.cols / (d * d))
  let idVec : Nat → ℝ := fun a => if a < d * d ∧ a % d = a / d then 1 else 0
  -- cR = B3.leftCols(d2) * Id_vec
  let cR : Nat → ℝ := fun a => ∑ b ∈ range (d * d), B.B3.coeff a b * idVec b
  let rvec := solveRight qr B.B3 (d * d * (n - 1)) cR
  let Rc : DMat ℝ := ⟨d, d * n, fun r j =>
    if j < d then (if r = j then 1 else 0) else rvec ((j - d) * d + r)⟩
  let Rc ← Res.foldl (chordalProject svd d) Rc (List.range' 1 (n - 1))
  let tc ← recoverTranslations qr B.B1 B.B2 Rc
  check (tc.rows == d)
  check (tc.cols == n)
  let T := (List.range n).foldl (chordalAssemble d Rc tc) (DMat.zero d (n * (d + 1)))
  let out ← PArr.make d d n
  out.setData T

end

end Dpgo
