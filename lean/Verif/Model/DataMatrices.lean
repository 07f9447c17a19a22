import Verif.Model.PoseGraph
import Mathlib.Algebra.Order.Field.Basic
import Mathlib.Logic.Function.Basic

/-!
# Data matrices of the quadratic problem

`constructOrientedConnectionIncidenceMatrixSE`, `constructConnectionLaplacianSE`
(`src/DPGO_utils.cpp`), `constructQ`, `constructG`, `constructPreconditioner` (`src/PoseGraph.cpp`)
and `QuadraticProblem` (`src/QuadraticProblem.cpp`).

Index arithmetic is kept exactly as in the code (flattened block indices), over the naturals: the
products `idx * (d+1)` are assumed not to exceed the range of `int`/`size_t` (a graph that large does
not fit in memory).
-/

namespace Dpgo

open Finset Res

/-- A sparse matrix as the list of its stored entries (duplicates are summed, as
`setFromTriplets` does). -/
structure SpMat (K : Type) where
  rows : Nat
  cols : Nat
  trips : List (Nat × Nat × K)

namespace SpMat
variable {K : Type} [Field K]

/-- Coefficient `(a, b)`: sum of the stored entries at that position. -/
def coeff (A : SpMat K) (a b : Nat) : K :=
  (A.trips.map fun t => if t.1 = a ∧ t.2.1 = b then t.2.2 else 0).sum

omit [Field K] in
/-- `A.insert(row, col) = val`: undefined when out of range or when the entry exists already
(Eigen documents insertion of an existing entry as an error; assertions are off in Release). -/
def insert (A : SpMat K) (t : Nat × Nat × K) : Res (SpMat K) :=
  if t.1 < A.rows ∧ t.2.1 < A.cols ∧ ¬ (t.1, t.2.1) ∈ A.trips.map (fun s => (s.1, s.2.1))
  then ok { A with trips := A.trips ++ [t] } else ub

omit [Field K] in
/-- `SparseMatrix(rows, cols); setFromTriplets(l)`: undefined when a triplet is out of range. -/
def ofTriplets (rows cols : Nat) (l : List (Nat × Nat × K)) : Res (SpMat K) :=
  if l.all (fun t => decide (t.1 < rows) && decide (t.2.1 < cols)) then ok ⟨rows, cols, l⟩ else ub

/-- Dense view. -/
def toDense (A : SpMat K) : DMat K := ⟨A.rows, A.cols, A.coeff⟩

end SpMat

variable {K : Type} [Field K]

/-- Largest pose index over a list of measurements
(loop of src/DPGO_utils.cpp:281-285). -/
def maxPoseIndex (ms : List (Meas K)) : Nat :=
  ms.foldl (fun n m =>
    let n := if n < m.p1 then m.p1 else n
    if n < m.p2 then m.p2 else n) 0

/-- Entries inserted for measurement `k` (src/DPGO_utils.cpp:303-324), in insertion order. -/
def incidenceEntries (d : Nat) (k : Nat) (m : Meas K) : List (Nat × Nat × K) :=
  let dh := d + 1
  let i := m.p1
  let j := m.p2
  -- rotation: A(i*dh + r, k*dh + c) = -R(r,c), column-wise
  ((List.range d).flatMap fun c => (List.range d).map fun r => (i * dh + r, k * dh + c, - m.R.v r c))
  -- translation: A(i*dh + r, k*dh + d) = -t(r)
  ++ ((List.range d).map fun r => (i * dh + r, k * dh + d, - m.t.v r 0))
  -- homogenisation
  ++ [(i * dh + d, k * dh + d, -1)]
  -- identity block of the second pose
  ++ ((List.range (d + 1)).map fun r => (j * dh + r, k * dh + r, 1))

/-- Writes to the diagonal for measurement `k` (src/DPGO_utils.cpp:327-329). -/
def omegaWrites (d : Nat) (k : Nat) (m : Meas K) : List (Nat × K) :=
  let dh := d + 1
  ((List.range d).map fun r => (k * dh + r, m.weight * m.kappa)) ++ [(k * dh + d, m.weight * m.tau)]

/-- Reading `R(r,c)`, `t(r)` for `r, c < d` is in range. -/
def measReadable (d : Nat) (m : Meas K) : Bool :=
  decide (d ≤ m.R.rows) && decide (d ≤ m.R.cols) && decide (d ≤ m.t.rows) && decide (1 ≤ m.t.cols)

/-- Result of `constructOrientedConnectionIncidenceMatrixSE`. -/
structure Incidence (K : Type) where
  A : SpMat K
  omega : Nat → K

/-- Loop over the measurements (src/DPGO_utils.cpp:302-330). -/
def incidenceLoop (d : Nat) : Nat → List (Meas K) → Incidence K → Res (Incidence K)
  | _, [], I => ok I
  | k, m :: l, I => do
    require (measReadable d m)
    let A ← Res.foldl SpMat.insert I.A (incidenceEntries d k m)
    let om := (omegaWrites d k m).foldl (fun f (w : Nat × K) => Function.update f w.1 w.2) I.omega
    incidenceLoop d (k + 1) l ⟨A, om⟩

/-- `constructOrientedConnectionIncidenceMatrixSE` (src/DPGO_utils.cpp:272-336). The dimension is
deduced from the first measurement, the number of poses from the largest index. -/
def incidence (ms : List (Meas K)) : Res (Incidence K) :=
  let d := match ms with
    | [] => 0
    | m :: _ => m.t.rows * m.t.cols
  let n := maxPoseIndex ms + 1
  incidenceLoop d 0 ms ⟨⟨(d + 1) * n, (d + 1) * ms.length, []⟩, fun _ => 0⟩

/-- `constructConnectionLaplacianSE` (src/DPGO_utils.cpp:338-344): `A * Omega * Aᵀ`. -/
def connectionLaplacian (ms : List (Meas K)) : Res (DMat K) := do
  let I ← incidence ms
  ok ⟨I.A.rows, I.A.rows, fun a b =>
    ∑ c ∈ range I.A.cols, I.A.coeff a c * I.omega c * I.A.coeff b c⟩

/-- `prior_kappa_` (src/PoseGraph.cpp:17). -/
def priorKappa : K := 10000
/-- `prior_tau_` (src/PoseGraph.cpp:18). -/
def priorTau : K := 100

/-- Homogeneous matrix of a measurement (src/PoseGraph.cpp:402-404, 503-505). The `R` and `t` blocks
have the right size because the `add*` functions test it. -/
def measT (d : Nat) (m : Meas K) : DMat K :=
  let T : DMat K := DMat.zero (d + 1) (d + 1)
  let T := T.setBlock 0 0 (m.R.block 0 0 d d)
  let T := T.setBlock 0 d (m.t.block 0 0 d 1)
  T.setBlock d d (DMat.one 1 1)

/-- Diagonal weight matrix (src/PoseGraph.cpp:407-410, 508-511 with `wk = weight*kappa`,
`wt = weight*tau`; 464-467, 569-572 for priors). -/
def omegaMat (d : Nat) (wk wt : K) : DMat K :=
  ⟨d + 1, d + 1, fun i j => if i = j then (if i < d then wk else wt) else 0⟩

/-- `A.block(0, idx*(d+1), B.rows, d+1) += B` with the range test. -/
def addColBlock (d idx : Nat) (A B : DMat K) : Res (DMat K) := do
  require (A.inRange 0 (idx * (d + 1)) B.rows B.cols)
  ok (A.addBlock 0 (idx * (d + 1)) B)

namespace PoseGraph

/-- What the loops of `constructQ`/`constructG` decide about a shared loop closure. -/
inductive Use (K : Type) where
  /-- outgoing edge, own pose index, neighbour pose -/
  | out (idx : Nat) (X : PArr K)
  /-- incoming edge, own pose index, neighbour pose -/
  | inc (idx : Nat) (X : PArr K)
  /-- `continue` -/
  | skip
  /-- `return false` -/
  | missing

/-- The case distinction of src/PoseGraph.cpp:412-456 (and 513-560): which own pose a shared loop
closure constrains, and whether the neighbour pose is available. -/
def classify (g : PoseGraph K) (m : Meas K) : Res (Use K) :=
  if m.r1 == g.id then do
    check (m.r2 != g.id)
    let pose := OMap.find? ltPoseID (PoseID.make m.r2 m.p2) g.neighborPoses
    let active ← g.isNeighborActive (u32 m.r2)
    match active, pose with
    | true, none => ok .missing
    | true, some X => ok (.out m.p1 X)
    | false, none => ok .skip
    | false, some X => if g.useInactive then ok (.out m.p1 X) else ok .skip
  else do
    check (m.r2 == g.id)
    let pose := OMap.find? ltPoseID (PoseID.make m.r1 m.p1) g.neighborPoses
    let active ← g.isNeighborActive (u32 m.r1)
    match active, pose with
    | true, none => ok .missing
    | true, some X => ok (.inc m.p2 X)
    | false, none => ok .skip
    | false, some X => if g.useInactive then ok (.inc m.p2 X) else ok .skip

/-- Loop over shared loop closures in `constructQ` (src/PoseGraph.cpp:400-459);
`none` is `return false`. -/
def qShared (g : PoseGraph K) : List (Meas K) → DMat K → Res (Option (DMat K))
  | [], D => ok (some D)
  | m :: l, D => do
    let T := measT g.d m
    let Om := omegaMat g.d (m.weight * m.kappa) (m.weight * m.tau)
    match ← g.classify m with
    | .missing => ok none
    | .skip => qShared g l D
    | .out idx _ => do
      let D ← addColBlock g.d idx D ((T.mul Om).mul T.tr)
      qShared g l D
    | .inc idx _ => do
      let D ← addColBlock g.d idx D Om
      qShared g l D

/-- Loop over priors in `constructQ` (src/PoseGraph.cpp:462-469). -/
def qPriors (d : Nat) : OMap Nat (PArr K) → DMat K → Res (DMat K)
  | [], D => ok D
  | (idx, _) :: l, D => do
    let D ← addColBlock d idx D (omegaMat d priorKappa priorTau)
    qPriors d l D

/-- Triplets of the block-diagonal matrix (src/PoseGraph.cpp:474-483). -/
def diagTriplets (d n : Nat) (D : DMat K) : List (Nat × Nat × K) :=
  (List.range n).flatMap fun idx =>
    (List.range (d + 1)).flatMap fun r =>
      (List.range (d + 1)).map fun c =>
        (idx * (d + 1) + r, idx * (d + 1) + c, D.v r (idx * (d + 1) + c))

/-- `constructQ` (src/PoseGraph.cpp:381-491); `none` means it returned false. -/
def constructQ (g : PoseGraph K) : Res (Option (DMat K)) := do
  let QLocal ← connectionLaplacian g.localMeasurements
  match ← g.qShared g.sharedLcs (DMat.zero (g.d + 1) ((g.d + 1) * g.n)) with
  | none => ok none
  | some D => do
    let D ← qPriors g.d g.priors D
    let QDiag ← SpMat.ofTriplets QLocal.rows QLocal.cols (diagTriplets g.d g.n D)
    ok (some (QLocal.add QDiag.toDense))

/-- The stored neighbour pose has the size `r × (d+1)` the products need
(`setNeighborPoses` does not test it; a mismatch is UB in the products). -/
def nbrDims (g : PoseGraph K) (X : PArr K) : Bool := X.X.rows == g.r && X.X.cols == g.d + 1

/-- Loop over shared loop closures in `constructG` (src/PoseGraph.cpp:501-564). -/
def gShared (g : PoseGraph K) : List (Meas K) → DMat K → Res (Option (DMat K))
  | [], D => ok (some D)
  | m :: l, D => do
    let T := measT g.d m
    let Om := omegaMat g.d (m.weight * m.kappa) (m.weight * m.tau)
    match ← g.classify m with
    | .missing => ok none
    | .skip => gShared g l D
    | .out idx X => do
      require (g.nbrDims X)
      -- L = -Xj * Omega * Tᵀ
      let D ← addColBlock g.d idx D ((X.X.neg.mul Om).mul T.tr)
      gShared g l D
    | .inc idx X => do
      require (g.nbrDims X)
      -- L = -Xi * T * Omega
      let D ← addColBlock g.d idx D ((X.X.neg.mul T).mul Om)
      gShared g l D

/-- Loop over priors in `constructG` (src/PoseGraph.cpp:566-575). -/
def gPriors (g : PoseGraph K) : OMap Nat (PArr K) → DMat K → Res (DMat K)
  | [], D => ok D
  | (idx, P) :: l, D => do
    require (g.nbrDims P)
    let D ← addColBlock g.d idx D (P.X.neg.mul (omegaMat g.d priorKappa priorTau))
    gPriors g l D

/-- `constructG` (src/PoseGraph.cpp:493-580). -/
def constructG (g : PoseGraph K) : Res (Option (DMat K)) := do
  match ← g.gShared g.sharedLcs (DMat.zero g.r ((g.d + 1) * g.n)) with
  | none => ok none
  | some D => do
    let D ← g.gPriors g.priors D
    ok (some D)

/-- First half of `constructDataMatrices` (src/PoseGraph.cpp:369-370):
`Q_.has_value() || constructQ()`. -/
def ensureQ (g : PoseGraph K) : Res (Bool × PoseGraph K) :=
  match g.Q with
  | some _ => ok (true, g)
  | none => do
    match ← g.constructQ with
    | none => ok (false, g)
    | some Q => ok (true, { g with Q := some Q })

/-- Second half of `constructDataMatrices` (src/PoseGraph.cpp:371-372):
`G_.has_value() || constructG()`. -/
def ensureG (g : PoseGraph K) : Res (Bool × PoseGraph K) :=
  match g.G with
  | some _ => ok (true, g)
  | none => do
    match ← g.constructG with
    | none => ok (false, g)
    | some G => ok (true, { g with G := some G })

/-- `constructDataMatrices` (src/PoseGraph.cpp:368-374). -/
def constructDataMatrices (g : PoseGraph K) : Res (Bool × PoseGraph K) := do
  let (okQ, g) ← g.ensureQ
  if okQ then g.ensureG else ok (false, g)

/-- `quadraticMatrix` (src/PoseGraph.cpp:345-350). -/
def quadraticMatrix (g : PoseGraph K) : Res (DMat K × PoseGraph K) :=
  match g.Q with
  | some Q => ok (Q, g)
  | none => do
    match ← g.constructQ with
    | none => abort
    | some Q => ok (Q, { g with Q := some Q })

/-- `linearMatrix` (src/PoseGraph.cpp:357-362). -/
def linearMatrix (g : PoseGraph K) : Res (DMat K × PoseGraph K) :=
  match g.G with
  | some G => ok (G, g)
  | none => do
    match ← g.constructG with
    | none => abort
    | some G => ok (G, { g with G := some G })

/-- Matrix factorised by `constructPreconditioner` (src/PoseGraph.cpp:601-604): `Q + 0.1 I`. -/
def precondMatrix (Q : DMat K) : DMat K :=
  ⟨Q.rows, Q.cols, fun i j => if i = j then Q.v i j + 1 / 10 else Q.v i j⟩

/-- `hasPreconditioner` / `constructPreconditioner` (src/PoseGraph.cpp:582-613); `chol` is the
outcome of the Cholesky factorisation on the given matrix (external). -/
def hasPreconditioner (g : PoseGraph K) (chol : DMat K → Bool) : Res (Bool × PoseGraph K) :=
  match g.precon with
  | some _ => ok (true, g)
  | none => do
    let (Q, g) ← g.quadraticMatrix
    let P := precondMatrix Q
    if chol P then ok (true, { g with precon := some P }) else ok (false, g)

end PoseGraph

/-- `QuadraticProblem::f(const Matrix&)` (src/QuadraticProblem.cpp:29-35); the size of `Q` is not
tested by the code, a mismatch is UB in the product. Evaluation order of the two operands is
irrelevant (each may fill a cache). -/
def problemF (g : PoseGraph K) (Y : DMat K) : Res (K × PoseGraph K) := do
  check (Y.rows == g.r)
  check (Y.cols == (g.d + 1) * g.n)
  let (Q, g) ← g.quadraticMatrix
  let (G, g) ← g.linearMatrix
  require (Q.rows == Y.cols && Q.cols == Y.cols && G.rows == Y.rows && G.cols == Y.cols)
  ok (1 / 2 * (Y.mul Q).dot Y + Y.dot G, g)

/-- `EucGrad` (src/QuadraticProblem.cpp:43-47) for given data matrices: `X Q + G`. -/
def eucGrad (Q G X : DMat K) : DMat K := (X.mul Q).add G

/-- `EucHessianEta` (src/QuadraticProblem.cpp:49-54): `V Q`. -/
def eucHess (Q V : DMat K) : DMat K := V.mul Q

/-- Objective for given data matrices (src/QuadraticProblem.cpp:33-34). -/
def objective (Q G Y : DMat K) : K := 1 / 2 * (Y.mul Q).dot Y + Y.dot G

/-- `computeMeasurementError` (src/DPGO_utils.cpp:501-507). -/
def measurementError (m : Meas K) (R1 t1 R2 t2 : DMat K) : K :=
  m.kappa * ((R1.mul m.R).sub R2).normSq + m.tau * ((t2.sub t1).sub (R1.mul m.t)).normSq

end Dpgo
