import Verif.Basic.Mat
import Mathlib.Data.Real.Basic

/-!
# Projections onto the rotation group and the Stiefel manifold

`Eigen::JacobiSVD` is an oracle `SvdOracle`: a function of the matrix (the algorithm is deterministic).
What a theorem needs about it is an explicit hypothesis (`Spec.LawfulSvd`, or `Spec.IsSvd` for one matrix).
-/

namespace Dpgo

open Res Matrix

noncomputable section

/-- What `Eigen::JacobiSVD` stores for an `r × d` matrix with `d ≤ r` (`matrixU()`,
`singularValues()`, `matrixV()`), as used in DPGO_utils.cpp:464-486.  Thin and full factors coincide
in the square case, the only one in which the full ones are asked for. -/
structure SvdOut (r d : Nat) where
  U : Matrix (Fin r) (Fin d) ℝ
  s : Fin d → ℝ
  V : Matrix (Fin d) (Fin d) ℝ

/-- `JacobiSVD<Matrix> svd(M, ...)` (DPGO_utils.cpp:466, 484). -/
abbrev SvdOracle := (r d : Nat) → Matrix (Fin r) (Fin d) ℝ → SvdOut r d

/-- `Uprime.col(Uprime.cols() - 1) *= -1` (DPGO_utils.cpp:474-475). -/
def negLastCol {d : Nat} (U : Matrix (Fin d) (Fin d) ℝ) : Matrix (Fin d) (Fin d) ℝ :=
  Matrix.of fun i j => if (j : Nat) = d - 1 then U i j * (-1) else U i j

open Classical in
/-- `projectToRotationGroup` (DPGO_utils.cpp:464-478).  For a non-square matrix the final product has
mismatching sizes (undefined). -/
def projectToRotationGroup (svd : SvdOracle) (M : DMat ℝ) : Res (DMat ℝ) := do
  require (M.rows == M.cols)
  let o := svd M.rows M.rows (M.toMat M.rows M.rows)
  let detU := o.U.det
  let detV := o.V.det
  if detU * detV > 0 then ok (DMat.ofMat (o.U * o.Vᵀ))
  else ok (DMat.ofMat (negLastCol o.U * o.Vᵀ))

/-- `projectToStiefelManifold` (DPGO_utils.cpp:480-486). -/
def projectToStiefelManifold (svd : SvdOracle) (M : DMat ℝ) : Res (DMat ℝ) := do
  check (decide (M.rows ≥ M.cols))
  let o := svd M.rows M.cols (M.toMat M.rows M.cols)
  ok (DMat.ofMat (o.U * o.Vᵀ))

/-- Body of the loop of `LiftedSEManifold::project` (LiftedSEManifold.cpp:41-43). -/
def projectBlock (svd : SvdOracle) (r d : Nat) (X : DMat ℝ) (i : Nat) : Res (DMat ℝ) := do
  require (X.inRange 0 (i * (d + 1)) r d)
  let B ← projectToStiefelManifold svd (X.block 0 (i * (d + 1)) r d)
  require (B.rows == r && B.cols == d)
  ok (X.setBlock 0 (i * (d + 1)) B)

/-- `LiftedSEManifold::project` (LiftedSEManifold.cpp:34-45).  The loop is an OpenMP `parallel for`;
`order` is the order in which the iterations are executed (`List.range n` sequentially).  Finer
interleavings are in `ProjEvent` below. -/
def liftedProject (svd : SvdOracle) (r d n : Nat) (order : List Nat) (M : DMat ℝ) :
    Res (DMat ℝ) := do
  check (M.rows == r)
  check (M.cols == (d + 1) * n)
  Res.foldl (projectBlock svd r d) M order

/-- Memory events of the parallel loop (LiftedSEManifold.cpp:40-43): iteration `i` reads its block and
computes the projection into a private temporary, then stores the entries one by one. -/
inductive ProjEvent where
  /-- iteration `i` reads its block and computes the projection -/
  | load (i : Nat)
  /-- iteration `i` stores entry `(a, c)` of its result -/
  | store (i a c : Nat)
  deriving DecidableEq

/-- Shared matrix and private temporaries of the parallel loop (LiftedSEManifold.cpp:39-43). -/
structure ProjState where
  X : DMat ℝ
  tmp : Nat → Option (DMat ℝ)

/-- One event of the parallel loop (LiftedSEManifold.cpp:42); a store before the load cannot happen
in the program (`ub` here). -/
def projEvent (svd : SvdOracle) (r d : Nat) (s : ProjState) : ProjEvent → Res ProjState
  | .load i => do
    require (s.X.inRange 0 (i * (d + 1)) r d)
    let B ← projectToStiefelManifold svd (s.X.block 0 (i * (d + 1)) r d)
    ok { s with tmp := fun j => if j = i then some B else s.tmp j }
  | .store i a c =>
    match s.tmp i with
    | none => ub
    | some B => ok { s with X := ⟨s.X.rows, s.X.cols, fun x y =>
        if x = a ∧ y = i * (d + 1) + c then B.v a c else s.X.v x y⟩ }

end

end Dpgo
