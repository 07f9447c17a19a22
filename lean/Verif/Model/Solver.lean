import Verif.Model.Averaging
import Verif.Model.Init
import Verif.Model.Optimizer

/-!
# Single-robot solvers (`src/DPGO_solver.cpp:305-412`)
-/

namespace Dpgo

open Res

noncomputable section

/-- External code called by the solvers.  The optimiser's oracles depend on the number of the call. -/
structure SolverOracles where
  svd : SvdOracle
  qr : LsqOracle
  opt : Nat → OptOracles

/-- `solvePGO` (DPGO_solver.cpp:305-333); `k` numbers the calls of the optimiser.  The array built on
line 312 is overwritten and not modelled. -/
def solvePGO (o : SolverOracles) (k : Nat) (p : OptParams) (ms : List (Meas ℝ))
    (T0 : Option (PArr ℝ)) : Res (PArr ℝ) :=
  match ms with
  | [] => abort
  | m :: _ => do
    let (dimension, numPoses) ← getDimensionAndNumPoses ms
    let T ← match T0 with
      | some T => ok T
      | none => chordalInitialization o.svd o.qr ms
    check (T.d == dimension)
    check (T.n == numPoses)
    let g ← PoseGraph.new m.r1 dimension dimension
    let g ← g.setMeasurements ms
    let (X, _, _) ← optimize (o.opt k) p g T.X
    T.setData X

/-- `solveRobustPGOParams` (DPGO_solver.h:114-123) without `verbose`. -/
structure RobustPGOParams where
  opt : OptParams
  robust : RobustParams

/-- Residual of a measurement for an estimate (DPGO_solver.cpp:349-353, 381-385): `CHECK` failures
and sizes as in the accessors and products. -/
def pgoResidual (T : PArr ℝ) (m : Meas ℝ) : Res ℝ := do
  let R1 ← T.rotationAt m.p1
  let t1 ← T.translationAt m.p1
  let R2 ← T.rotationAt m.p2
  let t2 ← T.translationAt m.p2
  require (R1.cols == m.R.rows && R2.cols == m.R.cols && R1.cols == m.t.rows && m.t.cols == 1)
  ok (measurementError m R1 t1 R2 t2)

/-- Residuals of all measurements (DPGO_solver.cpp:346-354). -/
def pgoResiduals (T : PArr ℝ) : List (Meas ℝ) → Res (List ℝ)
  | [] => ok []
  | m :: l => do
    let r ← pgoResidual T m
    let rs ← pgoResiduals T l
    ok (r :: rs)

/-- Reweighting pass (DPGO_solver.cpp:378-388). -/
def pgoReweight (c : RobustCost) (T : PArr ℝ) : List (Meas ℝ) → Res (List (Meas ℝ))
  | [] => ok []
  | m :: l => do
    let m' ← if m.fixedWeight then ok m else do
      let r ← pgoResidual T m
      let w ← sqrtWeight c r
      ok { m with weight := w }
    let l' ← pgoReweight c T l
    ok (m' :: l')

/-- `num_undecided` (DPGO_solver.cpp:390-402). -/
def pgoUndecided (ms : List (Meas ℝ)) : Nat :=
  (ms.filter fun m => !m.fixedWeight && !decided m.weight).length

/-- The graduated loop (DPGO_solver.cpp:372-408); `fuel` is the number of passes left, `i` is `iter`.
The estimate of a pass is overwritten after the loop, so only the measurements are returned. -/
def pgoLoop (solve : Nat → List (Meas ℝ) → Res (PArr ℝ)) :
    Nat → Nat → RobustCost → List (Meas ℝ) → Res (List (Meas ℝ))
  | 0, _, _, ms => ok ms
  | fuel + 1, i, c, ms => do
    let T ← solve i ms
    let ms ← pgoReweight c T ms
    if pgoUndecided ms = 0 then ok ms else pgoLoop solve fuel (i + 1) c.update ms

/-- Value of `muInit` (DPGO_solver.cpp:359): a number, `+inf` (positive over zero) or NaN. -/
inductive PgoMu where
  | fin (mu : ℝ)
  | inf
  | nan

open Classical in
/-- `muInit` (DPGO_solver.cpp:357-359). -/
def pgoMuInit (barc rMax : ℝ) : PgoMu :=
  let barcSq := barc * barc
  let den := 2 * rMax - barcSq
  if den = 0 then (if barcSq = 0 then .nan else .inf) else .fin (barcSq / den)

open Classical in
/-- The part guarded by `muInit > 0` (DPGO_solver.cpp:361-409).  With `mu = +inf` the bounds of the
weight are NaN and so is the first weight that is computed, if any. -/
def pgoGraduate (solve : Nat → List (Meas ℝ) → Res (PArr ℝ)) (rp : RobustParams) (mu : PgoMu)
    (ms : List (Meas ℝ)) : Res (List (Meas ℝ)) :=
  match mu with
  | .nan => ok ms
  | .inf =>
    if rp.GNCMaxNumIters = 0 then ok ms
    else do
      let _ ← solve 0 ms
      if ms.all (·.fixedWeight) then ok ms else nonfinite
  | .fin mu =>
    if mu > 0 then
      pgoLoop solve rp.GNCMaxNumIters 0 (RobustCost.new { rp with GNCInitMu := mu }) ms
    else ok ms

/-- `solveRobustPGO` (DPGO_solver.cpp:335-412): the estimate and the measurements, which are modified
in place. -/
def solveRobustPGO (o : SolverOracles) (p : RobustPGOParams) (ms : List (Meas ℝ))
    (T0 : Option (PArr ℝ)) : Res (PArr ℝ × List (Meas ℝ)) := do
  let _ ← getDimensionAndNumPoses ms
  let T ← solvePGO o 0 p.opt ms T0
  let ms1 := ms.map fun m => { m with weight := 1 }
  let rs ← pgoResiduals T ms1
  check (p.robust.costType == .GNC_TLS)
  let ms2 ← pgoGraduate (fun i ms => solvePGO o (i + 1) p.opt ms T0) p.robust
    (pgoMuInit p.robust.GNCBarc (maxCoeff rs)) ms1
  let T ← solvePGO o (p.robust.GNCMaxNumIters + 1) p.opt ms2 T0
  ok (T, ms2)

end

end Dpgo
