import Verif.Model.Robust

/-!
# Robust weights with rounding (`src/DPGO_robust.cpp`)

The same functions as in `Model/Robust.lean`, with `rnd` after every arithmetic operation, in the order in
which C++ evaluates them. `fused` tells whether the compiler contracts `1 + r * r` to a fused multiply-add
(`CMakeLists.txt` compiles with `-march=native`).
-/

namespace Dpgo.RobustCost

open Res

/-- GNC_TLS branch of `weight` (DPGO_robust.cpp:80-93). -/
noncomputable def gncWeightR (rnd : ℝ → ℝ) (barc mu r : ℝ) : Res ℝ :=
  let rSq := rnd (r * r)
  let barcSq := rnd (barc * barc)
  if mu = 0 ∨ rnd (mu + 1) = 0 then nonfinite
  else
    let upperBound := rnd (rnd (rnd (mu + 1) / mu) * barcSq)
    let lowerBound := rnd (rnd (mu / rnd (mu + 1)) * barcSq)
    if rSq ≥ upperBound then ok 0
    else if rSq ≤ lowerBound then ok 1
    else
      let q := rnd (rnd (rnd (barcSq * mu) * rnd (mu + 1)) / rSq)
      if rSq = 0 ∨ q < 0 then nonfinite
      else ok (rnd (rnd (Real.sqrt q) - mu))

/-- GM branch of `weight` (DPGO_robust.cpp:76-79). -/
noncomputable def gmWeightR (rnd : ℝ → ℝ) (fused : Bool) (r : ℝ) : Res ℝ :=
  let a := if fused then rnd (1 + r * r) else rnd (1 + rnd (r * r))
  if rnd (a * a) = 0 then nonfinite else ok (rnd (1 / rnd (a * a)))

/-- `weight` (DPGO_robust.cpp:54-98). -/
noncomputable def weightR (rnd : ℝ → ℝ) (fused : Bool) (c : RobustCost) (r : ℝ) : Res ℝ :=
  match c.params.costType with
  | .L2 => ok 1
  | .L1 => if r = 0 then nonfinite else ok (rnd (1 / r))
  | .Huber =>
    if r < c.params.HuberThreshold then ok 1
    else if r = 0 then nonfinite else ok (rnd (c.params.HuberThreshold / r))
  | .TLS => if r < c.params.TLSThreshold then ok 1 else ok 0
  | .GM => gmWeightR rnd fused r
  | .GNC_TLS => gncWeightR rnd c.params.GNCBarc c.mu r

/-- `update` (DPGO_robust.cpp:116-134). -/
noncomputable def updateR (rnd : ℝ → ℝ) (c : RobustCost) : RobustCost :=
  if c.params.costType ≠ .GNC_TLS then c
  else
    let c := { c with iter := c.iter + 1 }
    if c.iter > c.params.GNCMaxNumIters then c
    else { c with mu := rnd (c.params.GNCMuStep * c.mu) }

/-- The sum in `computeMeasurementError` (DPGO_utils.cpp:506), where `rotSq` and `traSq` are the two computed
squared norms (lines 504-505). -/
def errorSumR (rnd : ℝ → ℝ) (fused : Bool) (kappa tau rotSq traSq : ℝ) : ℝ :=
  if fused then rnd (kappa * rotSq + rnd (tau * traSq)) else rnd (rnd (kappa * rotSq) + rnd (tau * traSq))

end Dpgo.RobustCost
