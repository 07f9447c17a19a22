import Verif.Basic.Res
import Mathlib.Analysis.SpecialFunctions.Sqrt

/-!
# Robust cost functions (`include/DPGO/DPGO_robust.h`, `src/DPGO_robust.cpp`)

`double` is `ℝ`; a division by zero or the square root of a negative number (IEEE inf/NaN) is the
outcome `nonfinite`.
-/

namespace Dpgo

open Res

/-- `RobustCostParameters::Type` (DPGO_robust.h:24-31). -/
inductive CostType where
  | L2 | L1 | TLS | Huber | GM | GNC_TLS
  deriving DecidableEq, Repr

/-- `RobustCostParameters` (DPGO_robust.h:20-59). -/
structure RobustParams where
  costType : CostType
  GNCMaxNumIters : Nat
  GNCBarc : ℝ
  GNCMuStep : ℝ
  GNCInitMu : ℝ
  HuberThreshold : ℝ
  TLSThreshold : ℝ

/-- Default parameters (DPGO_robust.h:50-57). -/
noncomputable def RobustParams.default (t : CostType) : RobustParams :=
  ⟨t, 20, 5, 14 / 10, 1 / 10000, 3, 10⟩

/-- `RobustCost` (DPGO_robust.h:92-138). -/
structure RobustCost where
  params : RobustParams
  /-- `mGNCIteration` (DPGO_robust.h:134) -/
  iter : Nat
  /-- `mu` (DPGO_robust.h:135) -/
  mu : ℝ

namespace RobustCost

/-- `reset` (DPGO_robust.cpp:100-114). -/
def reset (c : RobustCost) : RobustCost :=
  match c.params.costType with
  | .GNC_TLS => { c with mu := c.params.GNCInitMu, iter := 0 }
  | _ => c

/-- Constructor (DPGO_robust.cpp:49-52). -/
def new (p : RobustParams) : RobustCost := reset ⟨p, 0, p.GNCInitMu⟩

/-- `update` (DPGO_robust.cpp:116-134). -/
noncomputable def update (c : RobustCost) : RobustCost :=
  if c.params.costType ≠ .GNC_TLS then c
  else
    let c := { c with iter := c.iter + 1 }
    if c.iter > c.params.GNCMaxNumIters then c
    else { c with mu := c.params.GNCMuStep * c.mu }

/-- GNC_TLS branch of `weight` (DPGO_robust.cpp:80-93). -/
noncomputable def gncWeight (barc mu r : ℝ) : Res ℝ :=
  let rSq := r * r
  let barcSq := barc * barc
  if mu = 0 ∨ mu + 1 = 0 then nonfinite
  else
    let upperBound := (mu + 1) / mu * barcSq
    let lowerBound := mu / (mu + 1) * barcSq
    if rSq ≥ upperBound then ok 0
    else if rSq ≤ lowerBound then ok 1
    else if rSq = 0 ∨ barcSq * mu * (mu + 1) / rSq < 0 then nonfinite
    else ok (Real.sqrt (barcSq * mu * (mu + 1) / rSq) - mu)

/-- `weight` (DPGO_robust.cpp:54-98). -/
noncomputable def weight (c : RobustCost) (r : ℝ) : Res ℝ :=
  match c.params.costType with
  | .L2 => ok 1
  | .L1 => if r = 0 then nonfinite else ok (1 / r)
  | .Huber =>
    if r < c.params.HuberThreshold then ok 1
    else if r = 0 then nonfinite else ok (c.params.HuberThreshold / r)
  | .TLS => if r < c.params.TLSThreshold then ok 1 else ok 0
  | .GM =>
    let a := 1 + r * r
    ok (1 / (a * a))
  | .GNC_TLS => gncWeight c.params.GNCBarc c.mu r

end RobustCost

/-- `computeErrorThresholdAtQuantile` (DPGO_robust.h:116-123); `chi2inv6` is the value of
`chi2inv(quantile, 6)` (boost, DPGO_utils.cpp:509-512), not modelled. -/
noncomputable def computeErrorThresholdAtQuantile (quantile : ℝ) (dimension : Nat) (chi2inv6 : ℝ) :
    Res ℝ := do
  check (dimension == 3)
  if 0 < quantile then
    if quantile < 1 then
      if chi2inv6 < 0 then nonfinite else ok (Real.sqrt chi2inv6)
    else ok 100000
  else abort

end Dpgo
