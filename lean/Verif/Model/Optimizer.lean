import Verif.Model.DataMatrices
import Verif.Model.Poses

/-!
# The Riemannian optimiser (`src/QuadraticOptimizer.cpp`, `src/QuadraticProblem.cpp`)

ROPTLIB and Cholmod are oracles.  Every run of the trust-region solver may return something different
(it has a wall-clock limit), so its oracle also takes the number of the run.  `gradientDescentLS`
(QuadraticOptimizer.cpp:139-161) is never called and not modelled.
-/

namespace Dpgo

open Res

noncomputable section

/-- Data of a `LiftedSEVariable(r, d, n)` (LiftedSEVariable.cpp:15-28): an `r × (d+1)n` matrix. -/
abbrev LVar (r d n : Nat) := Matrix (Fin r) (Fin ((d + 1) * n)) ℝ

/-- `ROptParameters::ROptMethod` (DPGO_types.h:47-52). -/
inductive OptMethod where
  | RTR | RGD
  deriving DecidableEq, Repr

/-- `ROptParameters` (DPGO_types.h:44-86) without `verbose`. -/
structure OptParams where
  method : OptMethod
  gradnormTol : ℝ
  RGDStepsize : ℝ
  RGDUsePreconditioner : Bool
  RTRIterations : Int
  RTRtCGIterations : Int
  RTRInitialRadius : ℝ

/-- Defaults (DPGO_types.h:53-61). -/
def OptParams.default : OptParams := ⟨.RTR, 1 / 100, 1 / 1000, true, 3, 50, 100⟩

/-- `ROPTResult` (DPGO_types.h:91-107) without `elapsedMs` and `tCGStatus`. -/
structure OptResult where
  success : Bool
  fInit : ℝ
  gradNormInit : ℝ
  fOpt : ℝ
  gradNormOpt : ℝ

/-- Outcome of one `Solver.Run()`: `latestStepAccepted()` and `GetXopt()`. -/
structure RtrOut (r d n : Nat) where
  accepted : Bool
  X : LVar r d n

/-- External code called by the optimiser. -/
structure OptOracles where
  /-- `Projection` of the product manifold (LiftedSEManifold.cpp:17-25) -/
  proj : (r d n : Nat) → LVar r d n → LVar r d n → LVar r d n
  /-- `Retraction` of the product manifold -/
  retr : (r d n : Nat) → LVar r d n → LVar r d n → LVar r d n
  /-- does Cholmod factorise the matrix (PoseGraph.cpp:605-612) -/
  chol : DMat ℝ → Bool
  /-- `preconditioner()->solve(Vᵀ)ᵀ` (QuadraticProblem.cpp:64) -/
  cholSolve : (r d n : Nat) → DMat ℝ → LVar r d n → LVar r d n
  /-- run number `k` of `RTRNewton` (QuadraticOptimizer.cpp:65-103) on the problem with data `Q`, `G`,
  `initial_Delta`, `maximum_Delta`, from the given start -/
  rtr : (r d n : Nat) → (Q G : DMat ℝ) → OptParams → Nat → ℝ → ℝ → LVar r d n → RtrOut r d n

/-- `RieGrad` (QuadraticProblem.cpp:71-79) for given data matrices. -/
def rieGrad (o : OptOracles) (g : PoseGraph ℝ) (Q G Y : DMat ℝ) : LVar g.r g.d g.n :=
  o.proj g.r g.d g.n (Y.toMat _ _) ((eucGrad Q G Y).toMat _ _)

/-- `RieGradNorm` (QuadraticProblem.cpp:81-83) for given data matrices. -/
def rieGradNorm (o : OptOracles) (g : PoseGraph ℝ) (Q G Y : DMat ℝ) : ℝ :=
  PArr.norm (DMat.ofMat (rieGrad o g Q G Y))

/-- Outcome of the retry loop: the returned point and the radii tried, in order. -/
structure RetryOut where
  Y : DMat ℝ
  radii : List ℝ

/-- Retry loop of `trustRegion` (QuadraticOptimizer.cpp:82-98) with `radius` and `total_steps` as on
entry of an iteration; `run k Δ` is run number `k` with radius `Δ`. -/
def retryLoop {r d n : Nat} (run : Nat → ℝ → RtrOut r d n) (Yinit : DMat ℝ) (radius : ℝ)
    (totalSteps : Nat) : RetryOut :=
  let out := run totalSteps radius
  if out.accepted then ⟨DMat.ofMat out.X, [radius]⟩
  else if h : totalSteps > 10 then ⟨Yinit, [radius]⟩
  else
    let rest := retryLoop run Yinit (radius / 4) (totalSteps + 1)
    ⟨rest.Y, radius :: rest.radii⟩
termination_by 12 - totalSteps

open Classical in
/-- `trustRegion` (QuadraticOptimizer.cpp:50-108) for given data matrices; the sizes of `Yinit` have
been checked by `f`. -/
def trustRegion (o : OptOracles) (p : OptParams) (g : PoseGraph ℝ) (Q G Yinit : DMat ℝ) : DMat ℝ :=
  if rieGradNorm o g Q G Yinit < p.gradnormTol then Yinit
  else if p.RTRIterations = 1 then
    (retryLoop (fun k Δ => o.rtr g.r g.d g.n Q G p k Δ Δ (Yinit.toMat _ _)) Yinit
      p.RTRInitialRadius 0).Y
  else
    DMat.ofMat (o.rtr g.r g.d g.n Q G p 0 p.RTRInitialRadius (5 * p.RTRInitialRadius)
      (Yinit.toMat _ _)).X

/-- `PreConditioner` (QuadraticProblem.cpp:56-69), in place; without a factorisation the vector is left
as it is. -/
def preConditioner (o : OptOracles) (g : PoseGraph ℝ) (Y V : LVar g.r g.d g.n) :
    Res (LVar g.r g.d g.n × PoseGraph ℝ) := do
  let (has, g') ← g.hasPreconditioner o.chol
  let V := match has, g'.precon with
    | true, some P => o.cholSolve g.r g.d g.n P V
    | _, _ => V
  ok (o.proj g.r g.d g.n Y V, g')

/-- `gradientDescent` (QuadraticOptimizer.cpp:110-137) for given data matrices. -/
def gradientDescent (o : OptOracles) (p : OptParams) (g : PoseGraph ℝ) (Q G Yinit : DMat ℝ) :
    Res (DMat ℝ × PoseGraph ℝ) := do
  let Y : LVar g.r g.d g.n := Yinit.toMat _ _
  let V := rieGrad o g Q G Yinit
  let (V, g') ← if p.RGDUsePreconditioner then preConditioner o g Y V else ok (V, g)
  ok (DMat.ofMat (o.retr g.r g.d g.n Y ((-p.RGDStepsize) • V)), g')

/-- Dispatch of `optimize` (QuadraticOptimizer.cpp:34-39). -/
def optimizeWith (o : OptOracles) (p : OptParams) (g : PoseGraph ℝ) (Q G Y : DMat ℝ) :
    Res (DMat ℝ × PoseGraph ℝ) :=
  match p.method with
  | .RTR => ok (trustRegion o p g Q G Y, g)
  | .RGD => gradientDescent o p g Q G Y

/-- `QuadraticOptimizer::optimize` (QuadraticOptimizer.cpp:26-48).  The first call of `f` fills the
caches of the graph; later evaluations read them. -/
def optimize (o : OptOracles) (p : OptParams) (g : PoseGraph ℝ) (Y : DMat ℝ) :
    Res (DMat ℝ × OptResult × PoseGraph ℝ) := do
  let (fInit, g) ← problemF g Y
  let (Q, g) ← g.quadraticMatrix
  let (G, g) ← g.linearMatrix
  let (YOpt, g) ← optimizeWith o p g Q G Y
  let (fOpt, g) ← problemF g YOpt
  ok (YOpt, ⟨true, fInit, rieGradNorm o g Q G Y, fOpt, rieGradNorm o g Q G YOpt⟩, g)

end

end Dpgo
