import Verif.Model.LiftedVar
import Verif.Model.Optimizer

/-!
# The optimisation problem in memory (`src/QuadraticProblem.cpp`, `src/manifold/LiftedSEVector.cpp`)

`Model/Optimizer` treats points and vectors as matrices.  In the code they are elements of ROPTLIB, whose
numbers lie in buffers; here the same functions work on the buffers of `Model/LiftedVar`.

Simplified: as in `Model/LiftedVar` an element is one buffer that is not shared with other elements.
Functions of the ROPTLIB manifold (`Projection`, `Retraction`, `ScaleTimesVector`) read their arguments
before they write the result, so arguments and result may be one element, as the code relies on.  Products
of Eigen are evaluated before they are assigned (no `noalias()` is used).
-/

namespace Dpgo

open Res

noncomputable section

/-- `LiftedSEVector` (LiftedSEVector.h:20-55). -/
structure SEVec where
  r : Nat
  d : Nat
  n : Nat
  buf : Nat

namespace SEVec

/-- Constructor (LiftedSEVector.cpp:16-21).  ROPTLIB allocates on the first write; nothing is written. -/
def make (m : Mem) (r d n : Nat) : SEVec × Mem := (⟨r, d, n, m.next⟩, m.alloc (r * ((d + 1) * n)))

/-- `getData` (LiftedSEVector.cpp:31-39).  The sizes are asked of element `0`, which has to exist. -/
def getData (m : Mem) (v : SEVec) : Res (DMat ℝ) := do
  require (decide (0 < v.n))
  View.read m ⟨v.buf, 0, v.r, v.n * (v.d + 1)⟩

/-- `setData` (LiftedSEVector.cpp:41-54). -/
def setData (m : Mem) (v : SEVec) (Y : DMat ℝ) : Res Mem := do
  require (decide (0 < v.n))
  check (Y.rows == v.r)
  check (Y.cols == (v.d + 1) * v.n)
  View.write m ⟨v.buf, 0, v.r, (v.d + 1) * v.n⟩ Y

end SEVec

namespace PoseGraph

/-- `Eigen::Map` of the buffer of an element (QuadraticProblem.cpp:38, 44-45, 51-52, 59-62). -/
def elem (g : PoseGraph ℝ) (b : Nat) : View := ⟨b, 0, g.r, (g.d + 1) * g.n⟩

/-- `readElement` (QuadraticProblem.cpp:85-89). -/
def readElement (g : PoseGraph ℝ) (m : Mem) (b : Nat) : Res (DMat ℝ) := View.read m ⟨b, 0, g.r, g.n * (g.d + 1)⟩

/-- `setElement` (QuadraticProblem.cpp:91-95): copies as many numbers as the element has from the storage of
the matrix, whatever its shape. -/
def setElement (g : PoseGraph ℝ) (m : Mem) (b : Nat) (M : DMat ℝ) : Res Mem := do
  require ((g.elem b).valid m)
  require (decide (g.r * (g.d + 1) * g.n ≤ M.rows * M.cols))
  ok { m with cell := fun b' k =>
    if b' = b ∧ k < g.r * (g.d + 1) * g.n then Option.some (M.v (k % M.rows) (k / M.rows)) else m.cell b' k }

/-- The data matrices have the sizes that products with an element need. -/
def sizesOk (g : PoseGraph ℝ) (Q G : DMat ℝ) : Bool :=
  Q.rows == (g.d + 1) * g.n && Q.cols == (g.d + 1) * g.n && G.rows == g.r && G.cols == (g.d + 1) * g.n

/-- `f(ROPTLIB::Variable*)` (QuadraticProblem.cpp:37-41). -/
def fElem (g : PoseGraph ℝ) (m : Mem) (x : Nat) : Res (ℝ × PoseGraph ℝ) := do
  let (Q, g) ← g.quadraticMatrix
  let (G, g) ← g.linearMatrix
  let X ← (g.elem x).read m
  require (g.sizesOk Q G)
  ok (1 / 2 * (X.mul Q).dot X + X.dot G, g)

/-- `EucGrad` (QuadraticProblem.cpp:43-47). -/
def eucGradElem (g : PoseGraph ℝ) (m : Mem) (x e : Nat) : Res (PoseGraph ℝ × Mem) := do
  let (Q, g) ← g.quadraticMatrix
  let (G, g) ← g.linearMatrix
  let X ← (g.elem x).read m
  require (g.sizesOk Q G)
  let m ← (g.elem e).write m ((X.mul Q).add G)
  ok (g, m)

/-- `EucHessianEta` (QuadraticProblem.cpp:49-54); the point is not used. -/
def eucHessElem (g : PoseGraph ℝ) (m : Mem) (v h : Nat) : Res (PoseGraph ℝ × Mem) := do
  let (Q, g) ← g.quadraticMatrix
  let V ← (g.elem v).read m
  require (Q.rows == (g.d + 1) * g.n && Q.cols == (g.d + 1) * g.n)
  let m ← (g.elem h).write m (V.mul Q)
  ok (g, m)

/-- `Projection(x, v, out)` of the manifold (QuadraticProblem.cpp:68, 77, QuadraticOptimizer.cpp:125). -/
def projElem (o : OptOracles) (g : PoseGraph ℝ) (m : Mem) (x v out : Nat) : Res Mem := do
  let X ← (g.elem x).read m
  let V ← (g.elem v).read m
  (g.elem out).write m (DMat.ofMat (o.proj g.r g.d g.n (X.toMat _ _) (V.toMat _ _)))

/-- The branches of `PreConditioner` (QuadraticProblem.cpp:63-67). -/
def applyFactor (o : OptOracles) (g : PoseGraph ℝ) (has : Bool) (m : Mem) (i out : Nat) : Res Mem :=
  match has, g.precon with
  | true, some P => do
    let V ← (g.elem i).read m
    (g.elem out).write m (DMat.ofMat (o.cholSolve g.r g.d g.n P (V.toMat _ _)))
  | _, _ => ok m

/-- `PreConditioner` (QuadraticProblem.cpp:56-69).  Without a factorisation nothing is written before the
projection reads. -/
def preconElem (o : OptOracles) (g : PoseGraph ℝ) (m : Mem) (x i out : Nat) : Res (PoseGraph ℝ × Mem) := do
  let (has, g) ← g.hasPreconditioner o.chol
  let m ← g.applyFactor o has m i out
  let m ← g.projElem o m x out out
  ok (g, m)

/-- `RieGrad` (QuadraticProblem.cpp:71-79), with the destructors of the three local objects. -/
def rieGradElem (o : OptOracles) (g : PoseGraph ℝ) (m : Mem) (Y : DMat ℝ) :
    Res (DMat ℝ × PoseGraph ℝ × Mem) := do
  let (var, m) ← SEVar.make m g.r g.d g.n
  let m ← var.setData m Y
  let (eGrad, m) := SEVec.make m g.r g.d g.n
  let (rGrad, m) := SEVec.make m g.r g.d g.n
  let (g, m) ← g.eucGradElem m var.buf eGrad.buf
  let m ← g.projElem o m var.buf eGrad.buf rGrad.buf
  let M ← rGrad.getData m
  let m ← m.free rGrad.buf
  let m ← m.free eGrad.buf
  let m ← m.free var.buf
  ok (M, g, m)

/-- The preconditioning of `gradientDescent` (QuadraticOptimizer.cpp:127-130). -/
def preconStep (o : OptOracles) (p : OptParams) (g : PoseGraph ℝ) (m : Mem) (x v : Nat) :
    Res (PoseGraph ℝ × Mem) :=
  if p.RGDUsePreconditioner then g.preconElem o m x v v else ok (g, m)

/-- `ScaleTimesVector` and `Retraction` of the manifold (QuadraticOptimizer.cpp:133-134). -/
def moveElem (o : OptOracles) (g : PoseGraph ℝ) (c : ℝ) (m : Mem) (x v next : Nat) : Res Mem := do
  let V ← (g.elem v).read m
  let m ← (g.elem v).write m (DMat.ofMat (c • V.toMat g.r ((g.d + 1) * g.n)))
  let X ← (g.elem x).read m
  let V ← (g.elem v).read m
  (g.elem next).write m (DMat.ofMat (o.retr g.r g.d g.n (X.toMat _ _) (V.toMat _ _)))

/-- `gradientDescent` (QuadraticOptimizer.cpp:110-137), with the destructors of the local objects. -/
def descentElem (o : OptOracles) (p : OptParams) (g : PoseGraph ℝ) (m : Mem) (Yinit : DMat ℝ) :
    Res (DMat ℝ × PoseGraph ℝ × Mem) := do
  let (varInit, m) ← SEVar.make m g.r g.d g.n
  let (varNext, m) ← SEVar.make m g.r g.d g.n
  let (rGrad, m) := SEVec.make m g.r g.d g.n
  let m ← varInit.setData m Yinit
  let (g, m) ← g.eucGradElem m varInit.buf rGrad.buf
  let m ← g.projElem o m varInit.buf rGrad.buf rGrad.buf
  let (g, m) ← g.preconStep o p m varInit.buf rGrad.buf
  let m ← g.moveElem o (-p.RGDStepsize) m varInit.buf rGrad.buf varNext.buf
  let M ← varNext.getData m
  let m ← m.free rGrad.buf
  let m ← m.free varNext.buf
  let m ← m.free varInit.buf
  ok (M, g, m)

/-- `QuadraticOptimizer::optimize` (QuadraticOptimizer.cpp:26-48) with the gradient method. -/
def optimizeElem (o : OptOracles) (p : OptParams) (g : PoseGraph ℝ) (m : Mem) (Y : DMat ℝ) :
    Res (DMat ℝ × OptResult × PoseGraph ℝ × Mem) := do
  let (fInit, g) ← problemF g Y
  let (R, g, m) ← g.rieGradElem o m Y
  let (Z, g, m) ← g.descentElem o p m Y
  let (fOpt, g) ← problemF g Z
  let (R', g, m) ← g.rieGradElem o m Z
  ok (Z, ⟨true, fInit, PArr.norm R, fOpt, PArr.norm R'⟩, g, m)

end PoseGraph

end

end Dpgo
