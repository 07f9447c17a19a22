import Verif.Model.Poses

/-!
# Optimisation variables (`include/DPGO/manifold/LiftedSEVariable.h`, `src/manifold/LiftedSEVariable.cpp`)

A `LiftedSEVariable` does not hold its numbers: they lie in a buffer that belongs to a
`ROPTLIB::ProductElement`, and `X_` is a view of that buffer.  The model therefore has a memory of
buffers, whose cells may not have been written yet, and objects that own one buffer each.

Simplified: the four ROPTLIB elements of an object are one buffer, and `ObtainWriteEntireData` always
returns that buffer (it is never shared with another element); products of sizes are not truncated to
32 bits.  All blocks have the full height of the matrix and matrices are stored by columns, so every
`Eigen::Ref` is a contiguous range.
-/

namespace Dpgo

open Res

noncomputable section

/-- Memory: buffers of `double`; `none` is a cell not written since its allocation. -/
structure Mem where
  next : Nat
  live : Nat → Bool
  len : Nat → Nat
  cell : Nat → Nat → Option ℝ

namespace Mem

/-- Memory without buffers. -/
def empty : Mem := ⟨0, fun _ => false, fun _ => 0, fun _ _ => none⟩

/-- `ObtainWriteEntireData` of a new element (LiftedSEVariable.cpp:17-21, 44-50): `new double[n]`. -/
def alloc (m : Mem) (n : Nat) : Mem :=
  { next := m.next + 1
    live := fun b => if b = m.next then true else m.live b
    len := fun b => if b = m.next then n else m.len b
    cell := fun b => if b = m.next then fun _ => none else m.cell b }

/-- Destruction of an element. -/
def free (m : Mem) (b : Nat) : Res Mem := do
  require (m.live b)
  ok { m with live := fun b' => if b' = b then false else m.live b' }

end Mem

/-- `Eigen::Ref` into a buffer: `rows * cols` cells from `off` on, by columns. -/
structure View where
  buf : Nat
  off : Nat
  rows : Nat
  cols : Nat

namespace View

/-- The view lies within a buffer that exists. -/
def valid (m : Mem) (w : View) : Bool :=
  m.live w.buf && decide (w.off + w.rows * w.cols ≤ m.len w.buf)

/-- Assignment of a matrix to a `Ref`; different sizes are undefined (no assertions in Release). -/
def write (m : Mem) (w : View) (B : DMat ℝ) : Res Mem := do
  require (w.valid m)
  require (B.rows == w.rows && B.cols == w.cols)
  ok { m with cell := fun b k =>
    if b = w.buf ∧ w.off ≤ k ∧ k < w.off + w.rows * w.cols
    then Option.some (B.v ((k - w.off) % w.rows) ((k - w.off) / w.rows))
    else m.cell b k }

/-- Conversion of a `Ref` to a matrix; reading a cell that was never written is undefined. -/
def read (m : Mem) (w : View) : Res (DMat ℝ) := do
  require (w.valid m)
  require ((List.range (w.rows * w.cols)).all fun k => (m.cell w.buf (w.off + k)).isSome)
  ok ⟨w.rows, w.cols, fun i j => (m.cell w.buf (w.off + w.rows * j + i)).getD 0⟩

end View

/-- `LiftedSEVariable` (LiftedSEVariable.h:24-129). -/
structure SEVar where
  r : Nat
  d : Nat
  n : Nat
  buf : Nat

namespace SEVar

/-- The member `X_` (LiftedSEVariable.cpp:21, 50). -/
def all (v : SEVar) : View := ⟨v.buf, 0, v.r, (v.d + 1) * v.n⟩

/-- `pose(index)` (LiftedSEVariable.cpp:69-77). -/
def pose (v : SEVar) (i : Nat) : Res View := do
  check (decide (i < v.n))
  ok ⟨v.buf, v.r * (i * (v.d + 1)), v.r, v.d + 1⟩

/-- `rotation(index)` (LiftedSEVariable.cpp:79-89). -/
def rotation (v : SEVar) (i : Nat) : Res View := do
  check (decide (i < v.n))
  ok ⟨v.buf, v.r * (i * (v.d + 1)), v.r, v.d⟩

/-- `translation(index)` (LiftedSEVariable.cpp:91-101). -/
def translation (v : SEVar) (i : Nat) : Res View := do
  check (decide (i < v.n))
  ok ⟨v.buf, v.r * (i * (v.d + 1) + v.d), v.r, 1⟩

/-- `getData` (LiftedSEVariable.cpp:55-57). -/
def getData (m : Mem) (v : SEVar) : Res (DMat ℝ) := v.all.read m

/-- `setData` (LiftedSEVariable.cpp:59-67): the `memcpy` writes the whole buffer. -/
def setData (m : Mem) (v : SEVar) (X : DMat ℝ) : Res Mem := do
  check (X.rows == v.r)
  check (X.cols == (v.d + 1) * v.n)
  v.all.write m X

/-- Body of the loop of the constructor (LiftedSEVariable.cpp:24-27). -/
def makeStep (v : SEVar) (Yinit : DMat ℝ) (m : Mem) (i : Nat) : Res Mem := do
  let R ← v.rotation i
  let m ← R.write m Yinit
  let t ← v.translation i
  t.write m (DMat.zero v.r 1)

/-- Constructor (LiftedSEVariable.cpp:15-28); `r < d` makes the identity block leave the matrix. -/
def make (m : Mem) (r d n : Nat) : Res (SEVar × Mem) := do
  let v : SEVar := ⟨r, d, n, m.next⟩
  let m := m.alloc (r * ((d + 1) * n))
  let Y : DMat ℝ := DMat.zero r d
  require (Y.inRange 0 0 d d)
  let Yinit := Y.setBlock 0 0 (DMat.one d d)
  let m ← Res.foldl (v.makeStep Yinit) m (List.range n)
  ok (v, m)

/-- Constructor from a pose array (LiftedSEVariable.cpp:30-33). -/
def ofPoses (m : Mem) (P : PArr ℝ) : Res (SEVar × Mem) := do
  let (v, m) ← make m P.r P.d P.n
  let m ← v.setData m P.X
  ok (v, m)

/-- Copy constructor (LiftedSEVariable.cpp:35-38). -/
def copy (m : Mem) (other : SEVar) : Res (SEVar × Mem) := do
  let (v, m) ← make m other.r other.d other.n
  let X ← other.getData m
  let m ← v.setData m X
  ok (v, m)

end SEVar

/-- A program's variables: named objects and the memory. -/
structure VWorld where
  mem : Mem
  vars : Nat → Option SEVar

/-- What a program does with variables. -/
inductive VOp where
  | make (x r d n : Nat)
  | ofPoses (x : Nat) (P : PArr ℝ)
  | copy (x y : Nat)
  | assign (x y : Nat)
  | setData (x : Nat) (X : DMat ℝ)
  | setPose (x i : Nat) (B : DMat ℝ)
  | setRotation (x i : Nat) (B : DMat ℝ)
  | setTranslation (x i : Nat) (B : DMat ℝ)
  | drop (x : Nat)

namespace VWorld

/-- Before anything was constructed. -/
def empty : VWorld := ⟨Mem.empty, fun _ => none⟩

/-- The object called `x`; there must be one. -/
def get (w : VWorld) (x : Nat) : Res SEVar :=
  match w.vars x with
  | some v => ok v
  | none => ub

/-- The name is not in use. -/
def unused (w : VWorld) (x : Nat) : Res Unit := require (w.vars x).isNone

/-- Bind a name. -/
def bind (w : VWorld) (x : Nat) (v : Option SEVar) (m : Mem) : VWorld :=
  ⟨m, fun y => if y = x then v else w.vars y⟩

/-- `x = y` (LiftedSEVariable.cpp:40-53).  The parameter `other` is a reference, so its members are read after
those of the target were changed; the old buffer is released when `var_` gets its new value. -/
def assign (w : VWorld) (x y : Nat) : Res VWorld := do
  let v ← w.get x
  let other ← w.get y
  let v' : SEVar := ⟨other.r, other.d, other.n, w.mem.next⟩
  let m ← (w.mem.alloc (v'.r * ((v'.d + 1) * v'.n))).free v.buf
  let w := w.bind x (some v') m
  let other ← w.get y
  let X ← other.getData w.mem
  let m ← v'.setData w.mem X
  ok { w with mem := m }

/-- Effect of one statement. -/
def step (w : VWorld) : VOp → Res VWorld
  | .make x r d n => do
    w.unused x
    let (v, m) ← SEVar.make w.mem r d n
    ok (w.bind x (some v) m)
  | .ofPoses x P => do
    w.unused x
    let (v, m) ← SEVar.ofPoses w.mem P
    ok (w.bind x (some v) m)
  | .copy x y => do
    w.unused x
    let other ← w.get y
    let (v, m) ← SEVar.copy w.mem other
    ok (w.bind x (some v) m)
  | .assign x y => w.assign x y
  | .setData x X => do
    let v ← w.get x
    let m ← v.setData w.mem X
    ok { w with mem := m }
  | .setPose x i B => do
    let v ← w.get x
    let p ← v.pose i
    let m ← p.write w.mem B
    ok { w with mem := m }
  | .setRotation x i B => do
    let v ← w.get x
    let p ← v.rotation i
    let m ← p.write w.mem B
    ok { w with mem := m }
  | .setTranslation x i B => do
    let v ← w.get x
    let p ← v.translation i
    let m ← p.write w.mem B
    ok { w with mem := m }
  | .drop x => do
    let v ← w.get x
    let m ← w.mem.free v.buf
    ok (w.bind x none m)

/-- A sequence of statements. -/
def run (w : VWorld) (ops : List VOp) : Res VWorld := Res.foldl step w ops

end VWorld

end

end Dpgo
