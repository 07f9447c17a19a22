import Verif.Model.Text
import Verif.Model.Quaternion
import Verif.Model.PoseGraph
import Mathlib.Analysis.SpecialFunctions.Trigonometric.Basic

/-!
# Reading pose-graph files

`read_g2o_file` (src/DPGO_utils.cpp:113-257) on characters.  The local variables live across lines, as in
the code: a failed extraction leaves the value of an earlier line, and a variable that has never been set is
uninitialised (`none`); using it is undefined.
-/

namespace Dpgo.G2o

open Res Text

/-- The `double` variables of `read_g2o_file` (src/DPGO_utils.cpp:129-130). -/
inductive Reg where
  | dx | dy | dz | dtheta | dqx | dqy | dqz | dqw
  | I11 | I12 | I13 | I14 | I15 | I16 | I22 | I23 | I24 | I25 | I26 | I33 | I34 | I35 | I36
  | I44 | I45 | I46 | I55 | I56 | I66
  deriving DecidableEq

/-- Variables of `read_g2o_file` (src/DPGO_utils.cpp:116-137). -/
structure State where
  token : Str
  i : Option Nat
  j : Option Nat
  reg : Reg → Option ℝ
  numPoses : Nat
  out : List (Meas ℝ)

/-- Before the first line (src/DPGO_utils.cpp:116-137). -/
def start : State := ⟨[], none, none, fun _ => none, 0, []⟩

/-- `strstrm >> i` (src/DPGO_utils.cpp:157, 201): a stream that has failed (`none`) leaves the variable. -/
def pullNat (v : Option Nat) (ss : Option Str) : Option Nat × Option Str :=
  match ss with
  | none => (v, none)
  | some s =>
    match extractNat s with
    | .ended => (v, none)
    | .failed a => (some a, none)
    | .got a rest => (some a, some rest)

/-- `strstrm >> x` (src/DPGO_utils.cpp:157-158, 201-203). -/
noncomputable def pullReal (v : Option ℝ) (ss : Option Str) : Option ℝ × Option Str :=
  match ss with
  | none => (v, none)
  | some s =>
    match extractReal s with
    | .ended => (v, none)
    | .failed a => (some a, none)
    | .got a rest => (some a, some rest)

/-- `strstrm >> x >> y >> …` (src/DPGO_utils.cpp:157-158, 201-203). -/
noncomputable def pullRegs : List Reg → (Reg → Option ℝ) → Option Str → (Reg → Option ℝ)
  | [], reg, _ => reg
  | r :: rs, reg, ss =>
    let (v, ss) := pullReal (reg r) ss
    pullRegs rs (Function.update reg r v) ss

/-- The numbers of an `EDGE_SE2` line (src/DPGO_utils.cpp:157-158). -/
def regs2 : List Reg := [.dx, .dy, .dtheta, .I11, .I12, .I13, .I22, .I23, .I33]

/-- The numbers of an `EDGE_SE3:QUAT` line (src/DPGO_utils.cpp:201-203). -/
def regs3 : List Reg :=
  [.dx, .dy, .dz, .dqx, .dqy, .dqz, .dqw, .I11, .I12, .I13, .I14, .I15, .I16, .I22, .I23, .I24, .I25, .I26,
    .I33, .I34, .I35, .I36, .I44, .I45, .I46, .I55, .I56, .I66]

/-- Use of a variable: undefined when it is uninitialised. -/
def get {α : Type} : Option α → Res α
  | some a => ok a
  | none => ub

open Classical in
/-- Division whose IEEE result is infinite or undefined for a zero divisor. -/
noncomputable def divide (a b : ℝ) : Res ℝ := if b = 0 then nonfinite else ok (a / b)

/-- `M.inverse().trace()` for `M = [a b; b c]` (src/DPGO_utils.cpp:172-174; Eigen inverts by cofactors). -/
noncomputable def invTrace2 (a b c : ℝ) : Res ℝ := divide (c + a) (a * c - b * b)

/-- `M.inverse().trace()` for the symmetric matrix `M = [a b c; b d e; c e f]` (src/DPGO_utils.cpp:221-230;
Eigen inverts by cofactors). -/
noncomputable def invTrace3 (a b c d e f : ℝ) : Res ℝ :=
  divide ((d * f - e * e) + (a * f - c * c) + (a * d - b * b))
    (a * (d * f - e * e) - b * (b * f - c * e) + c * (b * e - c * d))

/-- A `double` nearest to a `size_t`, ties to even (the conversion of src/DPGO_utils.cpp:246). -/
def toDouble (n : Nat) : Nat :=
  if n < 2 ^ 53 then n
  else
    let s := 2 ^ (Nat.log2 n - 52)
    let q := n / s
    let r := n % s
    if 2 * r < s then q * s
    else if s < 2 * r then (q + 1) * s
    else if q % 2 = 0 then q * s else (q + 1) * s

/-- `size_t max_pair = std::max<double>(p1, p2)` (src/DPGO_utils.cpp:246): converting `2^64` back is undefined. -/
def maxPair (p1 p2 : Nat) : Res Nat :=
  let v := max (toDouble p1) (toDouble p2)
  if v < 2 ^ 64 then ok v else ub

/-- The measurement of an `EDGE_SE2` line (src/DPGO_utils.cpp:160-183). -/
noncomputable def edge2 (i j : Nat) (reg : Reg → Option ℝ) : Res (Meas ℝ) := do
  let dx ← get (reg .dx)
  let dy ← get (reg .dy)
  let dtheta ← get (reg .dtheta)
  let I11 ← get (reg .I11)
  let I12 ← get (reg .I12)
  let I22 ← get (reg .I22)
  let s ← invTrace2 I11 I12 I22
  let tau ← divide 2 s
  let I33 ← get (reg .I33)
  return {
    r1 := 0, r2 := 0, p1 := i, p2 := j
    R := ⟨2, 2, fun a b => match a, b with
      | 0, 0 => Real.cos dtheta
      | 0, 1 => -Real.sin dtheta
      | 1, 0 => Real.sin dtheta
      | 1, 1 => Real.cos dtheta
      | _, _ => 0⟩
    t := ⟨2, 1, fun a _ => match a with | 0 => dx | 1 => dy | _ => 0⟩
    kappa := I33, tau := tau, fixedWeight := decide ((i + 1) % 2 ^ 64 = j), weight := 1 }

/-- The measurement of an `EDGE_SE3:QUAT` line (src/DPGO_utils.cpp:205-237). -/
noncomputable def edge3 (i j : Nat) (reg : Reg → Option ℝ) : Res (Meas ℝ) := do
  let dx ← get (reg .dx)
  let dy ← get (reg .dy)
  let dz ← get (reg .dz)
  let dqx ← get (reg .dqx)
  let dqy ← get (reg .dqy)
  let dqz ← get (reg .dqz)
  let dqw ← get (reg .dqw)
  let I11 ← get (reg .I11)
  let I12 ← get (reg .I12)
  let I13 ← get (reg .I13)
  let I22 ← get (reg .I22)
  let I23 ← get (reg .I23)
  let I33 ← get (reg .I33)
  let s ← invTrace3 I11 I12 I13 I22 I23 I33
  let tau ← divide 3 s
  let I44 ← get (reg .I44)
  let I45 ← get (reg .I45)
  let I46 ← get (reg .I46)
  let I55 ← get (reg .I55)
  let I56 ← get (reg .I56)
  let I66 ← get (reg .I66)
  let u ← invTrace3 I44 I45 I46 I55 I56 I66
  let kappa ← divide 3 (2 * u)
  return {
    r1 := 0, r2 := 0, p1 := i, p2 := j
    R := (Quat.mk dqx dqy dqz dqw).toRotation
    t := ⟨3, 1, fun a _ => match a with | 0 => dx | 1 => dy | 2 => dz | _ => 0⟩
    kappa := kappa, tau := tau, fixedWeight := decide ((i + 1) % 2 ^ 64 = j), weight := 1 }

/-- `max_pair`, `num_poses` and `push_back` (src/DPGO_utils.cpp:245-249). -/
noncomputable def push (s : State) (m : Meas ℝ) : Res State := do
  let v ← maxPair m.p1 m.p2
  return { s with numPoses := if s.numPoses < v then v else s.numPoses, out := s.out ++ [m] }

/-- The first word of a line; a blank line leaves the token of the line before (src/DPGO_utils.cpp:141-144). -/
def firstToken (token : Str) (line : Str) : Str × Option Str :=
  match extractWord line with
  | .got w rest => (w, some rest)
  | _ => (token, none)

/-- `"EDGE_SE2"` (src/DPGO_utils.cpp:146). -/
def kwEdge2 : Str := "EDGE_SE2".toList
/-- `"EDGE_SE3:QUAT"` (src/DPGO_utils.cpp:184). -/
def kwEdge3 : Str := "EDGE_SE3:QUAT".toList
/-- `"VERTEX_SE2"` (src/DPGO_utils.cpp:238). -/
def kwVertex2 : Str := "VERTEX_SE2".toList
/-- `"VERTEX_SE3:QUAT"` (src/DPGO_utils.cpp:238). -/
def kwVertex3 : Str := "VERTEX_SE3:QUAT".toList

/-- One line of the file (src/DPGO_utils.cpp:139-250). -/
noncomputable def step (s : State) (line : Str) : Res State :=
  let (token, ss) := firstToken s.token line
  if token = kwEdge2 then do
    let (i, ss) := pullNat s.i ss
    let (j, ss) := pullNat s.j ss
    let reg := pullRegs regs2 s.reg ss
    let vi ← get i
    let vj ← get j
    let m ← edge2 vi vj reg
    push { s with token := token, i := i, j := j, reg := reg } m
  else if token = kwEdge3 then do
    let (i, ss) := pullNat s.i ss
    let (j, ss) := pullNat s.j ss
    let reg := pullRegs regs3 s.reg ss
    let vi ← get i
    let vj ← get j
    let m ← edge3 vi vj reg
    push { s with token := token, i := i, j := j, reg := reg } m
  else if token = kwVertex2 ∨ token = kwVertex3 then ok { s with token := token }
  else abort

/-- `read_g2o_file` (src/DPGO_utils.cpp:113-257) on the contents of the file (`none`: it cannot be opened): the
measurements and the number of poses. -/
noncomputable def readG2o (file : Option Str) : Res (List (Meas ℝ) × Nat) := do
  let s ← Res.foldl step start (lines (file.getD []))
  return (s.out, (s.numPoses + 1) % 2 ^ 64)

end Dpgo.G2o
