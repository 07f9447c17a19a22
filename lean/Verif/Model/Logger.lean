import Verif.Model.Text
import Verif.Model.Quaternion
import Verif.Model.PoseGraph

/-!
# The logger: measurements and trajectories as files

Functions of `src/PGOLogger.cpp`.  A disk maps paths to contents; opening for writing truncates.  What is
printed to the console is left out.  A call that throws or is undefined leaves the disk unspecified.
-/

namespace Dpgo

open Res Text

/-- The files a process can see: contents, and the paths that can be opened for writing
(`std::ofstream`, `std::ifstream` of src/PGOLogger.cpp:21-23, 59-61, 84, 151). -/
structure Disk where
  file : Str → Option Str
  writable : Str → Bool

/-- The file has the given contents afterwards. -/
def Disk.write (k : Disk) (path contents : Str) : Disk :=
  { k with file := fun p => if p = path then some contents else k.file p }

namespace Logger

/-- `t(k)` for a `Matrix`: entry `k` in column-major order, undefined outside (src/PGOLogger.cpp:43-45, 75-77). -/
def entry (A : DMat ℝ) (k : Nat) : Res ℝ := do
  require (decide (k < A.rows * A.cols))
  return A.v (k % A.rows) (k / A.rows)

/-- `Eigen::Matrix3d R = m.R` (src/PGOLogger.cpp:33, 67): any other size is undefined. -/
def fixed3 (A : DMat ℝ) : Res (Nat → Nat → ℝ) := do
  require (decide (A.rows = 3) && decide (A.cols = 3))
  return A.v

/-- Fields joined by commas (the `<< ","` of src/PGOLogger.cpp:35-49, 70-77). -/
def commas : List Str → Str
  | [] => []
  | [a] => a
  | a :: l => a ++ ',' :: commas l

/-- Header of a measurement file (src/PGOLogger.cpp:29). -/
def measHeader : Str :=
  "robot_src,pose_src,robot_dst,pose_dst,qx,qy,qz,qw,tx,ty,tz,kappa,tau,is_known_inlier,weight".toList

/-- One row of a measurement file (src/PGOLogger.cpp:31-50). -/
noncomputable def measRow (m : Meas ℝ) : Res Str := do
  let R ← fixed3 m.R
  let q := Quat.ofMatrix R
  let t0 ← entry m.t 0
  let t1 ← entry m.t 1
  let t2 ← entry m.t 2
  return commas [showNat m.r1, showNat m.p1, showNat m.r2, showNat m.p2, showReal q.x, showReal q.y,
    showReal q.z, showReal q.w, showReal t0, showReal t1, showReal t2, showReal m.kappa, showReal m.tau,
    showBool m.fixedWeight, showReal m.weight]

/-- Rows written one after the other, each followed by a newline. -/
def rows {α : Type} (row : α → Res Str) (text : Str) (l : List α) : Res Str :=
  Res.foldl (fun s a => do let r ← row a; return s ++ (r ++ ['\n'])) text l

/-- `PGOLogger::logMeasurements` (src/PGOLogger.cpp:18-53). -/
noncomputable def logMeasurements (dir : Str) (k : Disk) (ms : List (Meas ℝ)) (filename : Str) : Res Disk :=
  match ms with
  | [] => ok k
  | m0 :: _ =>
    let path := dir ++ filename
    if !(k.writable path) then ok k
    else if m0.R.rows = 2 then ok (k.write path [])
    else do
      let text ← rows measRow (measHeader ++ ['\n']) ms
      return k.write path text

/-- Header of a trajectory file (src/PGOLogger.cpp:64). -/
def trajHeader : Str := "pose_index,qx,qy,qz,qw,tx,ty,tz".toList

/-- One row of a trajectory file (src/PGOLogger.cpp:66-78). -/
noncomputable def trajRow (d : Nat) (T : DMat ℝ) (i : Nat) : Res Str := do
  require (T.inRange 0 (i * (d + 1)) d d)
  let R ← fixed3 (T.block 0 (i * (d + 1)) d d)
  let q := Quat.ofMatrix R
  require (T.inRange 0 (i * (d + 1) + d) d 1)
  let t := T.block 0 (i * (d + 1) + d) d 1
  let t0 ← entry t 0
  let t1 ← entry t 1
  let t2 ← entry t 2
  return commas [showNat i, showReal q.x, showReal q.y, showReal q.z, showReal q.w, showReal t0, showReal t1,
    showReal t2]

/-- `PGOLogger::logTrajectory` (src/PGOLogger.cpp:55-81); `(d + 1) * n` is an `unsigned` product. -/
noncomputable def logTrajectory (dir : Str) (k : Disk) (d n : Nat) (T : DMat ℝ) (filename : Str) : Res Disk :=
  if d = 2 then ok k
  else do
    check (decide (T.rows = d))
    check (decide (T.cols = u32 ((d + 1) * n)))
    let path := dir ++ filename
    if !(k.writable path) then ok k
    else do
      let text ← rows (trajRow d T) (trajHeader ++ ['\n']) (List.range n)
      return k.write path text

/-! ### Reading -/

/-- The last token and what is left of the line. -/
abbrev Cursor := Str × Option Str

/-- `std::getline(ss, token, ','); v = std::stoi(token)` into a `uint32_t` (src/PGOLogger.cpp:110-111,
175-182). -/
def nextU32 (c : Cursor) : Res (Nat × Cursor) := do
  let c := field c.1 c.2
  let v ← stoi c.1
  return ((v % 2 ^ 32).toNat, c)

/-- `std::getline(ss, token, ','); fixed_weight = std::stoi(token)` into a `bool` (src/PGOLogger.cpp:208-209). -/
def nextBool (c : Cursor) : Res (Bool × Cursor) := do
  let c := field c.1 c.2
  let v ← stoi c.1
  return (decide (v ≠ 0), c)

/-- `std::getline(ss, token, ','); x = std::stod(token)` (src/PGOLogger.cpp:113-129, 184-211). -/
noncomputable def nextReal (c : Cursor) : Res (ℝ × Cursor) := do
  let c := field c.1 c.2
  let x ← stod c.1
  return (x, c)

/-- Quaternion fields, normalised (src/PGOLogger.cpp:113-122, 184-193). -/
noncomputable def nextQuat (c : Cursor) : Res (Quat × Cursor) := do
  let (qx, c) ← nextReal c
  let (qy, c) ← nextReal c
  let (qz, c) ← nextReal c
  let (qw, c) ← nextReal c
  return ((Quat.mk qx qy qz qw).normalize, c)

/-- Translation fields (src/PGOLogger.cpp:124-131, 195-202). -/
noncomputable def nextVec (c : Cursor) : Res (DMat ℝ × Cursor) := do
  let (tx, c) ← nextReal c
  let (ty, c) ← nextReal c
  let (tz, c) ← nextReal c
  return (⟨3, 1, fun i _ => match i with | 0 => tx | 1 => ty | 2 => tz | _ => 0⟩, c)

/-- One line of a measurement file, with the token left by the line before (src/PGOLogger.cpp:172-220). -/
noncomputable def loadMeas (loadWeight : Bool) (token line : Str) : Res (Meas ℝ × Str) := do
  let (r1, c) ← nextU32 (token, some line)
  let (p1, c) ← nextU32 c
  let (r2, c) ← nextU32 c
  let (p2, c) ← nextU32 c
  let (q, c) ← nextQuat c
  let (t, c) ← nextVec c
  let (kappa, c) ← nextReal c
  let (tau, c) ← nextReal c
  let (fixedWeight, c) ← nextBool c
  let (weight, c) ← nextReal c
  let m := Meas.make r1 r2 p1 p2 q.toRotation t kappa tau
  let m := { m with fixedWeight := fixedWeight }
  return (if loadWeight then { m with weight := weight } else m, c.1)

/-- `PGOLogger::loadMeasurements` (src/PGOLogger.cpp:148-225): a file that cannot be opened gives no
measurements, the first line is skipped. -/
noncomputable def loadMeasurements (k : Disk) (path : Str) (loadWeight : Bool) : Res (List (Meas ℝ)) :=
  match k.file path with
  | none => ok []
  | some text => do
    let (ms, _) ← Res.foldl (fun (acc : List (Meas ℝ) × Str) line => do
      let (m, token) ← loadMeas loadWeight acc.2 line
      return (acc.1 ++ [m], token)) ([], []) (lines text).tail
    return ms

/-- One line of a trajectory file (src/PGOLogger.cpp:106-137). -/
noncomputable def loadPose (token line : Str) : Res ((Nat × DMat ℝ) × Str) := do
  let (i, c) ← nextU32 (token, some line)
  let (q, c) ← nextQuat c
  let (t, c) ← nextVec c
  return ((i, ⟨3, 4, fun a b => if b < 3 then q.toRotation.v a b else t.v a 0⟩), c.1)

/-- `PGOLogger::loadTrajectory` (src/PGOLogger.cpp:83-146): the table keeps the first pose of an index
(`emplace`), a missing index throws (`at`).  `4 * num_poses` is an `unsigned` product, and a block outside
the matrix is undefined. -/
noncomputable def loadTrajectory (dir : Str) (k : Disk) (filename : Str) : Res (DMat ℝ) :=
  match k.file (dir ++ filename) with
  | none => ok (DMat.zero 0 0)
  | some text => do
    let body := (lines text).tail
    let (table, _) ← Res.foldl (fun (acc : List (Nat × DMat ℝ) × Str) line => do
      let (p, token) ← loadPose acc.2 line
      return (acc.1 ++ [p], token)) ([], []) body
    let n := u32 body.length
    Res.foldl (fun T i => do
      match table.find? (fun p => p.1 == i) with
      | none => throws
      | some p =>
        require (T.inRange 0 (u32 (4 * i)) 3 4)
        return T.setBlock 0 (u32 (4 * i)) p.2) (DMat.zero 3 (u32 (4 * n))) (List.range n)

end Logger
end Dpgo
