import Verif.Model.PoseGraph

/-!
# Partition of a dataset over robots (`examples/MultiRobotExample.cpp:71-119`)

The dataset is the list returned by `read_g2o_file`; `numPoses` is its second result.  Printing is
left out.
-/

namespace Dpgo.Example

open Res

variable {K : Type}

/-- `num_poses_per_robot` (examples/MultiRobotExample.cpp:71): integer quotient stored in an
`unsigned`. -/
def perRobot (numRobots numPoses : Nat) : Nat := u32 (numPoses / numRobots)

/-- `startIdx` (examples/MultiRobotExample.cpp:80, 156, 211, 240). -/
def startIdx (per robot : Nat) : Nat := u32 (robot * per)

/-- `endIdx` (examples/MultiRobotExample.cpp:81-82, 157-158, 212-213, 241-242): the last robot takes
everything that is left; `n` is `num_poses` stored in an `unsigned` (line 54). -/
def endIdx (numRobots numPoses per robot : Nat) : Nat :=
  if robot = numRobots - 1 then u32 numPoses else u32 ((robot + 1) * per)

/-- Body of the inner loop (examples/MultiRobotExample.cpp:83-87) for one robot. -/
def assignRobot (start stop robot : Nat) (M : OMap Nat PoseID) : OMap Nat PoseID :=
  (List.range' start (stop - start)).foldl
    (fun M idx => OMap.insert ltNat idx (PoseID.make robot (idx - start)) M) M

/-- Construction of `PoseMap` (examples/MultiRobotExample.cpp:78-88). -/
def poseMap (numRobots numPoses per : Nat) : OMap Nat PoseID :=
  (List.range numRobots).foldl
    (fun M robot =>
      assignRobot (startIdx per robot) (endIdx numRobots numPoses per robot) robot M) []

/-- `PoseMap[k]` (examples/MultiRobotExample.cpp:94-95): a missing key is inserted with the default
`PoseID(0, 0)` (include/DPGO/DPGO_types.h:114); the key is converted to `unsigned`. -/
def lookup (M : OMap Nat PoseID) (k : Nat) : PoseID × OMap Nat PoseID :=
  match OMap.find? ltNat (u32 k) M with
  | some p => (p, M)
  | none => (⟨0, 0⟩, OMap.insert ltNat (u32 k) ⟨0, 0⟩ M)

/-- The three `vector<vector<RelativeSEMeasurement>>` (examples/MultiRobotExample.cpp:90-92). -/
structure Split (K : Type) where
  odometry : List (List (Meas K))
  privateLcs : List (List (Meas K))
  sharedLcs : List (List (Meas K))

/-- `v[a].push_back(m)` (examples/MultiRobotExample.cpp:109, 112, 116, 117); an index out of range is
undefined behaviour. -/
def pushAt (v : List (List (Meas K))) (a : Nat) (m : Meas K) : Res (List (List (Meas K))) := do
  require (decide (a < v.length))
  ok (v.modify a (· ++ [m]))

/-- Body of the loop over the dataset (examples/MultiRobotExample.cpp:93-119). -/
def splitStep [Field K] (s : OMap Nat PoseID × Split K) (mIn : Meas K) :
    Res (OMap Nat PoseID × Split K) := do
  let (src, M) := lookup s.1 mIn.p1
  let (dst, M) := lookup M mIn.p2
  let m := Meas.make src.robot dst.robot src.frame dst.frame mIn.R mIn.t mIn.kappa mIn.tau
  if src.robot = dst.robot then
    if u32 (src.frame + 1) = dst.frame then do
      let l ← pushAt s.2.odometry src.robot m
      ok (M, { s.2 with odometry := l })
    else do
      let l ← pushAt s.2.privateLcs src.robot m
      ok (M, { s.2 with privateLcs := l })
  else do
    let l ← pushAt s.2.sharedLcs src.robot m
    let l ← pushAt l dst.robot m
    ok (M, { s.2 with sharedLcs := l })

/-- The whole partition (examples/MultiRobotExample.cpp:35-39, 71-119); `exit(1)` is an `abort`. -/
def partition [Field K] (numRobots : Int) (numPoses : Nat) (dataset : List (Meas K)) :
    Res (OMap Nat PoseID × Split K) :=
  if numRobots ≤ 0 then abort
  else
    let N := numRobots.toNat
    let per := perRobot N numPoses
    if per ≤ 0 then abort
    else
      let empties : List (List (Meas K)) := List.replicate N []
      Res.foldl splitStep (poseMap N numPoses per, ⟨empties, empties, empties⟩) dataset

/-- First column of the part of a robot, `startIdx * (d + 1)` (examples/MultiRobotExample.cpp:159,
217): `unsigned` arithmetic. -/
def blockCol (d start : Nat) : Nat := u32 (start * (d + 1))

/-- Number of columns of the part of a robot, `(endIdx - startIdx) * (d + 1)`
(examples/MultiRobotExample.cpp:159, 217): `unsigned` arithmetic. -/
def blockCols (d start stop : Nat) : Nat := u32 ((stop - start) * (d + 1))

/-- `XChordal.block(0, startIdx * (d + 1), r, (endIdx - startIdx) * (d + 1))`
(examples/MultiRobotExample.cpp:155-160): the part of a centralised estimate given to a robot. -/
def localBlock [Field K] (r d start stop : Nat) (X : DMat K) : Res (DMat K) := do
  require (X.inRange 0 (blockCol d start) r (blockCols d start stop))
  ok (X.block 0 (blockCol d start) r (blockCols d start stop))

/-- Formation of the centralised solution from the estimates of the robots
(examples/MultiRobotExample.cpp:210-219), all of which are available; a size mismatch in the block
assignment is undefined behaviour in a Release build. -/
def assemble [Field K] (r d numRobots numPoses per : Nat) (X : Nat → DMat K) (Xopt : DMat K) :
    Res (DMat K) :=
  Res.foldl (fun (Y : DMat K) robot => do
    let s := startIdx per robot
    let e := endIdx numRobots numPoses per robot
    require (Y.inRange 0 (blockCol d s) r (blockCols d s e) &&
      (X robot).rows == r && (X robot).cols == blockCols d s e)
    ok (Y.setBlock 0 (blockCol d s) (X robot))) Xopt (List.range numRobots)

end Dpgo.Example
