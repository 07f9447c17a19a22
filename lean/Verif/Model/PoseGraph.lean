import Verif.Basic.DMat
import Verif.Model.Ids

/-!
# `PoseGraph`: data structure and bookkeeping (`src/PoseGraph.cpp`, `include/DPGO/PoseGraph.h`)

The construction of the data matrices is in `Verif.Model.DataMatrices`.
-/

namespace Dpgo

/-- `struct RelativeSEMeasurement` (include/DPGO/RelativeSEMeasurement.h:21-50).
`r1 r2 p1 p2` are `size_t`. -/
structure Meas (K : Type) where
  r1 : Nat
  r2 : Nat
  p1 : Nat
  p2 : Nat
  R : DMat K
  t : DMat K
  kappa : K
  tau : K
  fixedWeight : Bool
  weight : K

/-- Basic constructor of `RelativeSEMeasurement` (RelativeSEMeasurement.h:55-71):
`fixedWeight = false`, `weight = 1`; the translation is a column vector. -/
def Meas.make {K : Type} [Field K] (r1 r2 p1 p2 : Nat) (R t : DMat K) (kappa tau : K) : Meas K :=
  ⟨r1, r2, p1, p2, R, t, kappa, tau, false, 1⟩

/-- `PoseID(m.r1, m.p1)`. -/
def Meas.src {K : Type} (m : Meas K) : PoseID := PoseID.make m.r1 m.p1
/-- `PoseID(m.r2, m.p2)`. -/
def Meas.dst {K : Type} (m : Meas K) : PoseID := PoseID.make m.r2 m.p2
/-- `EdgeID(src_id, dst_id)`. -/
def Meas.edge {K : Type} (m : Meas K) : EdgeID := ⟨m.src, m.dst⟩

/-- `class LiftedPoseArray` (include/DPGO/manifold/Poses.h:21-115): `r × (d+1)n` matrix.
`LiftedPose` is the case `n = 1`, `PoseArray` the case `r = d`, `Pose` both. -/
structure PArr (K : Type) where
  r : Nat
  d : Nat
  n : Nat
  X : DMat K

/-- `PoseDict` (Poses.h:214). -/
abbrev PoseDict (K : Type) := OMap PoseID (PArr K)

/-- State of a `PoseGraph` (include/DPGO/PoseGraph.h:292-388). Timers are not modelled.
`precon` stores the matrix that was factorised. -/
structure PoseGraph (K : Type) where
  id : Nat
  r : Nat
  d : Nat
  n : Nat
  odometry : List (Meas K)
  privateLcs : List (Meas K)
  sharedLcs : List (Meas K)
  localShared : OSet PoseID
  nbrShared : OSet PoseID
  nbrRobots : OSet Nat
  nbrActive : OMap Nat Bool
  neighborPoses : PoseDict K
  Q : Option (DMat K)
  G : Option (DMat K)
  precon : Option (DMat K)
  edgeIndex : EdgeMap
  useInactive : Bool
  priors : OMap Nat (PArr K)

namespace PoseGraph
variable {K : Type}

open Res

/-- `clearQuadraticMatrix` (src/PoseGraph.cpp:352-355). -/
def clearQuadraticMatrix (g : PoseGraph K) : PoseGraph K := { g with Q := none, precon := none }

/-- `clearLinearMatrix` (src/PoseGraph.cpp:364-366). -/
def clearLinearMatrix (g : PoseGraph K) : PoseGraph K := { g with G := none }

/-- `clearDataMatrices` (src/PoseGraph.cpp:376-379). -/
def clearDataMatrices (g : PoseGraph K) : PoseGraph K := g.clearQuadraticMatrix.clearLinearMatrix

/-- `clearNeighborPoses` (src/PoseGraph.cpp:52-55): also drops `G`, keeps `Q`. -/
def clearNeighborPoses (g : PoseGraph K) : PoseGraph K := { g with neighborPoses := [], G := none }

/-- `clearPriors` (src/PoseGraph.cpp:172-174): no cache is dropped. -/
def clearPriors (g : PoseGraph K) : PoseGraph K := { g with priors := [] }

/-- `empty` (src/PoseGraph.cpp:27-41). -/
def empty (g : PoseGraph K) : PoseGraph K :=
  clearPriors <| clearDataMatrices <| clearNeighborPoses
    { g with
      n := 0, edgeIndex := [], odometry := [], privateLcs := [], sharedLcs := [],
      localShared := [], nbrShared := [], nbrRobots := [], nbrActive := [] }

/-- Constructor (src/PoseGraph.cpp:14-21). -/
def new (id r d : Nat) : Res (PoseGraph K) := do
  check (decide (d ≤ r))
  ok <| empty
    { id := id, r := r, d := d, n := 0, odometry := [], privateLcs := [], sharedLcs := [],
      localShared := [], nbrShared := [], nbrRobots := [], nbrActive := [], neighborPoses := [],
      Q := none, G := none, precon := none, edgeIndex := [], useInactive := false, priors := [] }

/-- `reset` (src/PoseGraph.cpp:43-50). -/
def reset (g : PoseGraph K) : PoseGraph K :=
  let g := g.clearNeighborPoses.clearDataMatrices.clearPriors
  { g with nbrActive := g.nbrRobots.foldl (fun m i => OMap.insert ltNat i true m) g.nbrActive }

/-- `hasMeasurement` (src/PoseGraph.cpp:213-216). -/
def hasMeasurement (g : PoseGraph K) (src dst : PoseID) : Bool :=
  (g.edgeIndex.get? ⟨src, dst⟩).isSome

/-- The size tests on the measurement data in the three `add*` functions
(src/PoseGraph.cpp:94-95, 111-112, 127-128). -/
def dimsOk (g : PoseGraph K) (m : Meas K) : Bool :=
  m.R.rows == g.d && m.R.cols == g.d && m.t.rows == g.d && m.t.cols == 1

/-- `addOdometry` (src/PoseGraph.cpp:83-100). `(unsigned) p2 + 1` is 32-bit arithmetic. -/
def addOdometry (g : PoseGraph K) (m : Meas K) : Res (PoseGraph K) :=
  if g.hasMeasurement m.src m.dst then ok g
  else do
    check (m.r1 == g.id)
    check (m.r2 == g.id)
    check (u64 (m.p1 + 1) == m.p2)
    check (g.dimsOk m)
    let odo := g.odometry ++ [m]
    ok { g with
      n := max g.n (u32 (u32 m.p2 + 1))
      odometry := odo
      edgeIndex := g.edgeIndex.emplace m.edge (odo.length - 1) }

/-- `addPrivateLoopClosure` (src/PoseGraph.cpp:102-118). -/
def addPrivateLoopClosure (g : PoseGraph K) (m : Meas K) : Res (PoseGraph K) :=
  if g.hasMeasurement m.src m.dst then ok g
  else do
    check (m.r1 == g.id)
    check (m.r2 == g.id)
    check (g.dimsOk m)
    let lcs := g.privateLcs ++ [m]
    ok { g with
      n := max g.n (u32 (max (u64 (m.p1 + 1)) (u64 (m.p2 + 1))))
      privateLcs := lcs
      edgeIndex := g.edgeIndex.emplace m.edge (lcs.length - 1) }

/-- `addSharedLoopClosure` (src/PoseGraph.cpp:120-148). -/
def addSharedLoopClosure (g : PoseGraph K) (m : Meas K) : Res (PoseGraph K) :=
  if g.hasMeasurement m.src m.dst then ok g
  else do
    check (g.dimsOk m)
    let lcs := g.sharedLcs ++ [m]
    if m.r1 == g.id then do
      check (m.r2 != g.id)
      ok { g with
        n := max g.n (u32 (u32 m.p1 + 1))
        localShared := OSet.insert ltPoseID (PoseID.make m.r1 m.p1) g.localShared
        nbrShared := OSet.insert ltPoseID (PoseID.make m.r2 m.p2) g.nbrShared
        nbrRobots := OSet.insert ltNat (u32 m.r2) g.nbrRobots
        nbrActive := OMap.insert ltNat (u32 m.r2) true g.nbrActive
        sharedLcs := lcs
        edgeIndex := g.edgeIndex.emplace m.edge (lcs.length - 1) }
    else do
      check (m.r2 == g.id)
      ok { g with
        n := max g.n (u32 (u32 m.p2 + 1))
        localShared := OSet.insert ltPoseID (PoseID.make m.r2 m.p2) g.localShared
        nbrShared := OSet.insert ltPoseID (PoseID.make m.r1 m.p1) g.nbrShared
        nbrRobots := OSet.insert ltNat (u32 m.r1) g.nbrRobots
        nbrActive := OMap.insert ltNat (u32 m.r1) true g.nbrActive
        sharedLcs := lcs
        edgeIndex := g.edgeIndex.emplace m.edge (lcs.length - 1) }

/-- `addMeasurement` (src/PoseGraph.cpp:68-81). -/
def addMeasurement (g : PoseGraph K) (m : Meas K) : Res (PoseGraph K) :=
  if m.r1 != g.id && m.r2 != g.id then ok g
  else if m.r1 == g.id && m.r2 == g.id then
    if u64 (m.p1 + 1) == m.p2 then g.addOdometry m else g.addPrivateLoopClosure m
  else g.addSharedLoopClosure m

/-- `setMeasurements` (src/PoseGraph.cpp:61-66). -/
def setMeasurements (g : PoseGraph K) (ms : List (Meas K)) : Res (PoseGraph K) :=
  Res.foldl addMeasurement g.empty ms

/-- `numMeasurements` (src/PoseGraph.cpp:57-59). -/
def numMeasurements (g : PoseGraph K) : Nat :=
  g.odometry.length + g.privateLcs.length + g.sharedLcs.length

/-- `sharedLoopClosuresWithRobot` (src/PoseGraph.cpp:150-157). -/
def sharedLoopClosuresWithRobot (g : PoseGraph K) (nid : Nat) : List (Meas K) :=
  g.sharedLcs.filter fun m => m.r1 == nid || m.r2 == nid

/-- `measurements` (src/PoseGraph.cpp:159-164). -/
def measurements (g : PoseGraph K) : List (Meas K) := g.odometry ++ g.privateLcs ++ g.sharedLcs

/-- `localMeasurements` (src/PoseGraph.cpp:166-170). -/
def localMeasurements (g : PoseGraph K) : List (Meas K) := g.odometry ++ g.privateLcs

/-- `setPrior` (src/PoseGraph.cpp:176-181): no cache is dropped. -/
def setPrior (g : PoseGraph K) (index : Nat) (Xi : PArr K) : Res (PoseGraph K) := do
  check (decide (index < g.n))
  check (g.d == Xi.d)
  check (g.r == Xi.r)
  ok { g with priors := OMap.insert ltNat index Xi g.priors }

/-- `setNeighborPoses` (src/PoseGraph.cpp:183-186): drops `G`, keeps `Q`. -/
def setNeighborPoses (g : PoseGraph K) (dict : PoseDict K) : PoseGraph K :=
  { g with neighborPoses := dict, G := none }

/-- `hasNeighbor` (src/PoseGraph.cpp:188-190). -/
def hasNeighbor (g : PoseGraph K) (rid : Nat) : Bool := OSet.contains ltNat rid g.nbrRobots

/-- `isNeighborActive` (src/PoseGraph.cpp:192-197); `std::map::at` throws on a missing key. -/
def isNeighborActive (g : PoseGraph K) (nid : Nat) : Res Bool :=
  if !g.hasNeighbor nid then ok false
  else match OMap.find? ltNat nid g.nbrActive with
    | some b => ok b
    | none => throws

/-- `setNeighborActive` (src/PoseGraph.cpp:199-207). -/
def setNeighborActive (g : PoseGraph K) (nid : Nat) (active : Bool) : Res (PoseGraph K) :=
  if !g.hasNeighbor nid then ok g
  else match OMap.find? ltNat nid g.nbrActive with
    | none => throws
    | some b =>
      let g := if b != active then g.clearDataMatrices else g
      ok { g with nbrActive := OMap.insert ltNat nid active g.nbrActive }

/-- `requireNeighborPose` (src/PoseGraph.cpp:209-211). -/
def requireNeighborPose (g : PoseGraph K) (p : PoseID) : Bool := OSet.contains ltPoseID p g.nbrShared

/-- A pointer to a stored measurement (an element of one of the three vectors). -/
inductive MPtr where
  | odo (i : Nat)
  | priv (i : Nat)
  | shared (i : Nat)
  deriving DecidableEq, Repr

/-- Dereference; `none` is an out-of-range element. -/
def deref (g : PoseGraph K) : MPtr → Option (Meas K)
  | .odo i => g.odometry[i]?
  | .priv i => g.privateLcs[i]?
  | .shared i => g.sharedLcs[i]?

/-- Write the mutable fields `weight` and `fixedWeight` through a pointer. -/
def writeWeight (g : PoseGraph K) (p : MPtr) (w : K) (fixed : Bool) : PoseGraph K :=
  let upd : Meas K → Meas K := fun m => { m with weight := w, fixedWeight := fixed }
  match p with
  | .odo i => { g with odometry := g.odometry.modify i upd }
  | .priv i => { g with privateLcs := g.privateLcs.modify i upd }
  | .shared i => { g with sharedLcs := g.sharedLcs.modify i upd }

/-- `findMeasurement` (src/PoseGraph.cpp:218-239); indexing a vector out of range is UB. -/
def findMeasurement (g : PoseGraph K) (src dst : PoseID) : Res (Option MPtr) :=
  match g.edgeIndex.get? ⟨src, dst⟩ with
  | none => ok none
  | some index =>
    let e : EdgeID := ⟨src, dst⟩
    let p := if e.isOdometry then MPtr.odo index
      else if e.isPrivateLoopClosure then MPtr.priv index
      else MPtr.shared index
    match g.deref p with
    | none => ub
    | some m => do
      check (m.r1 == src.robot)
      check (m.p1 == src.frame)
      check (m.r2 == dst.robot)
      check (m.p2 == dst.frame)
      ok (some p)

/-- `allLoopClosures` (src/PoseGraph.cpp:241-250). -/
def allLoopClosures (g : PoseGraph K) : List MPtr :=
  (List.range g.privateLcs.length).map MPtr.priv ++ (List.range g.sharedLcs.length).map MPtr.shared

/-- `activeNeighborIDs` (src/PoseGraph.cpp:252-260). -/
def activeNeighborIDs (g : PoseGraph K) : Res (OSet Nat) :=
  Res.foldl (fun out nid => do
    let a ← g.isNeighborActive nid
    ok (if a then OSet.insert ltNat nid out else out)) [] g.nbrRobots

/-- `numActiveNeighbors` (src/PoseGraph.cpp:262-264). -/
def numActiveNeighbors (g : PoseGraph K) : Res Nat := do
  let ids ← g.activeNeighborIDs
  ok ids.length

/-- `activeNeighborPublicPoseIDs` (src/PoseGraph.cpp:266-274). -/
def activeNeighborPublicPoseIDs (g : PoseGraph K) : Res (OSet PoseID) :=
  Res.foldl (fun out pid => do
    let a ← g.isNeighborActive pid.robot
    ok (if a then OSet.insert ltPoseID pid out else out)) [] g.nbrShared

/-- Activity test used in the loops of `activeLoopClosures` (src/PoseGraph.cpp:281-288);
the arguments `m.r1`, `m.r2` are converted to `unsigned`. -/
def lcActive (g : PoseGraph K) (m : Meas K) : Res Bool := do
  let a ← if m.r1 == g.id then g.isNeighborActive (u32 m.r2) else ok false
  if a then ok true
  else if m.r2 == g.id then g.isNeighborActive (u32 m.r1) else ok false

/-- Negated test used in `inactiveLoopClosures` (src/PoseGraph.cpp:294-301). -/
def lcInactive (g : PoseGraph K) (m : Meas K) : Res Bool := do
  let a ← if m.r1 == g.id then (do let b ← g.isNeighborActive (u32 m.r2); ok (!b)) else ok false
  if a then ok true
  else if m.r2 == g.id then (do let b ← g.isNeighborActive (u32 m.r1); ok (!b)) else ok false

/-- Pointers to the shared loop closures (in order, starting at index `i`) that pass `test`. -/
def selectShared (test : Meas K → Res Bool) : Nat → List (Meas K) → Res (List MPtr)
  | _, [] => ok []
  | i, m :: l => do
    let b ← test m
    let rest ← selectShared test (i + 1) l
    ok (if b then MPtr.shared i :: rest else rest)

/-- `activeLoopClosures` (src/PoseGraph.cpp:276-290). -/
def activeLoopClosures (g : PoseGraph K) : Res (List MPtr) := do
  let s ← selectShared g.lcActive 0 g.sharedLcs
  ok ((List.range g.privateLcs.length).map MPtr.priv ++ s)

/-- `inactiveLoopClosures` (src/PoseGraph.cpp:292-303). -/
def inactiveLoopClosures (g : PoseGraph K) : Res (List MPtr) :=
  selectShared g.lcInactive 0 g.sharedLcs

/-- `PoseGraph::Statistics` (include/DPGO/PoseGraph.h:32-43); the counters are whole numbers. -/
structure Statistics where
  total : Nat
  accept : Nat
  reject : Nat
  /-- `undecided = total - accept - reject` computed in doubles, hence an integer here -/
  undecided : Int
  deriving DecidableEq, Repr

variable [DecidableEq K] [Zero K] [One K]

/-- Counting one loop closure (src/PoseGraph.cpp:313-318, 328-333). -/
def countLc (acc : Nat × Nat × Nat) (m : Meas K) : Nat × Nat × Nat :=
  let (t, a, r) := acc
  if m.weight = 1 then (t + 1, a + 1, r)
  else if m.weight = 0 then (t + 1, a, r + 1)
  else (t + 1, a, r)

/-- Loop body for shared loop closures (src/PoseGraph.cpp:320-334). -/
def countShared (g : PoseGraph K) (acc : Nat × Nat × Nat) (m : Meas K) : Res (Nat × Nat × Nat) := do
  let skip1 ← if m.r1 == g.id then (do let b ← g.isNeighborActive (u32 m.r2); ok (!b)) else ok false
  if skip1 then ok acc
  else do
    let skip2 ← if m.r2 == g.id then (do let b ← g.isNeighborActive (u32 m.r1); ok (!b)) else ok false
    if skip2 then ok acc else ok (countLc acc m)

/-- `statistics` (src/PoseGraph.cpp:305-343). -/
def statistics (g : PoseGraph K) : Res Statistics := do
  let acc := g.privateLcs.foldl countLc (0, 0, 0)
  let (t, a, r) ← Res.foldl g.countShared acc g.sharedLcs
  ok ⟨t, a, r, (t : Int) - a - r⟩

omit [DecidableEq K] [Zero K] [One K] in
/-- `updatePublicPoseIDs` (src/PoseGraph.cpp:615-630). -/
def updatePublicPoseIDs (g : PoseGraph K) : Res (PoseGraph K) :=
  Res.foldl (fun (h : PoseGraph K) (m : Meas K) =>
    if m.r1 == h.id then do
      check (m.r2 != h.id)
      ok { h with
        localShared := OSet.insert ltPoseID (PoseID.make m.r1 m.p1) h.localShared
        nbrShared := OSet.insert ltPoseID (PoseID.make m.r2 m.p2) h.nbrShared }
    else do
      check (m.r2 == h.id)
      ok { h with
        localShared := OSet.insert ltPoseID (PoseID.make m.r2 m.p2) h.localShared
        nbrShared := OSet.insert ltPoseID (PoseID.make m.r1 m.p1) h.nbrShared })
    { g with localShared := [], nbrShared := [] } g.sharedLcs

omit [DecidableEq K] [Zero K] [One K] in
/-- `useInactiveNeighbors` (src/PoseGraph.cpp:632-635). -/
def useInactiveNeighbors (g : PoseGraph K) (use : Bool) : PoseGraph K :=
  clearDataMatrices { g with useInactive := use }

end PoseGraph
end Dpgo
