/-!
# Threads, locks and the optimisation thread of an agent

What each function of `PGOAgent` locks, which shared data it touches under which locks, and how it starts and
stops the optimisation thread.  Values are left out: branches on data are free choices (`either`), loops over
data run any number of times (`many`), so there are at least the executions of the code.  A failed `CHECK` ends
the process; it is shown only where it guards the optimisation thread.  Memory is sequentially consistent.
-/

namespace Dpgo.Conc

/-- The mutexes (include/DPGO/PGOAgent.h:638-645). -/
inductive Lock where
  | poses | measurements | neighbors
  deriving DecidableEq, Repr

/-- Shared data followed here: `X` (PGOAgent.h:567), `Y`, `V`, `XPrev` (:741-748), both dictionaries of
neighbour poses (:636, :733). -/
inductive Cell where
  | estimate | auxiliary | neighborPoses
  deriving DecidableEq, Repr

/-- Atomic actions. -/
inductive Act where
  | read (c : Cell)
  | write (c : Cell)
  /-- `mEndLoopRequested = true` (src/PGOAgent.cpp:503) -/
  | request
  /-- `mOptimizationThread->join()` (:505) -/
  | join
  /-- `mOptimizationThread.reset(nullptr)` (:506) -/
  | drop
  /-- `mEndLoopRequested = false` (:507) -/
  | clear
  /-- `mOptimizationThread = std::make_unique<thread>(...)` (:483) -/
  | spawn
  /-- a failed `CHECK` -/
  | abort
  deriving DecidableEq, Repr

/-- Function bodies.  `unlock`, `test` only arise during execution. -/
inductive Cmd where
  | skip
  | act (a : Act)
  | seq (a b : Cmd)
  | either (a b : Cmd)
  | many (a : Cmd)
  /-- a scope with a `lock_guard` or `unique_lock` -/
  | hold (l : Lock) (a : Cmd)
  /-- branch on `isOptimizationRunning()` (src/PGOAgent.cpp:511-513) -/
  | ifRunning (a b : Cmd)
  /-- end of the scope of a lock -/
  | unlock (l : Lock)
  /-- next round of `runOptimizationLoop` (src/PGOAgent.cpp:486-499) -/
  | loop (a : Cmd)
  /-- its check of `mEndLoopRequested` (:495) -/
  | test (a : Cmd)
  deriving DecidableEq, Repr

namespace Cmd

infixr:60 " ;; " => Cmd.seq

/-- A branch on the parameters, which never change (`const`, PGOAgent.h:570). -/
def cond (b : Bool) (a : Cmd) : Cmd := if b then a else skip

/-- A branch on data without `else`. -/
def maybe (a : Cmd) : Cmd := either skip a

def read (c : Cell) : Cmd := act (.read c)

def write (c : Cell) : Cmd := act (.write c)

end Cmd

open Cmd

/-- Parameters that decide which locks are taken. -/
structure Config where
  /-- `acceleration` -/
  acceleration : Bool
  /-- `robustCostParams.costType != L2` -/
  robust : Bool
  /-- `robustOptNumResets > 0` -/
  resets : Bool
  /-- `asynchronous` -/
  asynchronous : Bool
  /-- `logData` -/
  logData : Bool
  deriving DecidableEq, Repr

/-- `startOptimizationLoop` after its check of `acceleration` (src/PGOAgent.cpp:478-483). -/
def startLoop : Cmd := ifRunning skip (act .spawn)

/-- `startOptimizationLoop` (src/PGOAgent.cpp:475-484). -/
def start (cfg : Config) : Cmd := if cfg.acceleration then act .abort else startLoop

/-- `endOptimizationLoop` (src/PGOAgent.cpp:501-509). -/
def endLoop : Cmd := ifRunning (act .request ;; act .join ;; act .drop ;; act .clear) skip

/-- `clearNeighborPoses` (src/PGOAgent.cpp:704-708); also `clearActiveNeighborPoses` (:710-716). -/
def clearPoses : Cmd := hold .neighbors (write .neighborPoses)

/-- `initializeAcceleration` (src/PGOAgent.cpp:899-908). -/
def initAcceleration : Cmd := maybe (read .estimate ;; write .auxiliary)

/-- `setXToInitialGuess` (src/PGOAgent.cpp:65-70). -/
def toInitialGuess : Cmd := hold .poses (write .estimate)

/-- `updateX` (src/PGOAgent.cpp:938-995). -/
def updateX (doOpt accel : Bool) : Cmd :=
  hold .poses (hold .measurements (hold .neighbors
    (if doOpt then
      read .neighborPoses ;; maybe (read (if accel then .auxiliary else .estimate) ;; write .estimate)
    else cond accel (read .auxiliary ;; write .estimate))))

/-- `restartNesterovAcceleration` (src/PGOAgent.cpp:887-897). -/
def restart (cfg : Config) (doOpt : Bool) : Cmd :=
  cond cfg.acceleration (maybe (read .auxiliary ;; write .estimate ;; updateX doOpt false ;;
    read .estimate ;; write .auxiliary))

/-- `iterate` (src/PGOAgent.cpp:376-432). -/
def iterate (cfg : Config) (doOpt : Bool) : Cmd :=
  maybe (read .estimate ;; write .auxiliary ;;
    (if cfg.acceleration then
      read .estimate ;; read .auxiliary ;; write .auxiliary ;; updateX doOpt true ;;
        read .estimate ;; read .auxiliary ;; write .auxiliary ;; maybe (restart cfg doOpt)
    else updateX doOpt false) ;;
    cond doOpt (read .estimate ;; read .auxiliary))

/-- `initializeRobustOptimization` (src/PGOAgent.cpp:1048-1060). -/
def initRobust : Cmd := hold .measurements skip

/-- `initializeInGlobalFrame` under its lock (src/PGOAgent.cpp:322-370). -/
def globalFrame (cfg : Config) : Cmd :=
  clearPoses ;; write .estimate ;; cond cfg.robust initRobust ;; cond cfg.acceleration initAcceleration

/-- `initializeInGlobalFrame` (src/PGOAgent.cpp:308-374); the optimisation thread is restarted under the
lock (:373). -/
def inGlobalFrame (cfg : Config) : Cmd :=
  ifRunning (endLoop ;; hold .poses (globalFrame cfg ;; start cfg)) (hold .poses (globalFrame cfg))

/-- `setMeasurementWeight` (src/PGOAgent.cpp:1144-1155). -/
def setWeight : Cmd := maybe (hold .measurements skip)

/-- `initialize` (src/PGOAgent.cpp:199-306). -/
def init (cfg : Config) : Cmd :=
  maybe (endLoop ;; maybe (many setWeight ;; write .estimate ;; maybe (inGlobalFrame cfg) ;;
    cond cfg.asynchronous (start cfg)))

/-- Queries that copy the estimate under its lock (src/PGOAgent.cpp:72-85, 97-130, 718-787). -/
def query : Cmd := maybe (hold .poses (read .estimate))

/-- Queries that copy the auxiliary sequence under the same lock (src/PGOAgent.cpp:87-95, 132-166). -/
def auxQuery : Cmd := maybe (hold .poses (read .auxiliary))

/-- `reset` (src/PGOAgent.cpp:434-473). -/
def reset (cfg : Config) : Cmd :=
  endLoop ;; cond cfg.logData (query ;; read .estimate) ;; clearPoses

/-- `computeMeasurementResidual` (src/PGOAgent.cpp:1062-1102). -/
def residual : Cmd := maybe (read .estimate ;; maybe (read .neighborPoses))

/-- `updateMeasurementWeights` (src/PGOAgent.cpp:1104-1142). -/
def updateWeights (cfg : Config) : Cmd :=
  maybe (hold .measurements (many residual ;; cond cfg.resets (maybe (toInitialGuess ;; clearPoses)) ;;
    cond cfg.acceleration initAcceleration))

/-- Functions that may be called by another thread. -/
inductive Call where
  | setX | setXToInitialGuess | getX | getSharedPose | getAuxSharedPose | getSharedPoseDict
  | getSharedPoseDictWithNeighbor | getAuxSharedPoseDict | getAuxSharedPoseDictWithNeighbor
  | addMeasurement | setMeasurements | initialize | initializeInGlobalFrame | iterate (doOpt : Bool) | reset
  | startOptimizationLoop | endOptimizationLoop | destructor | updateNeighborPoses | updateAuxNeighborPoses
  | clearNeighborPoses | clearActiveNeighborPoses | getTrajectoryInLocalFrame | getTrajectoryInGlobalFrame
  | getPoseInGlobalFrame | getNeighborPoseInGlobalFrame | restartNesterovAcceleration (doOpt : Bool)
  | initializeAcceleration | initializeRobustOptimization | computeMeasurementResidual
  | updateMeasurementWeights | setMeasurementWeight | anchorFirstPose
  /-- functions without locks that touch none of the cells: `setLiftingMatrix`, `getLiftingMatrix`,
  `setGlobalAnchor`, status functions, `hasNeighbor`, `getNeighbors`, `shouldTerminate`, `shouldRestart`,
  `shouldUpdateMeasurementWeights`, `setRobotActive`, … -/
  | other
  deriving DecidableEq, Repr

/-- The body of each function. -/
def prog (cfg : Config) : Call → Cmd
  /- src/PGOAgent.cpp:52-63 -/
  | .setX => hold .poses (write .estimate ;; cond cfg.acceleration initAcceleration)
  | .setXToInitialGuess => toInitialGuess
  /- src/PGOAgent.cpp:72-76 -/
  | .getX => hold .poses (read .estimate)
  | .getSharedPose => query
  | .getAuxSharedPose => auxQuery
  | .getSharedPoseDict => query
  | .getSharedPoseDictWithNeighbor => query
  | .getAuxSharedPoseDict => auxQuery
  | .getAuxSharedPoseDictWithNeighbor => auxQuery
  /- src/PGOAgent.cpp:174-182 -/
  | .addMeasurement => maybe (hold .measurements skip)
  /- src/PGOAgent.cpp:184-197: no lock; aborts while the optimisation thread runs -/
  | .setMeasurements => ifRunning (act .abort) skip
  | .initialize => init cfg
  | .initializeInGlobalFrame => inGlobalFrame cfg
  | .iterate b => iterate cfg b
  | .reset => reset cfg
  | .startOptimizationLoop => start cfg
  | .endOptimizationLoop => endLoop
  /- src/PGOAgent.cpp:47-50 -/
  | .destructor => endLoop
  /- src/PGOAgent.cpp:650-678; storing poses locks and writes like clearing them -/
  | .updateNeighborPoses => maybe (maybe (inGlobalFrame cfg) ;; maybe clearPoses)
  /- src/PGOAgent.cpp:680-702 -/
  | .updateAuxNeighborPoses => maybe clearPoses
  | .clearNeighborPoses => clearPoses
  | .clearActiveNeighborPoses => clearPoses
  | .getTrajectoryInLocalFrame => query
  | .getTrajectoryInGlobalFrame => query
  | .getPoseInGlobalFrame => query
  /- src/PGOAgent.cpp:789-810 -/
  | .getNeighborPoseInGlobalFrame => maybe (hold .neighbors (read .neighborPoses))
  | .restartNesterovAcceleration b => restart cfg b
  | .initializeAcceleration => initAcceleration
  | .initializeRobustOptimization => initRobust
  | .computeMeasurementResidual => residual
  | .updateMeasurementWeights => updateWeights cfg
  | .setMeasurementWeight => setWeight
  /- src/PGOAgent.cpp:1196-1205 -/
  | .anchorFirstPose => maybe (read .estimate)
  | .other => skip

/-- Threads: the optimisation thread and those of the user. -/
inductive Thread where
  | loop
  | api (n : Nat)
  deriving DecidableEq, Repr

/-- `mOptimizationThread` (PGOAgent.h:647-648): empty, a thread not yet joined, or one already joined. -/
inductive Handle where
  | null | joinable | joined
  deriving DecidableEq, Repr

/-- The agent and its threads; `stack` is what each thread still has to do. -/
structure State where
  owner : Lock → Option Thread
  stack : Thread → List Cmd
  handle : Handle
  /-- `mEndLoopRequested` -/
  flag : Bool
  /-- rounds of the optimisation thread begun so far -/
  rounds : Nat
  /-- optimisation threads created so far -/
  spawned : Nat
  /-- the process has ended abnormally -/
  crashed : Bool

/-- A new agent; no call in progress. -/
def State.new : State :=
  { owner := fun _ => none, stack := fun _ => [], handle := .null, flag := false, rounds := 0, spawned := 0
    crashed := false }

/-- Function update. -/
def upd {α β : Type} [DecidableEq α] (f : α → β) (a : α) (b : β) : α → β := fun x => if x = a then b else f x

namespace State

def set (s : State) (t : Thread) (k : List Cmd) : State := { s with stack := upd s.stack t k }

def crash (s : State) : State := { s with crashed := true }

end State

/-- Thread `t` executes the first of its commands; `k` are the others.  Acquiring a lock that is not free and
joining a thread that has not finished are not possible, i.e. `t` waits. -/
inductive Exec (cfg : Config) (s : State) (t : Thread) : Cmd → List Cmd → State → Prop
  | skip {k} : Exec cfg s t .skip k (s.set t k)
  | seq {a b k} : Exec cfg s t (.seq a b) k (s.set t (a :: b :: k))
  | left {a b k} : Exec cfg s t (.either a b) k (s.set t (a :: k))
  | right {a b k} : Exec cfg s t (.either a b) k (s.set t (b :: k))
  | done {a k} : Exec cfg s t (.many a) k (s.set t k)
  | more {a k} : Exec cfg s t (.many a) k (s.set t (a :: .many a :: k))
  | acquire {l a k} (h : s.owner l = none) :
      Exec cfg s t (.hold l a) k ({ s with owner := upd s.owner l (some t) }.set t (a :: .unlock l :: k))
  | release {l k} : Exec cfg s t (.unlock l) k ({ s with owner := upd s.owner l none }.set t k)
  | running {a b k} (h : s.handle ≠ .null) : Exec cfg s t (.ifRunning a b) k (s.set t (a :: k))
  | idle {a b k} (h : s.handle = .null) : Exec cfg s t (.ifRunning a b) k (s.set t (b :: k))
  | read {c k} : Exec cfg s t (.act (.read c)) k (s.set t k)
  | write {c k} : Exec cfg s t (.act (.write c)) k (s.set t k)
  | request {k} : Exec cfg s t (.act .request) k ({ s with flag := true }.set t k)
  | join {k} (h : s.handle = .joinable) (h' : s.stack .loop = []) :
      Exec cfg s t (.act .join) k ({ s with handle := .joined }.set t k)
  /-- null pointer, or `join` throws -/
  | joinCrash {k} (h : s.handle ≠ .joinable) : Exec cfg s t (.act .join) k s.crash
  | drop {k} (h : s.handle ≠ .joinable) : Exec cfg s t (.act .drop) k ({ s with handle := .null }.set t k)
  /-- the destructor of a `std::thread` not joined calls `std::terminate` -/
  | dropCrash {k} (h : s.handle = .joinable) : Exec cfg s t (.act .drop) k s.crash
  | clear {k} : Exec cfg s t (.act .clear) k ({ s with flag := false }.set t k)
  | spawn {k} (h : s.handle ≠ .joinable) :
      Exec cfg s t (.act .spawn) k
        (({ s with handle := .joinable, spawned := s.spawned + 1 }.set .loop [.loop (iterate cfg true)]).set t k)
  /-- the old thread object is destroyed without being joined -/
  | spawnCrash {k} (h : s.handle = .joinable) : Exec cfg s t (.act .spawn) k s.crash
  | abort {k} : Exec cfg s t (.act .abort) k s.crash
  | round {a k} : Exec cfg s t (.loop a) k ({ s with rounds := s.rounds + 1 }.set t (a :: .test a :: k))
  | again {a k} (h : s.flag = false) : Exec cfg s t (.test a) k (s.set t (.loop a :: k))
  | finish {a k} (h : s.flag = true) : Exec cfg s t (.test a) k (s.set t k)

/-- What happens: a user thread calls a function, or a thread takes a step. -/
inductive Event where
  | call (n : Nat) (c : Call)
  | move (t : Thread)
  deriving DecidableEq, Repr

/-- One event; `may n c` says which functions user thread `n` calls. -/
inductive Step (cfg : Config) (may : Nat → Call → Prop) (s : State) : Event → State → Prop
  | call {n c} (h : s.crashed = false) (hm : may n c) (hi : s.stack (.api n) = []) :
      Step cfg may s (.call n c) (s.set (.api n) [prog cfg c])
  | move {t c k s'} (h : s.crashed = false) (hs : s.stack t = c :: k) (he : Exec cfg s t c k s') :
      Step cfg may s (.move t) s'

/-- Executions, with their events. -/
inductive Path (cfg : Config) (may : Nat → Call → Prop) (s : State) : List Event → State → Prop
  | nil : Path cfg may s [] s
  | snoc {es s₁ e s₂} : Path cfg may s es s₁ → Step cfg may s₁ e s₂ → Path cfg may s (es ++ [e]) s₂

/-- States reachable from a new agent. -/
def Reach (cfg : Config) (may : Nat → Call → Prop) (s : State) : Prop := ∃ es, Path cfg may .new es s

end Dpgo.Conc
