import Verif.Basic.OMap

/-!
# Identifiers (`include/DPGO/DPGO_types.h`)
-/

namespace Dpgo

/-- Conversion to `unsigned int` (32 bits), performed implicitly by the constructors of `PoseID`
and by calls taking `unsigned` parameters. -/
def u32 (x : Nat) : Nat := x % 2 ^ 32

/-- `size_t` arithmetic (64 bits). -/
def u64 (x : Nat) : Nat := x % 2 ^ 64

/-- `class PoseID` (include/DPGO/DPGO_types.h:110-120). -/
structure PoseID where
  robot : Nat
  frame : Nat
  deriving DecidableEq, Repr

/-- `PoseID(unsigned rid, unsigned fid)` (DPGO_types.h:114): arguments of type `size_t` are
truncated to 32 bits. -/
def PoseID.make (rid fid : Nat) : PoseID := ⟨u32 rid, u32 fid⟩

/-- `ComparePoseID` (DPGO_types.h:122-128): lexicographic comparison of pairs. -/
def ltPoseID (a b : PoseID) : Bool :=
  decide (a.robot < b.robot) || (!(decide (b.robot < a.robot)) && decide (a.frame < b.frame))

/-- Comparison of `std::set<unsigned>` / `std::map<unsigned, …>`. -/
def ltNat (a b : Nat) : Bool := decide (a < b)

/-- `class EdgeID` (DPGO_types.h:131-136). -/
structure EdgeID where
  src : PoseID
  dst : PoseID
  deriving DecidableEq, Repr

/-- `EdgeID::isOdometry` (DPGO_types.h:141-144); `frame_id + 1` is 32-bit unsigned arithmetic. -/
def EdgeID.isOdometry (e : EdgeID) : Bool :=
  e.src.robot == e.dst.robot && u32 (e.src.frame + 1) == e.dst.frame

/-- `EdgeID::isPrivateLoopClosure` (DPGO_types.h:145-148). -/
def EdgeID.isPrivateLoopClosure (e : EdgeID) : Bool :=
  e.src.robot == e.dst.robot && u32 (e.src.frame + 1) != e.dst.frame

/-- `EdgeID::isSharedLoopClosure` (DPGO_types.h:149-151). -/
def EdgeID.isSharedLoopClosure (e : EdgeID) : Bool := e.src.robot != e.dst.robot

/-- Lexicographic `<` on 4-tuples of `unsigned` as generated by `std::tuple` comparison. -/
def ltTuple4 (a b : Nat × Nat × Nat × Nat) : Bool :=
  decide (a.1 < b.1) || (!(decide (b.1 < a.1)) &&
    (decide (a.2.1 < b.2.1) || (!(decide (b.2.1 < a.2.1)) &&
      (decide (a.2.2.1 < b.2.2.1) || (!(decide (b.2.2.1 < a.2.2.1)) &&
        decide (a.2.2.2 < b.2.2.2))))))

/-- `CompareEdgeID` (DPGO_types.h:154-167). -/
def ltEdgeID (a b : EdgeID) : Bool :=
  ltTuple4 (a.src.robot, a.dst.robot, a.src.frame, a.dst.frame)
    (b.src.robot, b.dst.robot, b.src.frame, b.dst.frame)

/-- Association list standing for `std::unordered_map` keyed by `EdgeID`
(`edge_id_to_index_`, include/DPGO/PoseGraph.h:378); its order is never observed. -/
abbrev EdgeMap := List (EdgeID × Nat)

/-- `edge_id_to_index_.find(e)`. -/
def EdgeMap.get? (m : EdgeMap) (e : EdgeID) : Option Nat :=
  match m with
  | [] => none
  | (e', i) :: t => if e' = e then some i else EdgeMap.get? t e

/-- `edge_id_to_index_.emplace(e, i)`: no effect when the key exists. -/
def EdgeMap.emplace (m : EdgeMap) (e : EdgeID) (i : Nat) : EdgeMap :=
  if (m.get? e).isSome then m else (e, i) :: m

end Dpgo
