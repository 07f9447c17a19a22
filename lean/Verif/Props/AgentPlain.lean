import Verif.Lemmas.AgentPlain
import Verif.Props.AgentShared

/-!
# The auxiliary poses of a robot that does not accelerate (C36, C37)
-/

namespace Dpgo.Props

open Res Spec PoseGraph

variable {o : AgentOracles} {ID : Nat} {p : AgentParams} {a : Agent}

/-- **C36** (no acceleration): the auxiliary arrays keep the single identity pose they are constructed with, whatever
calls are made and however many poses the robot has. -/
theorem C36_auxiliary_unused (h : AgReach o ID p a) (hp : p.acceleration = false) :
    ∀ B, B = a.Y ∨ B = a.V → ArrOk p.r p.d 1 B ∧
      (∀ ρ c, ρ < p.r → c < p.d → B.X.v ρ c = if ρ = c then 1 else 0) ∧ ∀ ρ < p.r, B.X.v ρ p.d = 0 := by
  obtain ⟨-, -, -, hrd⟩ := reach_dims (agReach_inv h).reach
  obtain ⟨P, e, hP, hv⟩ := PArr.make_ok (K := ℝ) (r := p.r) (d := p.d) (n := 1) hrd
  obtain ⟨h1, h2⟩ := reach_plain h hp
  have key : ∀ B : PArr ℝ, PArr.make p.r p.d 1 = ok B → ArrOk p.r p.d 1 B ∧
      (∀ ρ c, ρ < p.r → c < p.d → B.X.v ρ c = if ρ = c then 1 else 0) ∧ ∀ ρ < p.r, B.X.v ρ p.d = 0 := by
    intro B hB
    rw [e] at hB
    cases hB
    obtain ⟨v1, v2⟩ := hv 0 (by omega)
    refine ⟨hP, fun ρ c hρ hc => ?_, fun ρ hρ => ?_⟩
    · have := v1 ρ c hρ hc
      rwa [Nat.zero_mul, Nat.zero_add] at this
    · have := v2 ρ hρ
      rwa [Nat.zero_mul, Nat.zero_add] at this
  rintro B (rfl | rfl)
  · exact key _ h1
  · exact key _ h2

/-- **C37** (no acceleration): the query for the auxiliary poses of one neighbour is the only one that does not check
that acceleration is on.  It fails another check as soon as a measurement shared with that neighbour is at an own pose
other than the first; otherwise it returns the pose of the constructor, wherever the robot is. -/
theorem C37_aux_unaccelerated (h : AgReach o ID p a) (hp : p.acceleration = false) (hs : a.state = .INITIALIZED)
    {j : Nat} (hj : j ≠ ID) :
    a.getAuxSharedPoseDict = abort ∧ (∀ i, a.getAuxSharedPose i = abort) ∧
    ((∃ k, NeededBy ID j a.graph k ∧ k.frame ≠ 0) → a.getAuxSharedPoseDictWithNeighbor j = abort) ∧
    ((∀ k, NeededBy ID j a.graph k → k.frame = 0) →
      ∃ B m, PArr.make p.r p.d 1 = ok B ∧ a.getAuxSharedPoseDictWithNeighbor j = ok (some m) ∧
        DictOf p.r p.d (NeededBy ID j a.graph) B m) := by
  have hi := agReach_inv h
  obtain ⟨-, hr, hd, hrd⟩ := reach_dims hi.reach
  obtain ⟨h1, -⟩ := reach_plain h hp
  have hA := make_arr hrd h1
  refine ⟨?_, fun i => ?_, fun hk => ?_, fun hk => ?_⟩
  · unfold Agent.getAuxSharedPoseDict
    rw [hi.params, hp]
    rfl
  · unfold Agent.getAuxSharedPose
    rw [hi.params, hp]
    rfl
  · refine neighborDict_outside hi hs hA hj ?_
    obtain ⟨k, hk, h0⟩ := hk
    exact ⟨k, hk, by omega⟩
  · obtain ⟨m, e, hm⟩ := neighborDict_within hi hs hA hj (fun k c => by rw [hk k c]; exact Nat.zero_lt_one)
    exact ⟨_, m, h1, e, hm⟩

/-- Non-vacuity: the example agent has a measurement between its pose 1 and robot 1, so asking for the auxiliary
poses of robot 1 aborts; asking for those of a stranger gives the empty dictionary. -/
example : ∃ a, AgReach exOracle 0 exParams a ∧ exParams.acceleration = false ∧ a.state = .INITIALIZED ∧
    a.getAuxSharedPoseDictWithNeighbor 1 = abort ∧ ∃ m, a.getAuxSharedPoseDictWithNeighbor 2 = ok (some m) := by
  obtain ⟨a, h1, h2, h3, -⟩ := exInit exParams rfl rfl (by simp [exParams, AgentParams.default])
  have hi := agReach_inv h1
  have hk : (⟨0, 1⟩ : PoseID) ∈ a.graph.localShared := by rw [h3.loc]; simp
  obtain ⟨m, hm, hk⟩ := ((C05_public_ids 0 3 2 a.graph hi.reach).1 _).1 hk
  have hrob : ∀ m ∈ a.graph.sharedLcs, (foreignPose 0 m).robot = 1 := by
    intro m hm
    have : (foreignPose 0 m).robot ∈ a.graph.nbrRobots :=
      ((C05_public_ids 0 3 2 a.graph hi.reach).2.2.1 _).2 ⟨m, hm, rfl⟩
    rw [h3.robots] at this
    exact List.mem_singleton.1 this
  refine ⟨a, h1, rfl, h2, (C37_aux_unaccelerated h1 rfl h2 (by omega)).2.2.1 ⟨⟨0, 1⟩, ⟨m, hm, hrob m hm, hk⟩, by decide⟩, ?_⟩
  obtain ⟨B, m, -, e, -⟩ := (C37_aux_unaccelerated h1 rfl h2 (j := 2) (by omega)).2.2.2 (by
    rintro k ⟨m, hm, hr, -⟩
    rw [hrob m hm] at hr
    cases hr)
  exact ⟨m, e⟩

end Dpgo.Props
