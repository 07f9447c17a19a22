import Verif.Lemmas.AgentShared
import Verif.Lemmas.AgentExample

/-!
# Properties of the agent's shared poses (C36, C37)
-/

namespace Dpgo.Props

open Res Spec PoseGraph

variable {o : AgentOracles} {ID : Nat} {p : AgentParams} {a : Agent}

/-! ## C36 buffers -/

/-- **C36** (sizes) -/
theorem C36_sizes (h : AgReach o ID p a) (hs : a.state = .INITIALIZED) :
    ArrOk p.r p.d a.graph.n a.X ∧ a.getX.rows = p.r ∧ a.getX.cols = (p.d + 1) * a.graph.n ∧
    0 < a.graph.n ∧
    (p.acceleration = true → ArrOk p.r p.d a.graph.n a.Y ∧ ArrOk p.r p.d a.graph.n a.V ∧
      ArrOk p.r p.d a.graph.n a.XPrev) := by
  have hi := agReach_inv h
  have hX := (hi.data (by rw [hs]; decide)).2.2
  exact ⟨hX, hX.2.2.2.1, hX.2.2.2.2, (hi.data (by rw [hs]; decide)).1, hi.accel hs⟩

/-- **C36** (single-pose queries) -/
theorem C36_queries (h : AgReach o ID p a) (hs : a.state = .INITIALIZED) (i : Nat) :
    (i < a.graph.n → ∃ M, a.getSharedPose i = ok (some M) ∧ BlockOf p.r p.d a.X i M) ∧
    (a.graph.n ≤ i → a.getSharedPose i = ok none) ∧
    (p.acceleration = true → i < a.graph.n →
      ∃ M, a.getAuxSharedPose i = ok (some M) ∧ BlockOf p.r p.d a.Y i M) ∧
    (p.acceleration = true → a.graph.n ≤ i → a.getAuxSharedPose i = ok none) := by
  have hi := agReach_inv h
  obtain ⟨hX, -, -, -, hacc⟩ := C36_sizes h hs
  have one : ∀ {B : PArr ℝ}, ArrOk p.r p.d a.graph.n B → i < a.graph.n →
      ∃ M, a.sharedPoseOf B i = ok (some M) ∧ BlockOf p.r p.d B i M := by
    intro B hB hlt
    obtain ⟨-, -, M, hM, m1, m2, m3, m4⟩ := C18_read p.r p.d a.graph.n i B hB hlt
    refine ⟨M, ?_, m1, m2, m3, m4⟩
    unfold Agent.sharedPoseOf Agent.numPoses
    rw [if_neg (by simp [hs]), if_neg (by omega), hM, ok_bind]
  have out : ∀ B : PArr ℝ, a.graph.n ≤ i → a.sharedPoseOf B i = ok none := by
    intro B hge
    unfold Agent.sharedPoseOf Agent.numPoses
    rw [if_neg (by simp [hs]), if_pos (by omega)]
  refine ⟨one hX, out _, fun hp hlt => ?_, fun hp hge => ?_⟩
  · obtain ⟨M, h1, h2⟩ := one (hacc hp).1 hlt
    refine ⟨M, ?_, h2⟩
    unfold Agent.getAuxSharedPose
    rw [hi.params, hp, check_true, ok_bind, h1]
  · unfold Agent.getAuxSharedPose
    rw [hi.params, hp, check_true, ok_bind, out _ hge]

/-- **C36** (other states): every shared-pose query returns false. -/
theorem C36_not_initialized (h : AgReach o ID p a) (hs : a.state ≠ .INITIALIZED) :
    (∀ i, a.getSharedPose i = ok none) ∧ a.getSharedPoseDict = ok none ∧
    (∀ j, a.getSharedPoseDictWithNeighbor j = ok none) ∧
    (∀ j, a.getAuxSharedPoseDictWithNeighbor j = ok none) ∧
    (p.acceleration = true → (∀ i, a.getAuxSharedPose i = ok none) ∧
      a.getAuxSharedPoseDict = ok none) := by
  have hi := agReach_inv h
  refine ⟨fun i => if_pos hs, if_pos hs, fun j => if_pos hs, fun j => if_pos hs,
    fun hp => ⟨fun i => ?_, ?_⟩⟩
  · unfold Agent.getAuxSharedPose
    rw [hi.params, hp, check_true, ok_bind]
    exact if_pos hs
  · unfold Agent.getAuxSharedPoseDict
    rw [hi.params, hp, check_true, ok_bind]
    exact if_pos hs

/-- Both kinds of agents of C36 exist, with acceleration. -/
example : (∃ a, AgReach exOracle 0 { exParams with acceleration := true } a ∧ a.state = .INITIALIZED ∧
      a.graph.n = 2) ∧
    ∃ a, AgReach exOracle 0 { exParams with acceleration := true } a ∧ a.state ≠ .INITIALIZED ∧
      a.graph.n = 2 := by
  obtain ⟨a, h1, h2, h3, -⟩ := exInit { exParams with acceleration := true } rfl rfl
    (by simp [exParams, AgentParams.default])
  obtain ⟨b, g1, g2, g3, -⟩ := exData { exParams with acceleration := true } rfl rfl
  exact ⟨⟨a, h1, h2, h3.n⟩, b, g1, by rw [g2]; decide, g3.n⟩

/-! ## C37 dictionaries -/

/-- **C37** (full dictionary) -/
theorem C37_dict (h : AgReach o ID p a) (hs : a.state = .INITIALIZED) :
    (∃ m, a.getSharedPoseDict = ok (some m) ∧ DictOf p.r p.d (IsPublic ID a.graph) a.X m) ∧
    (p.acceleration = true →
      ∃ m, a.getAuxSharedPoseDict = ok (some m) ∧ DictOf p.r p.d (IsPublic ID a.graph) a.Y m) := by
  have hi := agReach_inv h
  obtain ⟨hX, -, -, -, hacc⟩ := C36_sizes h hs
  constructor
  · obtain ⟨m, e, hm⟩ := sharedDict_ok hi hs hX
    exact ⟨m, e, hm.dictOf⟩
  · intro hp
    obtain ⟨m, e, hm⟩ := sharedDict_ok hi hs (hacc hp).1
    refine ⟨m, ?_, hm.dictOf⟩
    unfold Agent.getAuxSharedPoseDict
    rw [hi.params, hp, check_true, ok_bind, e]

/-- **C37** (per neighbour) -/
theorem C37_neighbor (h : AgReach o ID p a) (hs : a.state = .INITIALIZED) {j : Nat} (hj : j ≠ ID) :
    (∃ m, a.getSharedPoseDictWithNeighbor j = ok (some m) ∧
      DictOf p.r p.d (NeededBy ID j a.graph) a.X m) ∧
    (p.acceleration = true → ∃ m, a.getAuxSharedPoseDictWithNeighbor j = ok (some m) ∧
      DictOf p.r p.d (NeededBy ID j a.graph) a.Y m) := by
  have hi := agReach_inv h
  obtain ⟨hX, -, -, -, hacc⟩ := C36_sizes h hs
  constructor
  · obtain ⟨m, e, hm⟩ := neighborDict_ok hi hs hX hj
    exact ⟨m, e, hm.dictOf⟩
  · intro hp
    obtain ⟨m, e, hm⟩ := neighborDict_ok hi hs (hacc hp).1 hj
    exact ⟨m, e, hm.dictOf⟩

/-- **C37** (union): the entries of the full dictionary are the entries of those of the neighbours. -/
theorem C37_union (h : AgReach o ID p a) (hs : a.state = .INITIALIZED) :
    ∃ (m : PoseDict ℝ) (f : Nat → PoseDict ℝ), a.getSharedPoseDict = ok (some m) ∧
      (∀ j ∈ a.getNeighbors, a.getSharedPoseDictWithNeighbor j = ok (some (f j))) ∧
      ∀ e, e ∈ m ↔ ∃ j ∈ a.getNeighbors, e ∈ f j := by
  have hi := agReach_inv h
  obtain ⟨hX, -⟩ := C36_sizes h hs
  obtain ⟨m, e, m1, m2, m3⟩ := sharedDict_ok hi hs hX
  obtain ⟨-, -, hrob, -, -, -, -, -, hself⟩ := C05_public_ids ID p.r p.d a.graph hi.reach
  have hex : ∀ j, ∃ f, j ≠ ID → a.getSharedPoseDictWithNeighbor j = ok (some f) ∧
      Collected p.r p.d a.X (NeededBy ID j a.graph) f := by
    intro j
    by_cases hj : j ≠ ID
    · obtain ⟨f, h1, h2⟩ := neighborDict_ok hi hs hX hj
      exact ⟨f, fun _ => ⟨h1, h2⟩⟩
    · exact ⟨[], fun c => absurd c hj⟩
  choose f hf using hex
  have hne : ∀ j ∈ a.getNeighbors, j ≠ ID := fun j hj c => hself (c ▸ hj)
  have mem : ∀ {ks : PoseID → Prop} {s : PoseDict ℝ}, Collected p.r p.d a.X ks s → ∀ k P,
      (k, P) ∈ s ↔ ks k ∧ P = single p.r p.d a.X k.frame := by
    rintro ks s ⟨s1, s2, s3⟩ k P
    constructor
    · intro hk
      have hq := OMap.find?_of_mem strictTotal_ltPoseID s1 hk
      by_cases c : ks k
      · rw [s2 k c] at hq
        exact ⟨c, (Option.some.inj hq).symm⟩
      · rw [s3 k c] at hq; cases hq
    · rintro ⟨hk, rfl⟩
      exact OMap.mem_of_find? strictTotal_ltPoseID (s2 k hk)
  refine ⟨m, f, e, fun j hj => (hf j (hne j hj)).1, ?_⟩
  rintro ⟨k, P⟩
  rw [mem ⟨m1, m2, m3⟩]
  constructor
  · rintro ⟨⟨x, hx, rfl⟩, rfl⟩
    have hj : (foreignPose ID x).robot ∈ a.getNeighbors := (hrob _).2 ⟨x, hx, rfl⟩
    exact ⟨_, hj, (mem (hf _ (hne _ hj)).2 _ _).2 ⟨⟨x, hx, rfl, rfl⟩, rfl⟩⟩
  · rintro ⟨j, hj, hk⟩
    obtain ⟨⟨x, hx, -, hxk⟩, hP⟩ := (mem (hf j (hne j hj)).2 _ _).1 hk
    exact ⟨⟨x, hx, hxk⟩, hP⟩

/-- The example agent has a public pose needed by robot 1. -/
example : ∃ a, AgReach exOracle 0 exParams a ∧ a.state = .INITIALIZED ∧
    NeededBy 0 1 a.graph ⟨0, 1⟩ ∧ IsPublic 0 a.graph ⟨0, 1⟩ := by
  obtain ⟨a, h1, h2, h3, -⟩ := exInit exParams rfl rfl (by simp [exParams, AgentParams.default])
  have hi := agReach_inv h1
  have hk : (⟨0, 1⟩ : PoseID) ∈ a.graph.localShared := by rw [h3.loc]; simp
  obtain ⟨m, hm, hk⟩ := ((C05_public_ids 0 3 2 a.graph hi.reach).1 _).1 hk
  refine ⟨a, h1, h2, ⟨m, hm, ?_, hk⟩, m, hm, hk⟩
  have : (foreignPose 0 m).robot ∈ a.graph.nbrRobots :=
    ((C05_public_ids 0 3 2 a.graph hi.reach).2.2.1 _).2 ⟨m, hm, rfl⟩
  rw [h3.robots] at this
  exact List.mem_singleton.1 this

end Dpgo.Props
