import Verif.Lemmas.AgentTeam
import Mathlib.Logic.Relation

/-! # The alignment phase: chains back to robot 0, and progress -/

namespace Dpgo

open Res Spec Matrix

variable {o : AgentOracles} {p : AgentParams} {w : Truth p.d} {resets : Prop} {A : Nat → Agent}
  {M : List Message}

/-- Senders are initialised and initialised robots have a chain back to robot 0. -/
def Chained (A : Nat → Agent) (M : List Message) : Prop :=
  (∀ m ∈ M, (A m.src).state = .INITIALIZED) ∧
  ∀ id, (A id).state = .INITIALIZED → Relation.ReflTransGen (Adjacent A) id 0

theorem Chained.update (h : Chained A M) {id : Nat} {a' : Agent}
    (h1 : (A id).state = .INITIALIZED → a'.state = .INITIALIZED ∧ ∀ j, a'.hasNeighbor j = (A id).hasNeighbor j)
    (h2 : a'.state = .INITIALIZED → (A id).state = .INITIALIZED ∨ id = 0 ∨
      ∃ j, j ≠ id ∧ (A j).state = .INITIALIZED ∧ a'.hasNeighbor j = true) :
    Chained (Function.update A id a') M := by
  have st : ∀ j, (A j).state = .INITIALIZED → (Function.update A id a' j).state = .INITIALIZED := by
    intro j hj
    by_cases c : j = id
    · subst c; rw [Function.update_self]; exact (h1 hj).1
    · rw [Function.update_of_ne c]; exact hj
  have mono : ∀ i j, Adjacent A i j → Adjacent (Function.update A id a') i j := by
    rintro i j ⟨a1, a2, a3⟩
    refine ⟨st i a1, st j a2, ?_⟩
    by_cases c : i = id
    · subst c; rw [Function.update_self, (h1 a1).2]; exact a3
    · rw [Function.update_of_ne c]; exact a3
  have old : ∀ j, (A j).state = .INITIALIZED → Relation.ReflTransGen (Adjacent (Function.update A id a')) j 0 :=
    fun j hj => Relation.ReflTransGen.mono mono _ _ (h.2 j hj)
  refine ⟨fun m hm => st _ (h.1 m hm), fun j hj => ?_⟩
  by_cases c : j = id
  · subst c
    rw [Function.update_self] at hj
    rcases h2 hj with c | rfl | ⟨k, k1, k2, k3⟩
    · exact old _ c
    · exact .refl
    · refine .head ⟨?_, st k k2, ?_⟩ (old k k2)
      · rw [Function.update_self]; exact hj
      · rw [Function.update_self]; exact k3
  · rw [Function.update_of_ne c] at hj
    exact old j hj

theorem hasNeighbor_topology {a a' : Agent} (h : SameTopology a.graph a'.graph) (j : Nat) :
    a'.hasNeighbor j = a.hasNeighbor j := by
  unfold Agent.hasNeighbor PoseGraph.hasNeighbor
  rw [h.nbrRobots]

theorem call_state {id : Nat} {a a' : Agent} {op : AgOp} (h : AgReach o id p a) (hmulti : p.multirobotInit = true)
    (hs : SetupCall o p w False id a op) (e : a.step o op = ok a') :
    (a.state = .INITIALIZED → a'.state = .INITIALIZED) ∧
    (a'.state = .INITIALIZED → a.state = .INITIALIZED ∨ id = 0) := by
  have hi := agReach_inv h
  have f := congrArg Agent.state (Agent.step_frame hi e)
  cases op with
  | init T =>
    rcases Agent.init_form hi.reach e with ⟨-, rfl⟩ | ⟨-, -, rfl⟩ | ⟨hst, hn, T', S, X, b, c, hT, hS, hX, hc, he⟩
    · exact ⟨fun c => c, Or.inl⟩
    · exact ⟨fun c => c, Or.inl⟩
    · refine ⟨fun c => absurd (hst.symm.trans c) (by decide), fun c' => Or.inr ?_⟩
      obtain ⟨-, g', k, -, hb, -⟩ := Agent.chooseTrajectory_form hT
      have hbid : b.id = id := by rw [hb]; exact hi.id
      have hbm : b.params.multirobotInit = true := by
        rw [hb]
        show a.params.multirobotInit = true
        rw [hi.params]; exact hmulti
      have hst' : a'.state = c.state := by
        rcases he with ⟨-, rfl⟩ | ⟨-, he⟩
        · rfl
        · obtain ⟨-, rfl⟩ := Agent.startOptimizationLoop_form he; rfl
      rcases hc with ⟨hc, rfl⟩ | ⟨hc | hc, -⟩
      · rw [hst'] at c'; cases c'
      · exact hbid.symm.trans hc
      · exact absurd hbm hc
  | reset => exact hs.elim
  | initializeInGlobalFrame T => exact hs.elim
  | setX M => exact hs.elim
  | updateNeighborPoses n dict => exact hs.elim
  | _ => exact ⟨fun c => f.trans c, fun c => Or.inl (f.symm.trans c)⟩

theorem setup_chained (hsvd : LawfulSvd o.svd) (hmulti : p.multirobotInit = true)
    (hY : OrthoCols (o.stiefel p.d p.r)) (hw0 : w.R 0 0 = 1 ∧ w.t 0 0 = 0)
    (h : SetupRun o p w False A M) : Chained A M := by
  induction h with
  | @new A h =>
    refine ⟨by simp, fun id hs => ?_⟩
    obtain ⟨X, g, YL, -, hg, -, h0, h1, ha⟩ := Agent.new_form (h id)
    rw [ha] at hs; cases hs
  | @call A M id op a' hrun hs e ih =>
    have hI := (setup_inv hsvd hmulti hY hw0 hrun).robot id
    obtain ⟨s1, s2⟩ := call_state hI.reach hmulti hs e
    refine ih.update (fun c => ⟨s1 c, fun j => ?_⟩) fun c => ?_
    · exact hasNeighbor_topology ((Agent.step_quiet (agReach_inv hI.reach) e (by rw [c]; simp)).topology
        fun _ h => h) j
    · rcases s2 c with c | c
      · exact Or.inl c
      · exact Or.inr (Or.inl c)
  | @lift A M id j Z a' _ hj e ih =>
    obtain ⟨-, -, rfl⟩ := Agent.setLiftingMatrix_form e
    exact ih.update (fun c => ⟨c, fun _ => rfl⟩) fun c => Or.inl c
  | @send A M id dict hrun hd ih =>
    have hI := (setup_inv hsvd hmulti hY hw0 hrun).robot id
    refine ⟨fun m hm => ?_, ih.2⟩
    rcases List.mem_cons.1 hm with rfl | hm
    · exact sent_state (by rw [(agReach_inv hI.reach).id]; exact hd)
    · exact ih.1 m hm
  | @receive A M id m a' hrun hm e ih =>
    have hS := setup_inv hsvd hmulti hY hw0 hrun
    have hI := hS.robot id
    have hi := agReach_inv hI.reach
    obtain ⟨m1, m2, -⟩ := hS.msg m hm
    have top : SameTopology (A id).graph a'.graph :=
      ((Agent.updateNeighborPoses_frame hi.reach e).2.mono Agent.weighting_quiet).topology fun _ h => h
    refine ih.update (fun c => ⟨?_, hasNeighbor_topology top⟩) fun c => ?_
    · obtain ⟨-, ⟨-, rfl⟩ | ⟨-, b, hb, he⟩⟩ := Agent.updateNeighborPoses_form e
      · exact c
      · rcases Agent.tryInitialize_form hb with ⟨-, rfl⟩ | ⟨-, -, rfl⟩ | ⟨c', -⟩
        · rcases he with ⟨-, rfl⟩ | ⟨-, -, rfl⟩ <;> exact c
        · rcases he with ⟨-, rfl⟩ | ⟨-, -, rfl⟩ <;> exact c
        · rw [c] at c'; cases c'
    · by_cases c0 : (A id).state = .INITIALIZED
      · exact Or.inl c0
      obtain ⟨-, hpos⟩ := (hI.receive hsvd hY m1 m2 e).2 c c0
      obtain ⟨hne, -⟩ := Agent.updateNeighborPoses_form e
      rw [hi.id] at hne
      refine Or.inr (Or.inr ⟨m.src, hne, ih.1 m hm, ?_⟩)
      rw [hasNeighbor_topology top]
      unfold numUsable at hpos
      obtain ⟨x, hx, hx'⟩ := List.countP_pos_iff.1 hpos
      rw [Bool.and_eq_true, beq_iff_eq] at hx'
      exact ((Props.C05_public_ids id p.r p.d _ hi.reach).2.2.2.2.1 m.src).2 ⟨x, hx, hx'.1⟩

/-- A message with enough usable poses initialises a waiting robot. -/
theorem InFrame.aligns {Y : Matrix (Fin p.r) (Fin p.d) ℝ} {id : Nat} {a : Agent}
    (h : InFrame o p w Y id a) (hsvd : LawfulSvd o.svd) (hY : OrthoCols Y) {nid : Nat} {dict : PoseDict ℝ}
    (hd : w.Dict Y dict) (hk : ∀ kv ∈ dict, kv.1.robot = nid)
    (hne : nid ≠ id) (hst : a.state = .WAIT_FOR_INITIALIZATION) {Z : DMat ℝ} (hZ : a.YLift = some Z)
    {s : Status} (hs : OMap.find? ltNat nid a.teamStatus = some s) (hs' : s.state = .INITIALIZED)
    (hpos : 0 < numUsable id nid a.graph dict) (hmin : p.minInliers ≤ numUsable id nid a.graph dict) :
    ∃ a', a.updateNeighborPoses o nid dict = ok a' ∧ a'.state = .INITIALIZED := by
  have hi := agReach_inv h.reach
  have hst' : a.state ≠ .WAIT_FOR_DATA := by rw [hst]; simp
  obtain ⟨-, ⟨T, hT, -⟩, -⟩ := hi.data hst'
  obtain ⟨S, t, hl⟩ := h.traj T hT
  have hZY := h.lift Z hZ
  have key := Agent.twoStage_exact (o := o) hi hst' hsvd hZ (by rw [hZY]; exact hY) hT hl hne (dict := dict)
    (by rw [hZY]; exact hd) (fun m hm => h.meas m (by
      unfold PoseGraph.sharedLoopClosuresWithRobot at hm
      unfold PoseGraph.measurements
      exact List.mem_append_right _ (List.mem_filter.1 hm).1))
  rw [if_neg (by omega)] at key
  obtain ⟨W, eW, hW, -, -⟩ := key
  obtain ⟨b, X, e, b1, -⟩ := Agent.initGlobal_ok hi.toAgCore hst' hZ hT hW
  have hb := (Agent.initGlobal_frame hi.reach e).1
  have hr : b.r = p.r := by rw [hb]; exact hi.r
  have hdd : b.d = p.d := by rw [hb]; exact hi.d
  obtain ⟨x, ex⟩ : ∃ x, b.storePoses nid b.neighborPoses dict = ok x := by
    have : ∀ (l st : PoseDict ℝ), (∀ kv ∈ l, kv.1.robot = nid ∧ kv.2.r = b.r ∧ kv.2.d = b.d) →
        ∃ x, b.storePoses nid st l = ok x := by
      intro l
      induction l with
      | nil => intro st _; exact ⟨st, rfl⟩
      | cons kv l ih =>
        intro st hl
        obtain ⟨l1, l2, l3⟩ := hl kv (by simp)
        obtain ⟨x, ex⟩ := ih (if b.graph.requireNeighborPose kv.1 then OMap.insert ltPoseID kv.1 kv.2 st else st)
          fun k hk => hl k (by simp [hk])
        refine ⟨x, ?_⟩
        unfold Agent.storePoses at ex ⊢
        rw [foldl_cons]
        simp only [l1, l2, l3, beq_self_eq_true, check_true, ok_bind]
        exact ex
    refine this dict _ fun kv hkv => ⟨hk kv hkv, ?_, ?_⟩
    · rw [hr]; exact (hd kv hkv).1.1
    · rw [hdd]; exact (hd kv hkv).1.2.1
  refine ⟨{ b with neighborPoses := x }, ?_, b1⟩
  have hacc : a.acceptsFrom nid = true := Agent.acceptsFrom_iff.2 ⟨⟨Z, hZ⟩, s, hs, hs'⟩
  unfold Agent.updateNeighborPoses
  have h1 : (nid != a.id) = true := by rw [hi.id, bne_iff_ne]; exact hne
  have h2 : a.tryInitialize o nid dict = ok b := by
    unfold Agent.tryInitialize
    rw [if_pos hst, eW]
    exact e
  simp only [h1, check_true, ok_bind, hacc, h2, b1, ex]
  rfl

end Dpgo
