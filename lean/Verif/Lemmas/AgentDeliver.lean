import Verif.Lemmas.AgentMessages
import Verif.Lemmas.AgentIterate
import Verif.Lemmas.AgentExample

/-! # Iterations with missing poses; the example agent receives a pose -/

namespace Dpgo.Props

open Res Spec PoseGraph

variable {o : AgentOracles} {ID : Nat} {p : AgentParams} {a a' : Agent}

theorem iterate_missing (hd : 0 < p.d) (h : AgReach o ID p a) (hs : a.state = .INITIALIZED)
    (h1 : p.acceleration = false ∨ RestartsNext p a → Lacks ID a a.neighborPoses)
    (h2 : p.acceleration = true → Lacks ID a a.neighborAuxPoses) {s : Bool}
    (e : a.iterate o true = ok (s, a')) :
    s = false ∧ a'.X = a.X ∧ a'.status.readyToTerminate = false := by
  have hi := agReach_inv h
  have hc := agReach_cache hd h
  obtain ⟨b, hb, ⟨-, e1⟩ | ⟨c, -⟩⟩ := Agent.iterate_form e
  · obtain ⟨k, -, -, rfl⟩ := Agent.tick_form hb
    obtain ⟨c, c', e2, ⟨-, e3⟩ | ⟨e3, -⟩, rfl⟩ := Agent.iterateBody_form e1
    · have key : s = false ∧ c.X = a.X := by
        rcases e2 with ⟨hac, e2⟩ | ⟨hac, e2⟩
        · have hac : a.params.acceleration = true := hac
          rw [hi.params] at hac
          refine Agent.accelStep_missing (a := { a with
              iterationNumber := u32 (a.iterationNumber + 1), innerIter := k, XPrev := a.X })
            hi.reach hc.priors hi.nbr hi.aux e2 rfl (h2 hac) ?_
          intro hr
          refine h1 (Or.inr ?_)
          have hr : u32 (u32 (a.iterationNumber + 1) + 1) % a.params.restartInterval = 0 := hr
          rw [hi.params] at hr
          unfold RestartsNext
          rw [← hr]
          congr 1
          unfold u32
          omega
        · have hac : a.params.acceleration = false := hac
          rw [hi.params] at hac
          obtain ⟨k1, k2, -⟩ := Agent.updateX_missing (by exact hi.reach) (by exact hc.priors)
            (by exact hi.nbr) (by exact h1 (Or.inl hac)) e2
          exact ⟨k1, by rw [k2]⟩
      obtain ⟨x, st, -, -, ready, hr, rfl⟩ := Agent.iterateStatus_form e3
      refine ⟨key.1, key.2, ?_⟩
      cases ready with
      | false => rfl
      | true =>
        have := (hr.1 rfl).1
        rw [key.1] at this
        cases this
    · cases e3
  · exact absurd hs c

theorem iterate_reverts (hd : 0 < p.d) (h : AgReach o ID p a) (hs : a.state = .INITIALIZED)
    (hp : p.acceleration = true) (hr : RestartsNext p a) (hm : Lacks ID a a.neighborPoses) {s : Bool}
    (e : a.iterate o true = ok (s, a')) : a'.X = a.X ∧ a'.XPrev = a.X := by
  have hi := agReach_inv h
  have hc := agReach_cache hd h
  obtain ⟨b, hb, ⟨-, e1⟩ | ⟨c, -⟩⟩ := Agent.iterate_form e
  · obtain ⟨k, -, -, rfl⟩ := Agent.tick_form hb
    obtain ⟨c, c', e2, ⟨-, e3⟩ | ⟨e3, -⟩, rfl⟩ := Agent.iterateBody_form e1
    · have key : c.X = a.X ∧ c.XPrev = a.X := by
        rcases e2 with ⟨hac, e2⟩ | ⟨hac, e2⟩
        · refine ⟨Agent.accelStep_reverts (a := { a with
              iterationNumber := u32 (a.iterationNumber + 1), innerIter := k, XPrev := a.X })
            hi.reach hc.priors hi.nbr e2 hs ?_ hm, by rw [(Agent.accelStep_frame e2).1]⟩
          show u32 (u32 (a.iterationNumber + 1) + 1) % a.params.restartInterval = 0
          rw [hi.params]
          unfold RestartsNext at hr
          rw [← hr]
          congr 1
          unfold u32
          omega
        · have hac : a.params.acceleration = false := hac
          rw [hi.params, hp] at hac
          cases hac
      obtain ⟨x, st, -, -, ready, -, rfl⟩ := Agent.iterateStatus_form e3
      exact key
    · cases e3
  · exact absurd hs c

/-- A successful iteration that does not move makes the agent ready, with the L2 cost and no demand on
the number of decided loop closures. -/
theorem ready_of_still (h : AgReach o ID p a) (hs : a.state = .INITIALIZED)
    (e : a.iterate o true = ok (true, a')) (hX : a'.X = a'.XPrev)
    (hL : p.robust.costType = .L2) (ht : 0 ≤ p.relChangeTol) (hm : p.minConvergenceRatio ≤ 0) :
    a'.status.readyToTerminate = true := by
  have hi := agReach_inv h
  have hr' := agReach_snoc (op := .iterate true) (a' := a') h trivial
    (by simp only [Agent.step, e, ok_bind])
  have hi' := agReach_inv hr'
  obtain ⟨-, -, hXok⟩ := hi'.data (by
    have : a'.state = a.state := by rw [(Agent.iterate_frame e).1]
    rw [this, hs]; simp)
  obtain ⟨b, hb, ⟨-, e1⟩ | ⟨c, -⟩⟩ := Agent.iterate_form e
  · obtain ⟨c, c', e2, ⟨-, e3⟩ | ⟨e3, -⟩, rfl⟩ := Agent.iterateBody_form e1
    · obtain ⟨x, st, hx, hst, ready, hready, rfl⟩ := Agent.iterateStatus_form e3
      have hX : c.X = c.XPrev := hX
      have hx0 : x = 0 := by
        rw [← hX] at hx
        have h0 := (C19_zero_iff p.r p.d _ _ _ hXok hXok).2 (fun _ _ => rfl)
        exact Res.ok.inj (hx.symm.trans h0)
      have hpar : c.params = p := hi'.params
      refine hready.2 ⟨rfl, ?_, ?_⟩
      · rw [hx0, hpar, if_neg (by simp [hL])]
        exact not_lt.2 ht
      · rintro ⟨-, c2⟩
        obtain ⟨act, st', -, es, -, -, n1, n2, -⟩ := C06_statistics ID p.r p.d c.graph
          (by exact hi'.reach)
        have : st' = st := Res.ok.inj (es.symm.trans hst)
        subst this
        rw [hpar] at c2
        refine absurd (lt_of_lt_of_le c2 hm) (not_lt.2 ?_)
        rw [n1, n2]
        positivity
    · cases e3
  · exact absurd hs c

/-- A pose of robot 1 at the origin, as sent. -/
noncomputable def exSent : PArr ℝ := ⟨3, 2, 1, ⟨3, 3, fun i j => if i = j then 1 else 0⟩⟩

/-- The status of an initialised robot 1. -/
noncomputable def exReady : Status := ⟨1, .INITIALIZED, 0, 0, false, 0⟩

/-- The dictionary sent by robot 1. -/
noncomputable def exDict : PoseDict ℝ := [(⟨1, 0⟩, exSent)]

theorem exDict_wf : DictWF exDict := by
  refine ⟨by simp [exDict, OMap.Sorted, OMap.keys, OSet.Sorted], fun kv hkv => ?_⟩
  rw [List.mem_singleton.1 hkv]
  exact ⟨rfl, rfl, rfl, rfl, rfl⟩

/-- The example agent knows that robot 1 is initialised and receives its pose. -/
theorem exDeliver (p : AgentParams) (hd : p.d = 2) (hr : p.r = 3)
    (has : p.asynchronous = true → p.acceleration = false) :
    ∃ (a b : Agent), AgReach exOracle 0 p a ∧ a.state = .INITIALIZED ∧ ExGraph a.graph ∧
      a.graph.isNeighborActive 1 = ok true ∧ a.neighborPoses = [] ∧ a.iterationNumber = 0 ∧
      Delivers 0 ⟨1, 0⟩ exSent ⟨a, .updateNeighborPoses 1 exDict, b⟩ ∧
      a.step exOracle (.updateNeighborPoses 1 exDict) = ok b ∧
      (p.acceleration = true → ∃ c : Agent, a.step exOracle (.updateAuxNeighborPoses 1 exDict) = ok c ∧
        DeliversAux 0 ⟨1, 0⟩ exSent ⟨a, .updateAuxNeighborPoses 1 exDict, c⟩ ∧
        c = { a with neighborAuxPoses := c.neighborAuxPoses }) := by
  obtain ⟨a0, h1, h2, h3, h4, h5, h6, h7, -, -, -, h8, -⟩ := exInit p hd hr has
  have h1' : AgReach exOracle 0 p (a0.setNeighborStatus exReady) :=
    agReach_snoc (op := .setNeighborStatus exReady) h1 trivial rfl
  generalize ha : a0.setNeighborStatus exReady = a at h1'
  have k2 : a.state = .INITIALIZED := by rw [← ha]; exact h2
  have k3 : ExGraph a.graph := by rw [← ha]; exact h3
  have k4 : a.graph.isNeighborActive 1 = ok true := by rw [← ha]; exact h4
  have k5 : ∃ Y, a.YLift = some Y := ⟨_, by rw [← ha]; exact h5⟩
  have k6 : a.iterationNumber = 0 := by rw [← ha]; exact h6
  have k7 : KnownInitialized a 1 := by
    refine ⟨exReady, ?_, rfl⟩
    rw [← ha]
    unfold Agent.setNeighborStatus
    rw [OMap.find?_insert strictTotal_ltNat]
    rfl
  have k8 : a.neighborPoses = [] := by rw [← ha]; exact h8
  have hi := agReach_inv h1'
  have hreq : a.graph.requireNeighborPose ⟨1, 0⟩ = true := by
    unfold PoseGraph.requireNeighborPose
    rw [k3.nbr]
    rfl
  have hacc : a.acceptsFrom 1 = true := by
    obtain ⟨Y, hY⟩ := k5
    obtain ⟨s, hs, hs'⟩ := k7
    unfold Agent.acceptsFrom
    rw [hY, hs]
    simp [hs']
  have hid : (1 != a.id) = true := by rw [hi.id]; rfl
  have hst : ∀ s, a.storePoses 1 s exDict = ok (OMap.insert ltPoseID ⟨1, 0⟩ exSent s) := by
    intro s
    unfold Agent.storePoses exDict
    simp only [foldl_cons, foldl_nil, hreq, hi.r, hi.d, hd, hr, exSent, beq_self_eq_true, check_true,
      ok_bind, ok_bind', if_true]
  refine ⟨a, { a with neighborPoses := OMap.insert ltPoseID ⟨1, 0⟩ exSent a.neighborPoses }, h1', k2, k3,
    k4, k8, k6, ⟨exDict, rfl, by simp [exDict], (required_iff hi _).1 hreq, k7, k5, k2⟩, ?_,
    fun hp => ⟨{ a with
      neighborAuxPoses := OMap.insert ltPoseID ⟨1, 0⟩ exSent a.neighborAuxPoses }, ?_,
      ⟨exDict, rfl, by simp [exDict], (required_iff hi _).1 hreq, k7, k5, k2⟩, rfl⟩⟩
  · show a.updateNeighborPoses exOracle 1 exDict = _
    unfold Agent.updateNeighborPoses Agent.tryInitialize
    simp only [hid, check_true, ok_bind, hacc, k2, hst, Bool.not_true, Bool.false_eq_true, if_false,
      reduceCtorEq, ne_eq, not_true_eq_false]
  · show a.updateAuxNeighborPoses 1 exDict = _
    unfold Agent.updateAuxNeighborPoses
    simp only [hi.params, hp, hid, check_true, ok_bind, hacc, k2, hst, Bool.not_true,
      Bool.false_eq_true, if_false, ne_eq, not_true_eq_false]

theorem ExGraph.noSelf {g : PoseGraph ℝ} (h : ExGraph g) : ¬ hasSelfLoop g := by
  rintro ⟨m, hm, e⟩
  have h1 := h.odo
  unfold PoseGraph.localMeasurements at hm
  rw [h.priv, List.append_nil] at hm
  have : strip m ∈ g.odometry.map strip := List.mem_map_of_mem hm
  rw [h1, List.mem_singleton] at this
  have e1 : m.p1 = 0 := congrArg Meas.p1 this
  have e2 : m.p2 = 1 := congrArg Meas.p2 this
  omega

theorem ExGraph.covered {g : PoseGraph ℝ} (h : ExGraph g) : posesCovered g := by
  intro i hi
  rw [h.n] at hi
  have : strip (exI 0 0 0 1) ∈ g.odometry.map strip := by rw [h.odo]; simp
  obtain ⟨m, hm, e⟩ := List.mem_map.1 this
  have e2 : m.p2 = 1 := congrArg Meas.p2 e
  exact ⟨m, by unfold PoseGraph.localMeasurements; simp [hm], Or.inr (by omega)⟩

/-- Without a message from robot 1, its pose is missing. -/
theorem exLacks {p : AgentParams} {a : Agent} (h : AgReach exOracle 0 p a) (hG : ExGraph a.graph)
    (h1 : a.graph.isNeighborActive 1 = ok true) (h2 : a.neighborPoses = []) :
    Lacks 0 a a.neighborPoses := by
  refine ⟨⟨1, 0⟩, (required_iff (agReach_inv h) _).1 ?_, h1, by rw [h2]; simp⟩
  unfold PoseGraph.requireNeighborPose
  rw [hG.nbr]
  rfl

end Dpgo.Props
