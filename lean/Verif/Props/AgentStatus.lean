import Verif.Lemmas.AgentStatus
import Verif.Props.Agent
import Verif.Props.AgentMessages

/-!
# C71: what the status of an agent stands for
-/

namespace Dpgo.Props

open Res Spec PoseGraph

variable {o : AgentOracles} {ID : Nat} {p : AgentParams} {a a' : Agent}

/-- **C71** (one iteration): the reported change is the largest distance any pose moved, and the agent
calls itself ready exactly if the iteration succeeded, no pose moved farther than allowed, and the
demanded share of the live loop closures (if there is one) is decided. -/
theorem C71_iteration (h : AgReach o ID p a) (hs : a.state = .INITIALIZED) {s : Bool}
    (e : a.iterate o true = ok (s, a')) :
    IsLargest a.graph.n (poseMove p a a') a'.status.relativeChange ∧
    (a'.status.readyToTerminate = true ↔ s = true ∧
      (∀ i < a.graph.n, poseMove p a a' i ≤ allowedMove p a) ∧
      ((liveLcs ID a.graph).length ≠ 0 → EnoughDecided ID p a.graph)) := by
  obtain ⟨h1, h2⟩ := iterate_status h hs e
  exact ⟨h1, by rw [h2, largest_le h1]⟩

/-- **C71** (histories): at any time an agent calls itself ready exactly if its last iteration with
optimisation settled, and neither a reset nor a weight update came after. -/
theorem C71_ready {t : List Ev} (h : Hist o ID p t a) :
    a.getStatus.1.readyToTerminate = true ↔ Last (Settles o ID p) Renews t := by
  show a.status.readyToTerminate = true ↔ _
  induction h with
  | new e =>
    obtain ⟨X, g, YL, -, -, -, -, -, rfl⟩ := Agent.new_form e
    exact ⟨fun c => (by cases c), fun c => absurd c last_nil⟩
  | @call t a a' op h hw e ih =>
    rw [last_snoc, ← ih]
    have hi := agReach_inv h.reach
    have f := congrArg Agent.status (Agent.step_frame hi e)
    have skip : ¬ Renews ⟨a, op, a'⟩ → a'.status.readyToTerminate = a.status.readyToTerminate →
        (a'.status.readyToTerminate = true ↔ Settles o ID p ⟨a, op, a'⟩ ∨
          ¬ Renews ⟨a, op, a'⟩ ∧ a.status.readyToTerminate = true) := by
      intro hn hk
      rw [hk]
      exact ⟨fun c => Or.inr ⟨hn, c⟩, fun c => c.elim (fun c => absurd (Or.inl c.1) hn) fun c => c.2⟩
    have drop : DropsReports ⟨a, op, a'⟩ → ¬ Optimizes ⟨a, op, a'⟩ →
        a'.status.readyToTerminate = false →
        (a'.status.readyToTerminate = true ↔ Settles o ID p ⟨a, op, a'⟩ ∨
          ¬ Renews ⟨a, op, a'⟩ ∧ a.status.readyToTerminate = true) := by
      intro hd hn hk
      rw [hk]
      exact ⟨fun c => (by cases c),
        fun c => c.elim (fun c => absurd c.1 hn) fun c => absurd (Or.inr hd) c.1⟩
    cases op with
    | iterate b =>
      simp only [Agent.step, bind_eq_ok] at e
      obtain ⟨⟨s, c⟩, hc, e⟩ := e
      cases e
      by_cases hopt : b = true ∧ a.state = .INITIALIZED
      · obtain ⟨rfl, hs⟩ := hopt
        rw [settles_iff h.reach hs hc]
        exact ⟨Or.inl, fun c => c.elim id fun c => absurd (Or.inl ⟨rfl, hs⟩) c.1⟩
      · refine skip ?_ (by rw [iterate_keeps hc hopt])
        rintro (⟨c1, c2⟩ | c | ⟨c, -⟩)
        · cases c1; exact hopt ⟨rfl, c2⟩
        · cases c
        · cases c
    | reset => exact drop (Or.inl rfl) (fun c => (by cases c.1)) (by rw [f]; rfl)
    | updateMeasurementWeights =>
      by_cases hs : a.state = .INITIALIZED
      · exact drop (Or.inr ⟨rfl, hs⟩) (fun c => (by cases c.1)) (by rw [f]; simp [Agent.frame, hs])
      · refine skip ?_ (by rw [f]; simp [Agent.frame, hs])
        rintro (⟨c, -⟩ | c | ⟨-, c⟩)
        · cases c
        · cases c
        · exact hs c
    | getStatus =>
      cases e
      exact skip (by rintro (⟨c, -⟩ | c | ⟨c, -⟩) <;> cases c) rfl
    | _ => exact skip (by rintro (⟨c, -⟩ | c | ⟨c, -⟩) <;> cases c) (by rw [f]; rfl)

/-- **C71** (the team): if the robots report truthfully, then before the iteration limit termination is
announced only if the last iteration of every active robot before its report had settled. -/
theorem C71_team {q : Nat → AgentParams} {t : List Ev} (h : Hist o ID p t a) (ht : Truthful q t)
    (hb : a.shouldTerminate = ok true) (hm : a.iterationNumber < p.maxNumIters) {rid : Nat}
    (hr : rid < p.numRobots) (ha : a.isRobotActive rid = ok true) :
    ∃ o' u b, Hist o' rid (q rid) u b ∧ b.state = .INITIALIZED ∧ LastReport rid b.getStatus.1 t ∧
      Last (Settles o' rid (q rid)) Renews u := by
  obtain ⟨x, hx, hiff⟩ := C41_terminate h
  rw [hb] at hx
  cases hx
  rcases hiff.1 rfl with c | ⟨-, c⟩
  · omega
  · obtain ⟨s, hl, hs, hready⟩ := c rid hr ha
    obtain ⟨o', u, b, hu, rfl⟩ := ht rid s hl
    exact ⟨o', u, b, hu, hs, hl, (C71_ready hu).1 hready⟩

/-- An agent that settles, tells itself so, and announces termination to a team whose other robot is not
active. -/
example : ∃ (a b c : Agent) (u : List Ev), AgReach exOracle 0 exParams a ∧
    a.state = .INITIALIZED ∧ a.iterate exOracle true = ok (true, b) ∧
    Settles exOracle 0 exParams ⟨a, .iterate true, b⟩ ∧
    Hist exOracle 0 exParams u c ∧ Truthful (fun _ => exParams) u ∧
    c.shouldTerminate = ok true ∧ c.iterationNumber < exParams.maxNumIters ∧
    c.isRobotActive 0 = ok true := by
  obtain ⟨a0, h1, h2, h3, h4, -, h6, h7, h8, -⟩ := exInit exParams rfl rfl (by simp [exParams, AgentParams.default])
  obtain ⟨a, e1, -, hf, ht, k1, k2, k3, k4⟩ := C62_set h1 1 false
  have ha := agReach_snoc (op := .setRobotActive 1 false) h1 trivial e1
  have hG : ExGraph a.graph := h3.same ht
  have hs : a.state = .INITIALIZED := by rw [hf]; exact h2
  have hn1 : a.graph.isNeighborActive 1 = ok false := k3 (by decide) (by
    unfold PoseGraph.hasNeighbor
    rw [h3.robots]; rfl)
  have hnl : ¬ Lacks 0 a a.neighborPoses := by
    rintro ⟨k, hk, hact, -⟩
    rw [← required_iff (agReach_inv ha)] at hk
    unfold PoseGraph.requireNeighborPose at hk
    rw [hG.nbr, OSet.contains_iff strictTotal_ltPoseID, List.mem_singleton] at hk
    subst hk
    rw [hn1] at hact
    cases hact
  obtain ⟨s, b, e2, hb⟩ := C66_iterate (by decide) ha hs hG.noSelf hG.covered
    (by simp [exParams, AgentParams.default, RobustParams.default]) (by simp [exParams, AgentParams.default]) true
  have hb : s = true ↔ ¬ Lacks 0 a a.neighborPoses := hb rfl
  rw [hb.2 hnl] at e2
  have hlive : (liveLcs 0 a.graph).length = 0 := by
    unfold liveLcs
    rw [hG.priv, List.nil_append, List.length_eq_zero_iff, List.filter_eq_nil_iff]
    intro m hm hc
    have hm' : strip m ∈ a.graph.sharedLcs.map strip := List.mem_map_of_mem hm
    rw [hG.shared, List.mem_singleton] at hm'
    have hf : foreignPose 0 m = ⟨1, 0⟩ := by
      have : foreignPose 0 m = foreignPose 0 (strip m) := rfl
      rw [this, hm']; rfl
    rw [hf, hn1] at hc
    simp at hc
  have hset : Settles exOracle 0 exParams ⟨a, .iterate true, b⟩ := by
    refine ⟨⟨rfl, hs⟩, e2, fun i hi => ?_, fun c => absurd hlive c⟩
    show poseMove exParams a b i ≤ _
    rw [exStill ha hs rfl rfl e2 i hi]
    norm_num [allowedMove, exParams, AgentParams.default, RobustParams.default]
  obtain ⟨t, ht0⟩ := agReach_hist ha
  have hb' := ht0.call (op := .iterate true) (a' := b) trivial (by simp only [Agent.step, e2, ok_bind])
  have hready : b.getStatus.1.readyToTerminate = true := (C71_ready hb').2 (last_snoc.2 (Or.inl hset))
  have hst := C40_status hb'.reach
  have fb := (Agent.iterate_frame e2).1
  have hbs : b.state = .INITIALIZED := by rw [fb]; exact hs
  have hts : b.teamStatus = [] := by rw [fb, hf]; exact h7
  have hc := hb'.call (op := .setNeighborStatus b.getStatus.1) trivial rfl
  have hrep : ∀ rid s, LastReport rid s _ ↔ OMap.find? ltNat rid
      (b.setNeighborStatus b.getStatus.1).teamStatus = some s := fun rid s => (teamStatus_spec hc rid s).symm
  have hfind : ∀ rid, OMap.find? ltNat rid (b.setNeighborStatus b.getStatus.1).teamStatus =
      if rid = 0 then some b.getStatus.1 else none := by
    intro rid
    unfold Agent.setNeighborStatus
    rw [hts, OMap.find?_insert strictTotal_ltNat, hst.1]
    rfl
  have hactive : ∀ rid, (b.setNeighborStatus b.getStatus.1).isRobotActive rid = a.isRobotActive rid := by
    intro rid
    unfold Agent.setNeighborStatus Agent.isRobotActive
    rw [fb]
  refine ⟨a, b, _, _, ha, hs, e2, hset, hc, ?_, ?_, ?_, ?_⟩
  · intro rid s hl
    rw [hrep, hfind] at hl
    split at hl
    · rename_i c
      subst c
      cases hl
      exact ⟨exOracle, _, b, hb', rfl⟩
    · cases hl
  · obtain ⟨x, hx, hiff⟩ := C41_terminate hc
    rw [hx, hiff.2 (Or.inr ⟨Or.inl rfl, fun rid hr hact => ?_⟩)]
    rw [hactive] at hact
    have hr : rid < 2 := hr
    rcases (by omega : rid = 0 ∨ rid = 1) with rfl | rfl
    · exact ⟨_, (hrep 0 _).2 (by rw [hfind, if_pos rfl]), hst.2.1.trans hbs, hready⟩
    · rw [k1 (by decide)] at hact
      cases hact
  · show b.iterationNumber < _
    rw [fb, hf]
    show u32 (a0.iterationNumber + 1) < _
    rw [h6]
    decide
  · rw [hactive, k2 0 (by decide), isRobotActive_eq (agReach_inv h1), flagOf, h8]
    rfl

/-- **C71** (requests to publish): since the last reset, the agent asks for asynchronous publishing once
it has iterated while initialised, and for its public poses once such an iteration optimised or was
accelerated. -/
theorem C71_publish {t : List Ev} (h : Hist o ID p t a) :
    (a.publishAsynchronous = true ↔ Last Works (fun e => e.op = .reset) t) ∧
    (a.publishPublicPoses = true ↔
      Last (fun e => Works e ∧ (e.op = .iterate true ∨ p.acceleration = true))
        (fun e => e.op = .reset) t) := by
  induction h with
  | new e =>
    obtain ⟨X, g, YL, -, -, -, -, -, rfl⟩ := Agent.new_form e
    exact ⟨⟨fun c => (by cases c), fun c => absurd c last_nil⟩,
      ⟨fun c => (by cases c), fun c => absurd c last_nil⟩⟩
  | @call t a a' op h hw e ih =>
    rw [last_snoc, last_snoc, ← ih.1, ← ih.2]
    have hi := agReach_inv h.reach
    have f1 := congrArg Agent.publishAsynchronous (Agent.step_frame hi e)
    have f2 := congrArg Agent.publishPublicPoses (Agent.step_frame hi e)
    cases op with
    | iterate b =>
      simp only [Agent.step, bind_eq_ok] at e
      obtain ⟨⟨s, c⟩, hc, e⟩ := e
      cases e
      obtain ⟨k1, k2⟩ := iterate_flags hi hc
      rw [k1, k2]
      simp only [Works, AgOp.iterate.injEq, exists_eq', true_and, reduceCtorEq, not_false_eq_true,
        and_self]
    | reset => rw [f1, f2]; simp [Works, Agent.frame]
    | _ => rw [f1, f2]; simp [Works, Agent.frame]

end Dpgo.Props
