import Verif.Lemmas.AgentActive
import Verif.Lemmas.AgentExample
import Verif.Props.Queries
import Verif.Props.PoseGraph

/-!
# Properties of the agent: life cycle, counters, termination, activity (C35, C40, C41, C42, C62)
-/

namespace Dpgo.Props

open Res Spec PoseGraph

variable {o : AgentOracles} {ID : Nat} {p : AgentParams} {a a' : Agent}

/-! ## C35 life cycle -/

/-- **C35** (one call). -/
theorem C35_step (h : AgReach o ID p a) {op : AgOp} (e : a.step o op = ok a') :
    (op ≠ .reset → rank a.state ≤ rank a'.state) ∧ (op = .reset → a'.state = .WAIT_FOR_DATA) ∧
    (a.state ≠ .WAIT_FOR_DATA → SameTopology a.graph a'.graph) := by
  have hi := agReach_inv h
  refine ⟨fun hr => ?_, ?_, fun hs => (Agent.step_quiet hi e hs).topology fun _ h => h⟩
  · have top : ∀ s, rank s ≤ rank AgentState.INITIALIZED := fun s => by cases s <;> simp [rank]
    have f := congrArg Agent.state (Agent.step_frame hi e)
    cases op with
    | init T =>
      rcases Agent.init_form hi.reach e with ⟨-, rfl⟩ | ⟨-, -, rfl⟩ | ⟨hs, -⟩
      · exact le_rfl
      · exact le_rfl
      · rw [hs]; exact Nat.zero_le _
    | updateNeighborPoses n dict =>
      obtain ⟨-, ⟨-, rfl⟩ | ⟨-, b, hb, he⟩⟩ := Agent.updateNeighborPoses_form e
      · exact le_rfl
      · have h1 : rank a.state ≤ rank b.state := by
          rcases Agent.tryInitialize_form hb with ⟨-, rfl⟩ | ⟨-, -, rfl⟩ | ⟨-, T, -, hb⟩
          · exact le_rfl
          · exact le_rfl
          · rw [(Agent.initGlobal_frame hi.reach hb).1]; exact top _
        rcases he with ⟨-, rfl⟩ | ⟨-, -, rfl⟩
        · exact h1
        · exact h1
    | reset => exact absurd rfl hr
    | initializeInGlobalFrame T => rw [f]; exact top _
    | setX M => rw [f]; exact top _
    | _ => exact le_of_eq (congrArg rank f.symm)
  · rintro rfl
    exact congrArg Agent.state (Agent.step_frame hi e)

/-- **C35** (histories): without `reset` the state only moves forward and, from the end of
`WAIT_FOR_DATA` on, measurements, number of poses and neighbours are frozen. -/
theorem C35_history (ops : List AgOp) : ∀ {a a' : Agent}, AgReach o ID p a →
    (∀ op ∈ ops, AgOpWF op) → AgOp.reset ∉ ops → a.run o ops = ok a' →
    rank a.state ≤ rank a'.state ∧ (a.state ≠ .WAIT_FOR_DATA → SameTopology a.graph a'.graph) := by
  induction ops with
  | nil => intro a a' _ _ _ e; cases e; exact ⟨le_rfl, fun _ => SameTopology.refl _⟩
  | cons op ops ih =>
    intro a a' h hw hr e
    unfold Agent.run at e
    rw [foldl_cons, bind_eq_ok'] at e
    obtain ⟨b, hb, e⟩ := e
    obtain ⟨s1, -, s3⟩ := C35_step h hb
    have s1 := s1 (fun c => hr (by simp [c]))
    obtain ⟨r1, r2⟩ := ih (agReach_snoc h (hw op (by simp)) hb) (fun x hx => hw x (by simp [hx]))
      (fun c => hr (by simp [c])) e
    refine ⟨s1.trans r1, fun hs => (s3 hs).trans (r2 fun c => ?_)⟩
    rw [c] at s1
    cases ha : a.state with
    | WAIT_FOR_DATA => exact hs ha
    | WAIT_FOR_INITIALIZATION => rw [ha] at s1; simp [rank] at s1
    | INITIALIZED => rw [ha] at s1; simp [rank] at s1

/-- **C35** (how states are left): only `initialize` ends the data phase, and an agent waiting for
initialisation becomes initialised only through a message of an initialised neighbour, by a supplied
transform, or by a supplied estimate. -/
theorem C35_leave (h : AgReach o ID p a) {op : AgOp} (e : a.step o op = ok a') :
    (a.state = .WAIT_FOR_DATA → a'.state ≠ .WAIT_FOR_DATA → ∃ T, op = .init T) ∧
    (a.state = .WAIT_FOR_INITIALIZATION → a'.state = .INITIALIZED →
      (∃ T, op = .initializeInGlobalFrame T) ∨ (∃ M, op = .setX M) ∨
      ∃ nid dict s, op = .updateNeighborPoses nid dict ∧ nid ≠ ID ∧
        OMap.find? ltNat nid a.teamStatus = some s ∧ s.state = .INITIALIZED) := by
  have hi := agReach_inv h
  have f := congrArg Agent.state (Agent.step_frame hi e)
  constructor
  · intro h1 h2
    cases op with
    | init T => exact ⟨T, rfl⟩
    | updateNeighborPoses n dict =>
      obtain ⟨-, ⟨-, rfl⟩ | ⟨-, b, hb, he⟩⟩ := Agent.updateNeighborPoses_form e
      · exact absurd h1 h2
      · rcases Agent.tryInitialize_form hb with ⟨-, rfl⟩ | ⟨c, -⟩ | ⟨c, -⟩
        · rcases he with ⟨-, rfl⟩ | ⟨-, -, rfl⟩ <;> exact absurd h1 h2
        · rw [h1] at c; cases c
        · rw [h1] at c; cases c
    | reset => exact absurd f h2
    | initializeInGlobalFrame T =>
      obtain ⟨Y, R, X, g', c, -, -, -, -, hX, -⟩ := Agent.initializeInGlobalFrame_form hi.reach e
      unfold Agent.liftTrajectory at hX
      rw [hi.noData h1] at hX
      cases hX
    | setX M => exact absurd h1 (Agent.setX_form e).1
    | _ => exact absurd (f.trans h1) h2
  · intro h1 h2
    have hne : a.state ≠ .INITIALIZED := by rw [h1]; decide
    cases op with
    | init T =>
      rcases Agent.init_form hi.reach e with ⟨-, rfl⟩ | ⟨-, -, rfl⟩ | ⟨hs, -⟩
      · exact absurd h2 hne
      · exact absurd h2 hne
      · rw [h1] at hs; cases hs
    | updateNeighborPoses n dict =>
      obtain ⟨hn, ⟨-, rfl⟩ | ⟨ha, -⟩⟩ := Agent.updateNeighborPoses_form e
      · exact absurd h2 hne
      · obtain ⟨-, s, hs, hs'⟩ := Agent.acceptsFrom_iff.1 ha
        exact Or.inr (Or.inr ⟨n, dict, s, rfl, by rw [← hi.id]; exact hn, hs, hs'⟩)
    | reset => rw [h2] at f; cases f
    | initializeInGlobalFrame T => exact Or.inl ⟨T, rfl⟩
    | setX M => exact Or.inr (Or.inl ⟨M, rfl⟩)
    | _ => exact absurd (f.symm.trans h2) hne

/-- A history through all stages: data, then initialised. -/
example : ∃ a, AgReach exOracle 0 exParams a ∧ a.state = .INITIALIZED ∧ a.graph.n = 2 ∧
    a.graph.nbrRobots = [1] := by
  obtain ⟨a, h1, h2, h3, -⟩ := exInit exParams rfl rfl (by simp [exParams, AgentParams.default])
  exact ⟨a, h1, h2, h3.n, h3.robots⟩

/-! ## C40 counters -/

/-- **C40** -/
theorem C40_counters (ops : List AgOp) {a₀ a : Agent} (hnew : Agent.new o ID p = ok a₀)
    (hw : ∀ op ∈ ops, AgOpWF op) (e : a₀.run o ops = ok a) :
    a.iterationNumber = iteratesSinceReset ops % 2 ^ 32 ∧
    a.instanceNumber = numResets ops % 2 ^ 32 := by
  induction ops using List.reverseRecOn generalizing a with
  | nil =>
    cases e
    obtain ⟨X, g, YL, -, -, -, -, -, rfl⟩ := Agent.new_form hnew
    exact ⟨rfl, rfl⟩
  | append_singleton ops op ih =>
    obtain ⟨b, hb, he⟩ := run_snoc e
    obtain ⟨h1, h2⟩ := ih (fun x hx => hw x (by simp [hx])) hb
    have hi := agReach_inv ⟨a₀, ops, hnew, fun x hx => hw x (by simp [hx]), hb⟩
    have f1 := congrArg Agent.iterationNumber (Agent.step_frame hi he)
    have f2 := congrArg Agent.instanceNumber (Agent.step_frame hi he)
    unfold iteratesSinceReset at h1 ⊢
    unfold numResets at h2 ⊢
    rw [List.foldl_append, List.foldl_append, List.foldl_cons, List.foldl_cons, List.foldl_nil,
      List.foldl_nil]
    cases op with
    | iterate c =>
      refine ⟨?_, f2.trans h2⟩
      rw [f1]
      show u32 (b.iterationNumber + 1) = _
      rw [h1]
      exact u32_succ _
    | reset =>
      refine ⟨f1, ?_⟩
      rw [f2]
      show u32 (b.instanceNumber + 1) = _
      rw [h2]
      exact u32_succ _
    | _ => exact ⟨f1.trans h1, f2.trans h2⟩

/-- **C40** (never backwards): as long as the 32-bit counters do not overflow. -/
theorem C40_monotone (h : AgReach o ID p a) {op : AgOp} (e : a.step o op = ok a')
    (h1 : a.iterationNumber + 1 < 2 ^ 32) (h2 : a.instanceNumber + 1 < 2 ^ 32) :
    (op ≠ .reset → a.iterationNumber ≤ a'.iterationNumber) ∧ a.instanceNumber ≤ a'.instanceNumber ∧
    (op = .reset → a'.iterationNumber = 0 ∧ a'.instanceNumber = a.instanceNumber + 1) ∧
    (∀ b, op = .iterate b → a'.iterationNumber = a.iterationNumber + 1) := by
  have hi := agReach_inv h
  have f1 := congrArg Agent.iterationNumber (Agent.step_frame hi e)
  have f2 := congrArg Agent.instanceNumber (Agent.step_frame hi e)
  have u1 : u32 (a.iterationNumber + 1) = a.iterationNumber + 1 := Nat.mod_eq_of_lt h1
  have u2 : u32 (a.instanceNumber + 1) = a.instanceNumber + 1 := Nat.mod_eq_of_lt h2
  cases op with
  | iterate c =>
    have f1 : a'.iterationNumber = a.iterationNumber + 1 := f1.trans u1
    exact ⟨fun _ => by omega, le_of_eq f2.symm, by simp, fun _ _ => f1⟩
  | reset =>
    have f2 : a'.instanceNumber = a.instanceNumber + 1 := f2.trans u2
    exact ⟨by simp, by omega, fun _ => ⟨f1, f2⟩, by simp⟩
  | _ => exact ⟨fun _ => le_of_eq f1.symm, le_of_eq f2.symm, by simp, by simp⟩

/-- **C40** (the status): what `getStatus` returns carries id, state and both counters, and keeps the
readiness computed by the last iteration; so does the status stored by an iteration. -/
theorem C40_status (h : AgReach o ID p a) :
    a.getStatus.1.agentID = ID ∧ a.getStatus.1.state = a.state ∧
    a.getStatus.1.iterationNumber = a.iterationNumber ∧
    a.getStatus.1.instanceNumber = a.instanceNumber ∧
    a.getStatus.1.readyToTerminate = a.status.readyToTerminate ∧
    a.getStatus.2 = { a with status := a.getStatus.1 } ∧
    ∀ s a', a.state = .INITIALIZED → a.iterate o true = ok (s, a') →
      a'.status.agentID = ID ∧ a'.status.state = .INITIALIZED ∧
      a'.status.iterationNumber = a'.iterationNumber ∧
      a'.status.instanceNumber = a'.instanceNumber := by
  have hi := agReach_inv h
  refine ⟨hi.id, rfl, rfl, rfl, rfl, rfl, fun s a' hs e => ?_⟩
  have hinv := hi.iterate e
  have f := (Agent.iterate_frame e).1
  have hst : a'.state = .INITIALIZED := (congrArg Agent.state f).trans hs
  obtain ⟨b, hb, ⟨-, hc⟩ | ⟨c, -⟩⟩ := Agent.iterate_form e
  · obtain ⟨c, c', -, ⟨-, hc2⟩ | ⟨hc2, -⟩, rfl⟩ := Agent.iterateBody_form hc
    · obtain ⟨_, _, -, -, _, -, rfl⟩ := Agent.iterateStatus_form hc2
      exact ⟨hinv.id, hst, rfl, rfl⟩
    · cases hc2
  · exact absurd hs c

/-- Two iterations and then a reset. -/
example : ∃ a b c d, AgReach exOracle 0 exParams a ∧ a.step exOracle (.iterate true) = ok b ∧
    b.step exOracle (.iterate true) = ok c ∧ c.step exOracle .reset = ok d ∧
    a.iterationNumber = 0 ∧ c.iterationNumber = 2 ∧ d.iterationNumber = 0 ∧
    d.instanceNumber = u32 (a.instanceNumber + 1) := by
  obtain ⟨a, ha, hs, -, -, -, -, -, -, -, hit, -⟩ := exData exParams rfl rfl
  have hp := (agReach_inv ha).params
  have it : ∀ b : Agent, b.params = exParams → b.state = .WAIT_FOR_DATA →
      b.step exOracle (.iterate true) = ok { b with iterationNumber := u32 (b.iterationNumber + 1) } := by
    intro b h1 h2
    have : b.params.robust.costType = .L2 := by rw [h1]; rfl
    simp [Agent.step, Agent.iterate, Agent.tick, this, h2, ok_bind]
  have e1 := it a hp hs
  have e2 := it { a with iterationNumber := u32 (a.iterationNumber + 1) } hp hs
  obtain ⟨d, hd⟩ := Agent.reset_ok (o := exOracle) (a := { a with
    iterationNumber := u32 (u32 (a.iterationNumber + 1) + 1) }) (by rw [show _ = exParams from hp]; rfl)
  have hf := Agent.reset_form hd
  exact ⟨a, _, _, d, ha, e1, e2, hd, hit, by simp [hit, u32], congrArg Agent.iterationNumber hf,
    congrArg Agent.instanceNumber hf⟩

/-! ## C41 termination -/

/-- **C41** -/
theorem C41_terminate {t : List Ev} (h : Hist o ID p t a) :
    ∃ b, a.shouldTerminate = ok b ∧ (b = true ↔
      p.maxNumIters ≤ a.iterationNumber ∨
      ((p.robust.costType = .L2 ∨ p.numWeightUpdates ≤ a.weightUpdateCount) ∧
        ∀ rid < p.numRobots, a.isRobotActive rid = ok true →
          ∃ s, LastReport rid s t ∧ s.state = .INITIALIZED ∧ s.readyToTerminate = true)) := by
  have hi := agReach_inv h.reach
  unfold Agent.shouldTerminate
  rw [hi.params]
  by_cases h1 : a.iterationNumber ≥ p.maxNumIters
  · rw [if_pos h1]
    exact ⟨true, rfl, by simp [h1]⟩
  · rw [if_neg h1]
    by_cases h2 : p.robust.costType ≠ .L2 ∧ a.weightUpdateCount < p.numWeightUpdates
    · rw [if_pos h2]
      refine ⟨false, rfl, ?_⟩
      have : ¬ (p.robust.costType = .L2 ∨ p.numWeightUpdates ≤ a.weightUpdateCount) := by
        rintro (c | c)
        · exact h2.1 c
        · omega
      simp [h1, this]
    · rw [if_neg h2]
      obtain ⟨b, hb, hspec⟩ := teamReady_spec hi (List.range p.numRobots) (by simp)
      refine ⟨b, hb, ?_⟩
      have : p.robust.costType = .L2 ∨ p.numWeightUpdates ≤ a.weightUpdateCount := by
        by_cases c : p.robust.costType = .L2
        · exact Or.inl c
        · exact Or.inr (by by_contra c'; exact h2 ⟨c, by omega⟩)
      rw [hspec]
      simp only [h1, false_or, this, true_and, List.mem_range, isRobotActive_eq hi, Res.ok.injEq,
        Bool.and_eq_true, decide_eq_true_eq]
      constructor
      · intro hh rid hr hf
        obtain ⟨s, h1, h2⟩ := hh rid hr hf.2
        exact ⟨s, (teamStatus_spec h rid s).1 h1, h2⟩
      · intro hh rid hr hf
        obtain ⟨s, h1, h2⟩ := hh rid hr ⟨hr, hf⟩
        exact ⟨s, (teamStatus_spec h rid s).2 h1, h2⟩

/-- After one of two robots has reported itself ready, termination is not announced; after both have, it
is; and a report of a reset history does not count. -/
example (s0 s1 : Status) (h0 : s0.agentID = 0 ∧ s0.state = .INITIALIZED ∧ s0.readyToTerminate = true)
    (h1 : s1.agentID = 1 ∧ s1.state = .INITIALIZED ∧ s1.readyToTerminate = true) :
    ∃ (a b c : Agent) (t u : List Ev), Hist exOracle 0 exParams t b ∧ Hist exOracle 0 exParams u c ∧
      a.step exOracle (.setNeighborStatus s0) = ok b ∧ b.step exOracle (.setNeighborStatus s1) = ok c ∧
      b.shouldTerminate = ok false ∧ c.shouldTerminate = ok true := by
  obtain ⟨a, ha, -, -, -, -, -, -, -, -, hit, hts, hact, -⟩ := exData exParams rfl rfl
  obtain ⟨t, ht⟩ := agReach_hist ha
  have e1 : a.step exOracle (.setNeighborStatus s0) = ok (a.setNeighborStatus s0) := rfl
  have e2 : (a.setNeighborStatus s0).step exOracle (.setNeighborStatus s1) =
    ok ((a.setNeighborStatus s0).setNeighborStatus s1) := rfl
  have hb := ht.call (op := .setNeighborStatus s0) trivial e1
  have hc := hb.call (op := .setNeighborStatus s1) trivial e2
  have hib := agReach_inv hb.reach
  refine ⟨a, _, _, _, _, hb, hc, e1, e2, ?_, ?_⟩
  · obtain ⟨x, hx, hx'⟩ := C41_terminate hb
    cases x with
    | false => exact hx
    | true =>
      exfalso
      rcases hx'.1 rfl with c | ⟨-, c⟩
      · rw [show (a.setNeighborStatus s0).iterationNumber = 0 from hit] at c
        simp [exParams, AgentParams.default] at c
      · obtain ⟨s, hs, -⟩ := c 1 (by decide) (by
          rw [isRobotActive_eq hib, flagOf]
          show ok (_ && (a.teamActive[1]?.getD false)) = _
          rw [hact]; rfl)
        rw [← teamStatus_spec hb] at hs
        unfold Agent.setNeighborStatus at hs
        rw [hts, OMap.find?_insert strictTotal_ltNat, if_neg (by rw [h0.1]; decide)] at hs
        cases hs
  · obtain ⟨x, hx, hx'⟩ := C41_terminate hc
    rw [hx, hx'.2 (Or.inr ⟨Or.inl rfl, ?_⟩)]
    intro rid hr _
    have hr : rid < 2 := hr
    have : rid = 0 ∨ rid = 1 := by omega
    simp only [← teamStatus_spec hc]
    unfold Agent.setNeighborStatus
    rw [h0.1, h1.1]
    rcases this with rfl | rfl
    · exact ⟨s0, by simp [OMap.find?_insert strictTotal_ltNat], h0.2⟩
    · exact ⟨s1, by simp [OMap.find?_insert strictTotal_ltNat], h1.2⟩

/-! ## C42 reset -/

/-- **C42 fails**: with the L2 cost (the default) a reset agent announces termination at once, and it
counts nobody as active. -/
theorem C42_violated (h : AgReach o ID p a) (e : a.reset o = ok a') :
    a'.numActiveRobots = ok 0 ∧ (∀ rid, a'.isRobotActive rid = ok false) ∧
    (p.robust.costType = .L2 → a'.shouldTerminate = ok true) := by
  have hr' := agReach_snoc (op := .reset) h trivial e
  have hi' := agReach_inv hr'
  have f : a'.teamActive = _ := congrArg Agent.teamActive (Agent.reset_form e)
  have hf : ∀ rid, flagOf a' rid = false := by
    intro rid
    unfold flagOf
    rw [f, List.getElem?_replicate]
    split <;> rfl
  have hact : ∀ rid, a'.isRobotActive rid = ok false := fun rid => by
    rw [isRobotActive_eq hi', hf, Bool.and_false]
  refine ⟨?_, hact, fun hL => ?_⟩
  · unfold Agent.numActiveRobots
    have : ∀ (l : List Nat) (k : Nat), Res.foldl (fun k rid => do
        let b ← a'.isRobotActive rid
        ok (if b then k + 1 else k)) k l = ok k := by
      intro l
      induction l with
      | nil => intro k; rfl
      | cons x l ih =>
        intro k
        rw [foldl_cons, hact, ok_bind, ok_bind']
        exact ih k
    exact this _ _
  · unfold Agent.shouldTerminate
    rw [hi'.params]
    split
    · rfl
    · rw [if_neg (by simp [hL])]
      obtain ⟨b, hb, hspec⟩ := teamReady_spec hi' (List.range p.numRobots) (by simp)
      rw [hb, hspec.2 (fun rid _ c => by rw [hf] at c; cases c)]

/-- A new agent does neither: with at least one robot and a positive iteration limit. -/
theorem C42_new_agent (e : Agent.new o ID p = ok a) (hn : 0 < p.numRobots) (hm : 0 < p.maxNumIters) :
    a.shouldTerminate = ok false ∧ a.numActiveRobots = ok p.numRobots := by
  have hi := AgInv.init e
  have hnew := Agent.new_form e
  have hts : a.teamStatus = [] ∧ a.teamActive = List.replicate p.numRobots true ∧
      a.iterationNumber = 0 := by
    obtain ⟨X, g, YL, -, -, -, -, -, rfl⟩ := hnew
    exact ⟨rfl, rfl, rfl⟩
  have hf : ∀ rid, rid < p.numRobots → flagOf a rid = true := by
    intro rid hr
    unfold flagOf
    rw [hts.2.1, List.getElem?_replicate, if_pos hr]
    rfl
  constructor
  · unfold Agent.shouldTerminate
    rw [hi.params, hts.2.2, if_neg (by omega)]
    split
    · rfl
    · obtain ⟨b, hb, hspec⟩ := teamReady_spec hi (List.range p.numRobots) (by simp)
      rw [hb]
      cases b with
      | false => rfl
      | true =>
        obtain ⟨s, hs, -⟩ := hspec.1 rfl 0 (by simpa using hn) (hf 0 hn)
        rw [hts.1] at hs
        simp [OMap.find?] at hs
  · unfold Agent.numActiveRobots
    rw [hi.params]
    have : ∀ (l : List Nat) (k : Nat), (∀ x ∈ l, x < p.numRobots) → Res.foldl (fun k rid => do
        let b ← a.isRobotActive rid
        ok (if b then k + 1 else k)) k l = ok (k + l.length) := by
      intro l
      induction l with
      | nil => intro k _; rfl
      | cons x l ih =>
        intro k hl
        have hx := hl x (by simp)
        rw [foldl_cons, isRobotActive_eq hi, hf x hx, ok_bind, ok_bind']
        simp only [hx, decide_true, Bool.and_true, if_true]
        rw [ih _ fun y hy => hl y (by simp [hy]), List.length_cons]
        congr 1
        omega
    rw [this _ _ (by simp), List.length_range, Nat.zero_add]

/-- **C42** (what does hold): after `reset` all other bookkeeping is that of a new agent (with the next
instance number), measurements and their weights being kept; with a robust cost and at least one
weight update asked for, termination is not announced; and it is not announced either once the caller
has marked some robot active again. -/
theorem C42_reset_partial (h : AgReach o ID p a) (e : a.reset o = ok a') {a₀ : Agent}
    (hnew : Agent.new o ID p = ok a₀) :
    (a'.state = a₀.state ∧ a'.iterationNumber = a₀.iterationNumber ∧
      a'.instanceNumber = u32 (a.instanceNumber + 1) ∧ a'.latestWeightUpdate = a₀.latestWeightUpdate ∧
      a'.innerIter = a₀.innerIter ∧ a'.weightUpdateCount = a₀.weightUpdateCount ∧
      a'.trajectoryResetCount = a₀.trajectoryResetCount ∧ a'.teamStatus = a₀.teamStatus ∧
      a'.neighborPoses = a₀.neighborPoses ∧ a'.neighborAuxPoses = a₀.neighborAuxPoses ∧
      a'.XInit = a₀.XInit ∧ a'.TLocalInit = a₀.TLocalInit ∧ a'.globalAnchor = a₀.globalAnchor ∧
      a'.publishPublicPoses = a₀.publishPublicPoses ∧
      a'.publishAsynchronous = a₀.publishAsynchronous ∧ a'.running = a₀.running ∧
      a'.status = { a₀.status with instanceNumber := u32 (a.instanceNumber + 1) }) ∧
    a'.graph.measurements = a.graph.measurements ∧ a'.graph.n = a.graph.n ∧
    a'.graph.Q = none ∧ a'.graph.G = none ∧
    (0 < p.maxNumIters → p.robust.costType ≠ .L2 → 0 < p.numWeightUpdates →
      a'.shouldTerminate = ok false) ∧
    (0 < p.maxNumIters → ∀ rid < p.numRobots, ∀ b, a'.setRobotActive rid true = ok b →
      b.shouldTerminate = ok false) := by
  have hi := agReach_inv h
  have hr' := agReach_snoc (op := .reset) h trivial e
  have hi' := agReach_inv hr'
  have hf := Agent.reset_form e
  obtain ⟨X, g, YL, -, -, -, -, -, hform⟩ := Agent.new_form hnew
  have hc := C07_reset ID p.r p.d a.graph hi.reach
  have hg : a'.graph = a.graph.reset := congrArg Agent.graph hf
  have hts : a'.teamStatus = [] := congrArg Agent.teamStatus hf
  have hit : a'.iterationNumber = 0 := congrArg Agent.iterationNumber hf
  have hwc : a'.weightUpdateCount = 0 := congrArg Agent.weightUpdateCount hf
  refine ⟨?_, ?_, ?_, ?_, ?_, ?_, ?_⟩
  · rw [hf, hform]
    simp only [hi.id, and_self]
  · rw [hg]; exact hc.1
  · rw [hg]; exact hc.2.2.1
  · rw [hg]; exact hc.2.2.2.2.2.1
  · rw [hg]; exact hc.2.2.2.2.2.2.1
  · intro h1 h2 h3
    unfold Agent.shouldTerminate
    rw [hi'.params, hit, hwc, if_neg (by omega), if_pos ⟨h2, h3⟩]
  · intro h1 rid hrid b hb
    have hib := hi'.setRobotActive hb
    rcases Agent.setRobotActive_form hb with ⟨c, -⟩ | ⟨-, hlen, g', -, hbf⟩
    · rw [hi'.params] at c; omega
    · have hts : b.teamStatus = [] := (congrArg Agent.teamStatus hbf).trans hts
      have hit : b.iterationNumber = 0 := (congrArg Agent.iterationNumber hbf).trans hit
      have hfl : flagOf b rid = true := by rw [hbf]; simp [flagOf, hlen]
      unfold Agent.shouldTerminate
      rw [hib.params, hit, if_neg (by omega)]
      split
      · rfl
      · obtain ⟨c, hc, hspec⟩ := teamReady_spec hib (List.range p.numRobots) (by simp)
        rw [hc]
        cases c with
        | false => rfl
        | true =>
          obtain ⟨s, hs, -⟩ := hspec.1 rfl rid (by simpa using hrid) hfl
          rw [hts] at hs
          simp [OMap.find?] at hs

/-- The history ending in a reset at which C42 fails. -/
example : ∃ a a', AgReach exOracle 0 exParams a ∧ a.state = .INITIALIZED ∧
    a.reset exOracle = ok a' ∧ a'.shouldTerminate = ok true ∧ a'.numActiveRobots = ok 0 := by
  obtain ⟨a, h1, h2, -, -, -, -, -, -, -, -, -, -, -, -, -, hp⟩ :=
    exInit exParams rfl rfl (by simp [exParams, AgentParams.default])
  have : ∃ a', a.reset exOracle = ok a' :=
    Agent.reset_ok (by rw [hp]; rfl)
  obtain ⟨a', e⟩ := this
  obtain ⟨c1, -, c2⟩ := C42_violated h1 e
  exact ⟨a, a', h1, h2, e, c2 rfl, c1⟩

/-! ## C62 activity -/

/-- **C62** (one call): only the flag of that robot changes, ids out of range are ignored, and the pose
graph follows. -/
theorem C62_set (h : AgReach o ID p a) (rid : Nat) (b : Bool) :
    ∃ a', a.setRobotActive rid b = ok a' ∧ (p.numRobots ≤ rid → a' = a) ∧
      a' = { a with teamActive := a'.teamActive, graph := a'.graph } ∧
      SameTopology a.graph a'.graph ∧
      (rid < p.numRobots → a'.isRobotActive rid = ok b) ∧
      (∀ j, j ≠ rid → a'.isRobotActive j = a.isRobotActive j) ∧
      (rid < p.numRobots → a.graph.hasNeighbor rid = true → a'.graph.isNeighborActive rid = ok b) ∧
      (∀ j, j ≠ rid → a'.graph.isNeighborActive j = a.graph.isNeighborActive j) := by
  have hi := agReach_inv h
  obtain ⟨g', hg, -, -, g3, g4, g5⟩ := C07_set ID p.r p.d a.graph hi.reach rid b
  by_cases hr : rid < p.numRobots
  · have hlen : rid < a.teamActive.length := by rw [hi.active]; exact hr
    have e : a.setRobotActive rid b =
        ok { a with teamActive := a.teamActive.set rid b, graph := g' } := by
      unfold Agent.setRobotActive
      rw [if_neg (by rw [hi.params]; omega)]
      simp only [hlen, decide_true, require_true, ok_bind]
      by_cases hn : a.graph.hasNeighbor rid = true
      · rw [if_pos hn, hg, ok_bind]
      · rw [if_neg hn, g3 fun c => hn ((hasNeighbor_iff _ _).2 c)]
    have hi' := hi.setRobotActive e
    refine ⟨_, e, fun c => by omega, rfl, setNeighborActive_topology hg, fun _ => ?_,
      fun j hj => ?_, fun _ hn => g4 ((hasNeighbor_iff _ _).1 hn), g5⟩
    · rw [isRobotActive_eq hi']
      simp [flagOf, hlen, hr]
    · rw [isRobotActive_eq hi', isRobotActive_eq hi]
      simp [flagOf, List.getElem?_set_ne hj.symm]
  · have e : a.setRobotActive rid b = ok a := by
      unfold Agent.setRobotActive
      rw [hi.params, if_pos (by omega)]
    exact ⟨a, e, fun _ => rfl, rfl, SameTopology.refl _, fun c => absurd c hr, fun _ _ => rfl,
      fun c => absurd c hr, fun _ _ => rfl⟩

/-- **C62** (count) -/
theorem C62_count (h : AgReach o ID p a) :
    a.numActiveRobots = ok (a.teamActive.count true) ∧ a.teamActive.length = p.numRobots ∧
    ∀ rid, a.isRobotActive rid = ok true ↔ a.teamActive[rid]? = some true := by
  have hi := agReach_inv h
  refine ⟨numActive_eq hi, hi.active, fun rid => ?_⟩
  rw [isRobotActive_eq hi]
  unfold flagOf
  rw [Res.ok.injEq, Bool.and_eq_true, decide_eq_true_eq]
  constructor
  · rintro ⟨-, h2⟩
    cases hq : a.teamActive[rid]? with
    | none => rw [hq] at h2; cases h2
    | some c => rw [hq] at h2; rw [show c = true from h2]
  · intro hq
    refine ⟨?_, by rw [hq]; rfl⟩
    rw [← hi.active]
    exact (List.getElem?_eq_some_iff.1 hq).1

/-- **C62** (deactivated neighbours): after `setRobotActive j false` no pose of `j` is needed. -/
theorem C62_not_required (h : AgReach o ID p a) {j : Nat} (hj : j < p.numRobots) :
    ∃ a' out, a.setRobotActive j false = ok a' ∧ a'.graph.activeNeighborPublicPoseIDs = ok out ∧
      ∀ k ∈ out, k.robot ≠ j := by
  obtain ⟨a', e, -, -, ht, -, -, h6, -⟩ := C62_set h j false
  have hi' := agReach_inv (agReach_snoc (op := .setRobotActive j false) h trivial e)
  obtain ⟨out, ho, -, hmem⟩ := C63_active_poses ID p.r p.d a'.graph hi'.reach
  refine ⟨a', out, e, ho, fun k hk hkj => ?_⟩
  obtain ⟨h1, h2⟩ := (hmem k).1 hk
  obtain ⟨b, hb, hbn⟩ := C07_query ID p.r p.d a'.graph hi'.reach j
  rw [hkj, hb] at h2
  have hjn : j ∈ a'.graph.nbrRobots := by
    by_contra c
    rw [hbn c] at h2; cases h2
  rw [ht.nbrRobots] at hjn
  rw [h6 hj ((hasNeighbor_iff _ _).2 hjn)] at hb
  cases hb
  cases h2

theorem inStep_set (h : AgReach o ID p a) (hs : InStep p a) {rid : Nat} {b : Bool}
    (e : a.setRobotActive rid b = ok a') : InStep p a' := by
  intro j hj hn
  obtain ⟨a2, e2, h1, -, ht, h2, h3, h4, h5⟩ := C62_set h rid b
  rw [e2] at e
  obtain rfl := Res.ok.inj e
  have hb : a2.graph.hasNeighbor j = a.graph.hasNeighbor j := by unfold hasNeighbor; rw [ht.nbrRobots]
  rw [hb] at hn
  by_cases hjr : j = rid
  · subst hjr
    rw [h2 hj, h4 hj hn]
  · rw [h3 j hjr, h5 j hjr]
    exact hs j hj hn

/-- **C62** (in step), as far as it holds: once in step, pose graph and team flags stay in step as long as
the agent is not reset and measurements are added only while the robots they name are active. -/
theorem C62_in_step_partial (h : AgReach o ID p a) (hs : InStep p a) {op : AgOp} (hw : AgOpWF op)
    (e : a.step o op = ok a') (hr : op ≠ .reset)
    (hadd : ∀ m ∈ addedBy op, ∀ j < p.numRobots, j = m.r1 ∨ j = m.r2 → a.isRobotActive j = ok true) :
    InStep p a' := by
  have hi := agReach_inv h
  have hi' := agReach_inv (agReach_snoc h hw e)
  have same : a'.teamActive = a.teamActive → ∀ j, a'.isRobotActive j = a.isRobotActive j :=
    fun c j => by rw [isRobotActive_eq hi', isRobotActive_eq hi, flagOf, flagOf, c]
  have f := congrArg Agent.teamActive (Agent.step_frame hi e)
  rcases step_calm hi e with ⟨m, rfl⟩ | ⟨x, y, z, rfl⟩ | rfl | ⟨rid, b, rfl⟩ | hc
  · have same := same f
    rcases Agent.addMeasurement_form e with ⟨-, rfl⟩ | ⟨-, g, hg, rfl⟩
    · exact hs
    · intro j hj hn
      rw [same]
      rcases addMeasurement_active hw hg with ⟨h1, h2⟩ | ⟨-, h1, h2⟩
      · have hb : g.hasNeighbor j = a.graph.hasNeighbor j := by unfold hasNeighbor; rw [h2]
        rw [← hs j hj (hb.symm.trans hn)]
        show g.isNeighborActive j = _
        unfold isNeighborActive
        rw [hb, h1]
      · by_cases hj' : j = (foreignPose a.graph.id m).robot
        · rw [hadd m (by simp [addedBy]) j hj (by rw [hj']; exact foreign_named _ _)]
          show g.isNeighborActive j = _
          unfold isNeighborActive
          rw [show g.hasNeighbor j = true from hn, h1, OMap.find?_insert strictTotal_ltNat, if_pos hj']
          rfl
        · have hb : g.hasNeighbor j = a.graph.hasNeighbor j := by
            rw [Bool.eq_iff_iff, hasNeighbor_iff, hasNeighbor_iff, h2, OSet.mem_insert strictTotal_ltNat]
            exact ⟨fun x => x.resolve_left hj', Or.inr⟩
          rw [← hs j hj (hb.symm.trans hn)]
          show g.isNeighborActive j = _
          unfold isNeighborActive
          rw [hb, h1, OMap.find?_insert strictTotal_ltNat, if_neg hj']
  · have same := same f
    obtain ⟨-, -, ⟨-, rfl⟩ | ⟨-, g0, g', -, hg, rfl⟩⟩ := Agent.setMeasurements_form e
    · exact hs
    · intro j hj hn
      rw [same]
      have hg : Res.foldl PoseGraph.addMeasurement g0.empty (x ++ y ++ z) = ok g' := hg
      have h0 : g0.empty.nbrRobots = [] := by
        simp only [PoseGraph.empty, clearPriors, clearDataMatrices, clearNeighborPoses,
          clearQuadraticMatrix, clearLinearMatrix]
      rcases addAll_robots hw hg j ((hasNeighbor_iff _ _).1 hn) with c | ⟨m, hm, c⟩
      · rw [h0] at c; cases c
      · rw [hadd m hm j hj c]
        exact AllActive.isActive (AllActive.addAll (fun j hj => by rw [h0] at hj; cases hj) hw hg) hn
  · exact absurd rfl hr
  · exact inStep_set h hs e
  · have hteam : a'.teamActive = a.teamActive ∨ ∃ rid b, op = .setRobotActive rid b := by
      cases op with
      | setRobotActive rid b => exact Or.inr ⟨rid, b, rfl⟩
      | reset => exact absurd rfl hr
      | _ => exact Or.inl f
    rcases hteam with hteam | ⟨rid, b, rfl⟩
    · intro j hj hn
      obtain ⟨h1, h2⟩ := hc.active
      have hb : a'.graph.hasNeighbor j = a.graph.hasNeighbor j := by unfold hasNeighbor; rw [h2]
      rw [same hteam]
      rw [hb] at hn
      rw [← hs j hj hn]
      unfold isNeighborActive
      rw [hb, h1]
    · exact inStep_set h hs e

/-- **C62** A new agent is in step. -/
theorem C62_in_step_new (e : Agent.new o ID p = ok a) : InStep p a := by
  obtain ⟨X, g, YL, -, hg, -, -, -, rfl⟩ := Agent.new_form e
  intro j _ hn
  have hn : j ∈ g.nbrRobots := (hasNeighbor_iff _ _).1 hn
  unfold PoseGraph.new at hg
  rw [bind_eq_ok] at hg
  obtain ⟨_, -, hg⟩ := hg
  obtain rfl := Res.ok.inj hg
  simp [PoseGraph.empty, clearPriors, clearDataMatrices, clearNeighborPoses,
    clearQuadraticMatrix, clearLinearMatrix] at hn

/-- The example agent before it is initialised can be reset. -/
theorem exReset : ∃ a a', AgReach exOracle 0 exParams a ∧ ExGraph a.graph ∧ InStep exParams a ∧
    a.isRobotActive 1 = ok true ∧ a.graph.isNeighborActive 1 = ok true ∧
    a.reset exOracle = ok a' := by
  obtain ⟨a, h1, h2, hG, -, -, h3, -, -, -, -, -, hact, -⟩ := exData exParams rfl rfl
  have hi := agReach_inv h1
  have hf : ∀ j < 2, a.isRobotActive j = ok true := by
    intro j hj
    rw [isRobotActive_eq hi, flagOf, hact]
    interval_cases j <;> rfl
  have : ∃ a', a.reset exOracle = ok a' :=
    Agent.reset_ok (by rw [hi.params]; rfl)
  obtain ⟨a', e⟩ := this
  refine ⟨a, a', h1, hG, fun j hj hn => ?_, hf 1 (by omega), h3, e⟩
  rw [hf j hj]
  have := (hasNeighbor_iff _ _).1 hn
  rw [hG.robots] at this
  rw [List.mem_singleton.1 this]
  exact h3

/-- **C62** (in step) fails over histories: `reset` marks every robot inactive for the team but every
neighbour active for the pose graph. -/
theorem C62_in_step_violated :
    ∃ a a', AgReach exOracle 0 exParams a ∧ InStep exParams a ∧ a.reset exOracle = ok a' ∧
      ¬ InStep exParams a' ∧ a'.graph.hasNeighbor 1 = true ∧ a'.isRobotActive 1 = ok false ∧
      a'.graph.isNeighborActive 1 = ok true := by
  obtain ⟨a, a', h, hG, hs, -, -, e⟩ := exReset
  have hi := agReach_inv h
  have hi' := agReach_inv (agReach_snoc (op := .reset) h trivial e)
  have hf := Agent.reset_form e
  have hg : a'.graph = a.graph.reset := congrArg Agent.graph hf
  have hc := C07_reset 0 3 2 a.graph hi.reach
  have hn : 1 ∈ a.graph.nbrRobots := by rw [hG.robots]; simp
  have h1 : a'.graph.hasNeighbor 1 = true := by rw [hasNeighbor_iff, hg, hc.2.1]; exact hn
  have h2 : a'.isRobotActive 1 = ok false := by
    rw [isRobotActive_eq hi', flagOf]
    have : a'.teamActive = List.replicate _ false := congrArg Agent.teamActive hf
    rw [this, List.getElem?_replicate]
    simp only [Res.ok.injEq, Bool.and_eq_false_iff]
    right
    split <;> rfl
  have h3 : a'.graph.isNeighborActive 1 = ok true := by rw [hg]; exact hc.2.2.2.2.2.2.2 1 hn
  refine ⟨a, a', h, hs, e, fun c => ?_, h1, h2, h3⟩
  have := c 1 (by decide) h1
  rw [h2, h3] at this
  cases this

/-- An agent in step whose neighbour can be deactivated. -/
example : ∃ a a', AgReach exOracle 0 exParams a ∧ InStep exParams a ∧ a.graph.hasNeighbor 1 = true ∧
    a.setRobotActive 1 false = ok a' ∧ InStep exParams a' ∧ a'.isRobotActive 1 = ok false ∧
    a'.graph.isNeighborActive 1 = ok false := by
  obtain ⟨a, -, h, hG, hs, -⟩ := exReset
  have hn : a.graph.hasNeighbor 1 = true := by rw [hasNeighbor_iff, hG.robots]; simp
  obtain ⟨a', e, -, -, -, h1, -, h2, -⟩ := C62_set h 1 false
  exact ⟨a, a', h, hs, hn, e, C62_in_step_partial h hs (op := .setRobotActive 1 false) trivial e
    (by simp) (by simp [addedBy]), h1 (by decide), h2 (by decide) hn⟩

end Dpgo.Props
