import Verif.Lemmas.AgentGuard
import Verif.Lemmas.AgentReweight
import Verif.Lemmas.AgentUpdate
import Verif.Lemmas.AgentMember

/-!
# Properties of the agent: robust weights (C27, C43, C44, C45)
-/

namespace Dpgo.Props

open Res Spec PoseGraph

variable {o : AgentOracles} {ID : Nat} {p : AgentParams} {a a' : Agent}

/-! ## C27 fixed weights -/

/-- **C27** (agent): through any calls but `setMeasurements` (which replaces the measurements) and
`setMeasurementWeight` on that very measurement, a measurement with fixed weight stays as it is. -/
theorem C27_agent {ops : List AgOp} (h : AgReach o ID p a) (hw : ∀ op ∈ ops, AgOpWF op)
    (e : a.run o ops = ok a') {m : Meas ℝ} (hm : m ∈ a.graph.measurements)
    (hf : m.fixedWeight = true)
    (hs : ∀ x y z, AgOp.setMeasurements x y z ∉ ops)
    (hx : ∀ s d w f, AgOp.setMeasurementWeight s d w f ∈ ops → hasEnds s d m = false) :
    m ∈ a'.graph.measurements := by
  induction ops using List.reverseRecOn generalizing a' with
  | nil => cases e; exact hm
  | append_singleton ops op ih =>
    obtain ⟨b, hb, he⟩ := run_snoc e
    have hmb := ih (fun x hx => hw x (by simp [hx])) hb
      (fun x y z c => hs x y z (by simp [c])) (fun s d w f c => hx s d w f (by simp [c]))
    have hib : AgInv ID p b := by
      obtain ⟨a0, l, h0, hl, hrun⟩ := h
      refine agReach_inv (o := o) ⟨a0, l ++ ops, h0, fun x hx => ?_, ?_⟩
      · rcases List.mem_append.1 hx with c | c
        · exact hl x c
        · exact hw x (by simp [c])
      · unfold Agent.run at *
        rw [foldl_append, hrun]
        exact hb
    exact keeps_step hib he (fun x y z c => hs x y z (by simp [c])) m hmb
      ⟨hf, fun s d w f c => hx s d w f (by simp [c])⟩

/-- Robot 1 fixes the weight of its loop closure at one half; the weight update, which would otherwise
write 1/100, leaves it alone. -/
example : ∃ (a a' : Agent) (m : Meas ℝ), AgReach exOracle 1 (exTrio .GM) a ∧
    m ∈ a.graph.measurements ∧ m.fixedWeight = true ∧ m.weight = 1 / 2 ∧
    a.run exOracle [.updateMeasurementWeights] = ok a' ∧ m ∈ a'.graph.measurements := by
  obtain ⟨l, a, h, -, hs, -, -, h1, h2, h3, -, -, -, -, -, h4, h5, -⟩ :=
    exMember .GM 1 2 (Or.inl ⟨rfl, rfl⟩)
  have hi := agReach_inv h.reach
  obtain ⟨⟨log, hinv⟩, hid⟩ := Reachable.inv hi.reach
  have hmem : exI 1 2 1 0 ∈ a.graph.sharedLcs := by rw [h1]; simp
  rcases hinv.find_spec ⟨1, 1⟩ ⟨2, 0⟩ with ⟨-, c⟩ | ⟨q, m, c1, c2, -⟩
  · exact absurd (c _ (by rw [hinv.shared] at hmem; exact (List.mem_filter.1 hmem).1)) (by decide)
  have e : a.step exOracle (.setMeasurementWeight ⟨1, 1⟩ ⟨2, 0⟩ (1 / 2) true) =
      ok { a with graph := a.graph.writeWeight q (1 / 2) true } := by
    simp only [Agent.step, Agent.setMeasurementWeight, c1, ok_bind]
  have hr := agReach_snoc
    (op := .setMeasurementWeight ⟨1, 1⟩ ⟨2, 0⟩ (1 / 2) true) h.reach trivial e
  have hm : { m with weight := 1 / 2, fixedWeight := true } ∈
      (a.graph.writeWeight q (1 / 2) true).measurements := by
    refine mem_measurements_iff.2 ⟨q, ?_⟩
    rw [deref_writeWeight, if_pos rfl, c2]
    rfl
  obtain ⟨a', ha'⟩ := updateWeights_total (agReach_inv hr)
    ⟨by simp [exTrio, RobustParams.default], by simp [exTrio, RobustParams.default],
      by simp [exTrio, RobustParams.default], by norm_num [exTrio, RobustParams.default]⟩
    (by simp [exTrio, RobustParams.default]) (by simp only [h4]; norm_num)
    (by simp only [h5]; simp [exTrio, AgentParams.default])
  have e' : Agent.run exOracle { a with graph := a.graph.writeWeight q (1 / 2) true }
      [.updateMeasurementWeights] = ok a' := by
    simp only [Agent.run, foldl_cons, foldl_nil, Agent.step, ha', ok_bind']
  exact ⟨_, a', _, hr, hm, rfl, rfl, e',
    C27_agent hr (by simp [AgOpWF]) e' hm rfl (by simp) (by simp)⟩

/-! ## C43 when weights are updated -/

/-- **C43** (the guard) -/
theorem C43_guard {t : List Ev} (h : Hist o ID p t a) :
    ∃ b, a.shouldUpdateMeasurementWeights = ok b ∧ (b = true ↔
      p.robust.costType ≠ .L2 ∧ (reweightsSinceReset t : Int) < p.numWeightUpdates ∧
      (p.innerIters ≤ (iteratesSinceUpdate t : Int) ∨
        ∀ rid < p.numRobots, a.isRobotActive rid = ok true →
          ∃ s, LastReport rid s t ∧ a.latestWeightUpdate ≤ s.iterationNumber ∧
            s.state = .INITIALIZED ∧ s.readyToTerminate = true)) := by
  have hi := agReach_inv h.reach
  unfold Agent.shouldUpdateMeasurementWeights
  rw [hi.params, ← weightUpdateCount_spec h]
  by_cases hL : p.robust.costType = .L2
  · exact ⟨false, if_pos hL, by simp [hL]⟩
  rw [if_neg hL, ← innerIter_spec h hL]
  by_cases hc : a.weightUpdateCount ≥ p.numWeightUpdates
  · exact ⟨false, if_pos hc, by simp [hc]⟩
  rw [if_neg hc]
  by_cases hn : a.innerIter ≥ p.innerIters
  · exact ⟨true, if_pos hn, by simp [hL, hn]; omega⟩
  rw [if_neg hn]
  obtain ⟨b, hb, hspec⟩ := teamConverged_spec hi (List.range p.numRobots) (by simp)
  refine ⟨b, hb, ?_⟩
  have hn' : ¬ p.innerIters ≤ a.innerIter := hn
  have hc' : a.weightUpdateCount < p.numWeightUpdates := by omega
  rw [hspec]
  simp only [hL, hn', hc', not_false_eq_true, false_or, true_and, ne_eq, List.mem_range,
    isRobotActive_eq hi, Res.ok.injEq, Bool.and_eq_true, decide_eq_true_eq, ← teamStatus_spec h]
  exact ⟨fun hh rid hr hf => hh rid hr hf.2, fun hh rid hr hf => hh rid hr ⟨hr, hf⟩⟩

/-- **C43** (bounded): in a history in which weights are updated only when the guard says so, at most
`robustOptNumWeightUpdates` updates happen between resets. -/
theorem C43_bounded {t : List Ev} (h : Hist o ID p t a) (hg : Guarded t) :
    (reweightsSinceReset t : Int) ≤ max 0 p.numWeightUpdates := by
  induction h with
  | new e => exact le_max_left _ _
  | @call t b b' op h hw e ih =>
    have ih := ih fun x hx => hg x (by simp [hx])
    rw [reweightsSinceReset_snoc]
    split
    · exact le_max_left _ _
    · split
      · rename_i hr
        have hc := hg ⟨b, op, b'⟩ (by simp) hr.1
        obtain ⟨x, hx, hx'⟩ := C43_guard h
        have hb : x = true := Res.ok.inj (hx.symm.trans hc)
        have := (hx'.1 hb).2.1
        push_cast
        omega
      · exact ih

/-- **C43** (L2): with the L2 cost the weights are never updated in such a history. -/
theorem C43_L2 {t : List Ev} (h : Hist o ID p t a) (hg : Guarded t) (hL : p.robust.costType = .L2) :
    ∀ e ∈ t, ¬ Reweights e := by
  rintro e he ⟨h1, -⟩
  obtain ⟨t1, t2, rfl⟩ := List.append_of_mem he
  obtain ⟨hh, -⟩ := hist_event h
  obtain ⟨x, hx, hx'⟩ := C43_guard hh
  have hc := hg e he h1
  exact (hx'.1 (Res.ok.inj (hx.symm.trans hc))).1 hL

/-- **C43** (reports): a weight update discards every report of readiness, also the agent's own, and counts
inner iterations afresh. -/
theorem C43_discard (h : AgReach o ID p a) (hs : a.state = .INITIALIZED)
    (e : a.updateMeasurementWeights = ok a') :
    a'.teamStatus = [] ∧ a'.status.readyToTerminate = false ∧ a'.innerIter = 0 ∧
    a'.latestWeightUpdate = a.iterationNumber ∧ a'.weightUpdateCount = a.weightUpdateCount + 1 := by
  have f := Agent.step_frame (op := .updateMeasurementWeights) (o := o) (agReach_inv h) e
  have f1 := congrArg Agent.teamStatus f
  have f2 := congrArg Agent.status f
  have f3 := congrArg Agent.innerIter f
  have f4 := congrArg Agent.latestWeightUpdate f
  have f5 := congrArg Agent.weightUpdateCount f
  simp only [Agent.frame, hs, if_true] at f1 f2 f3 f4 f5
  exact ⟨f1, by rw [f2], f3, f4, f5⟩

/-- **C43** (spacing): between two consecutive updates made when the guard says so, `robustOptInnerIters`
iterations have been made, or every active robot has reported itself ready after the first update, at an
iteration not before it. -/
theorem C43_spaced {t1 t2 t3 : List Ev} {e1 e2 : Ev}
    (h : Hist o ID p (t1 ++ e1 :: (t2 ++ e2 :: t3)) a) (hg : Guarded (t1 ++ e1 :: (t2 ++ e2 :: t3)))
    (h1 : Reweights e1) (h2 : Reweights e2) (hn : ∀ x ∈ t2, ¬ DropsReports x) :
    p.innerIters ≤ (numIterates t2 : Int) ∨
    ∀ rid < p.numRobots, e2.before.isRobotActive rid = ok true →
      ∃ s, LastReport rid s t2 ∧ e1.before.iterationNumber ≤ s.iterationNumber ∧
        s.state = .INITIALIZED ∧ s.readyToTerminate = true := by
  have h : Hist o ID p ((t1 ++ e1 :: t2) ++ e2 :: t3) a := by simpa using h
  obtain ⟨hh, -⟩ := hist_event h
  have hd1 : DropsReports e1 := Or.inr h1
  obtain ⟨x, hx, hx'⟩ := C43_guard hh
  have hc := hg e2 (by simp) h2.1
  obtain ⟨-, -, hor⟩ := hx'.1 (Res.ok.inj (hx.symm.trans hc))
  rw [iteratesSinceUpdate_tail hd1 hn] at hor
  refine hor.imp id fun hall rid hr ha => ?_
  obtain ⟨s, hs, hs2, hs3⟩ := hall rid hr ha
  have hlw := latestWeightUpdate_spec hh e1 ⟨t1, e1, t2, rfl, ⟨rfl, h1⟩, hn⟩
  rw [hlw] at hs2
  refine ⟨s, ?_, hs2, hs3⟩
  obtain ⟨pre, x, post, heq, hhit, hpost⟩ := hs
  -- the report was made after `e1`
  rcases List.append_eq_append_iff.1 heq with ⟨l, rfl, hl⟩ | ⟨l, rfl, hl⟩
  · cases l with
    | nil =>
      have hl : e1 :: t2 = x :: post := by simpa using hl
      obtain ⟨rfl, rfl⟩ := List.cons.inj hl
      have := hhit.1
      rw [h1.1] at this; cases this
    | cons y l =>
      have hl : e1 :: t2 = y :: (l ++ x :: post) := by simpa using hl
      obtain ⟨rfl, rfl⟩ := List.cons.inj hl
      exact ⟨l, x, post, rfl, hhit, hpost⟩
  · cases l with
    | nil =>
      have hl : x :: post = e1 :: t2 := by simpa using hl
      obtain ⟨rfl, rfl⟩ := List.cons.inj hl
      have := hhit.1
      rw [h1.1] at this; cases this
    | cons y l =>
      have hl : x :: post = y :: (l ++ e1 :: t2) := by simpa using hl
      obtain ⟨rfl, rfl⟩ := List.cons.inj hl
      exact absurd (Or.inl hd1) (hpost e1 (by simp))

/-- The robots of the example team report themselves ready, twice, and each time the weights are updated. -/
example : ∃ (t1 t2 : List Ev) (e1 e2 : Ev) (a : Agent),
    Hist exOracle 1 (exTrio .GM) (t1 ++ e1 :: (t2 ++ e2 :: [])) a ∧
    Guarded (t1 ++ e1 :: (t2 ++ e2 :: [])) ∧ Reweights e1 ∧ Reweights e2 ∧
    ∀ x ∈ t2, ¬ DropsReports x := by
  have hpar : ParamsOk (exTrio .GM).robust :=
    ⟨by simp [exTrio, RobustParams.default], by simp [exTrio, RobustParams.default],
      by simp [exTrio, RobustParams.default], by norm_num [exTrio, RobustParams.default]⟩
  -- three reports and an update
  have round : ∀ (l : List Ev) (a : Agent), Hist exOracle 1 (exTrio .GM) l a → Guarded l →
      a.state = .INITIALIZED → a.iterationNumber = 0 → a.latestWeightUpdate = 0 →
      a.weightUpdateCount < 2 → a.trajectoryResetCount = 0 →
      ∃ (t2 : List Ev) (e : Ev) (b : Agent), Hist exOracle 1 (exTrio .GM) ((l ++ t2) ++ [e]) b ∧
        Guarded ((l ++ t2) ++ [e]) ∧ Reweights e ∧ (∀ x ∈ t2, ¬ DropsReports x) ∧
        b.state = .INITIALIZED ∧ b.iterationNumber = 0 ∧ b.latestWeightUpdate = 0 ∧
        b.weightUpdateCount = a.weightUpdateCount + 1 ∧ b.trajectoryResetCount = 0 := by
    intro l a h hg hs h1 h2 h3 h4
    have k0 := Hist.call (op := .setNeighborStatus ⟨0, .INITIALIZED, 0, 0, true, 0⟩) h trivial rfl
    have k1 := Hist.call (op := .setNeighborStatus ⟨1, .INITIALIZED, 0, 0, true, 0⟩) k0 trivial rfl
    have k2 := Hist.call (op := .setNeighborStatus ⟨2, .INITIALIZED, 0, 0, true, 0⟩) k1 trivial rfl
    generalize hb : Agent.setNeighborStatus (Agent.setNeighborStatus (Agent.setNeighborStatus a
      ⟨0, .INITIALIZED, 0, 0, true, 0⟩) ⟨1, .INITIALIZED, 0, 0, true, 0⟩)
      ⟨2, .INITIALIZED, 0, 0, true, 0⟩ = b at k2
    have b1 : b.state = .INITIALIZED := by rw [← hb]; exact hs
    have b2 : b.iterationNumber = 0 := by rw [← hb]; exact h1
    have b3 : b.latestWeightUpdate = 0 := by rw [← hb]; exact h2
    have b4 : b.weightUpdateCount = a.weightUpdateCount := by rw [← hb]; rfl
    have b5 : b.trajectoryResetCount = 0 := by rw [← hb]; exact h4
    have b6 : ∀ rid < 3, OMap.find? ltNat rid b.teamStatus = some ⟨rid, .INITIALIZED, 0, 0, true, 0⟩ := by
      intro rid hr
      rw [← hb]
      simp only [Agent.setNeighborStatus, OMap.find?_insert strictTotal_ltNat]
      have : rid = 0 ∨ rid = 1 ∨ rid = 2 := by omega
      rcases this with rfl | rfl | rfl <;> rfl
    obtain ⟨c, hc⟩ := updateWeights_total (agReach_inv k2.reach) hpar
      (by simp [exTrio, RobustParams.default]) (by rw [b4]; omega)
      (by rw [b5]; simp [exTrio, AgentParams.default])
    have hgd : b.shouldUpdateMeasurementWeights = ok true := by
      obtain ⟨x, hx, hx'⟩ := C43_guard k2
      rw [hx, hx'.2 ⟨by simp [exTrio, RobustParams.default], ?_, Or.inr ?_⟩]
      · rw [← weightUpdateCount_spec k2, b4]
        simp [exTrio, AgentParams.default]; omega
      · intro rid hr _
        exact ⟨_, (teamStatus_spec k2 rid _).1 (b6 rid hr), by rw [b3], rfl, rfl⟩
    have k3 := Hist.call (op := .updateMeasurementWeights) (a' := c) k2 trivial hc
    obtain ⟨-, -, -, c4, c5⟩ := C43_discard k2.reach b1 hc
    have f := Agent.step_frame (op := .updateMeasurementWeights) (o := exOracle)
      (agReach_inv k2.reach) hc
    have c1 : c.state = .INITIALIZED := (congrArg Agent.state f).trans b1
    have c2 : c.iterationNumber = 0 := (congrArg Agent.iterationNumber f).trans b2
    refine ⟨[⟨_, _, _⟩, ⟨_, _, _⟩, ⟨_, _, _⟩], _, c, by simpa using k3, ?_, ⟨rfl, b1⟩, ?_, c1, c2,
      c4.trans b2, by rw [c5, b4], ?_⟩
    · intro e he ho
      simp only [List.append_assoc, List.mem_append, List.mem_cons, List.not_mem_nil, or_false] at he
      rcases he with he | he | he
      · exact hg e he ho
      · rcases he with rfl | rfl | rfl <;> cases ho
      · rw [he]; exact hgd
    · intro x hx
      simp only [List.mem_cons, List.not_mem_nil, or_false] at hx
      unfold DropsReports
      rcases hx with rfl | rfl | rfl <;> simp
    · rcases Agent.updateMeasurementWeights_form (agReach_inv k2.reach).reach hc with
        ⟨x, -⟩ | ⟨-, ps, g, b', -, -, -, -, hb', rfl⟩
      · exact absurd b1 x
      · rw [Agent.resync_frame]
        rcases Agent.resetTrajectory_form hb' with ⟨-, rfl⟩ | ⟨x, -⟩
        · exact b5
        · have x : b.trajectoryResetCount < b.params.numResets := x
          rw [b5, (agReach_inv k2.reach).params] at x
          simp [exTrio, AgentParams.default] at x
  obtain ⟨l, a, h, hl, hs, -, -, -, -, -, -, -, -, -, -, h4, h5, h6, -, -, -, hlw, -⟩ :=
    exMember .GM 1 2 (Or.inl ⟨rfl, rfl⟩)
  obtain ⟨t2, e, b, hb, gb, rb, -, b1, b2, b3, b4, b5⟩ :=
    round l a h (fun e he c => absurd c (hl e he)) hs h6 hlw (by omega) h5
  obtain ⟨t2', e', c, hc, gc, rc, dc, -⟩ := round _ b hb gb b1 b2 b3 (by omega) b5
  exact ⟨l ++ t2, t2', e, e', c, by simpa using hc, by simpa using gc, rb, rc, dc⟩

/-! ## C44 what a weight update does -/

/-- **C44** (the measurements): one by one, a loop closure that is live, not fixed and has both end poses
known gets the robust weight of its residual; everything else in the graph stays the same, but for the
data matrices, which are dropped. -/
theorem C44_weights (h : AgReach o ID p a) (hs : a.state = .INITIALIZED)
    (e : a.updateMeasurementWeights = ok a') :
    a'.graph.odometry = a.graph.odometry ∧
    List.Forall₂ (Updated ID p a) a.graph.privateLcs a'.graph.privateLcs ∧
    List.Forall₂ (Updated ID p a) a.graph.sharedLcs a'.graph.sharedLcs ∧
    a'.graph = { a.graph.clearDataMatrices with
      privateLcs := a'.graph.privateLcs, sharedLcs := a'.graph.sharedLcs } :=
  updateWeights_lists (agReach_inv h) hs e

/-- **C44** (not initialised): nothing happens. -/
theorem C44_uninitialized (hs : a.state ≠ .INITIALIZED) : a.updateMeasurementWeights = ok a :=
  if_pos hs

/-- **C44** (the agent): estimate and stored poses stay the same, unless a trajectory reset is due, when
the estimate becomes the initial guess and the stores are emptied; auxiliary sequences follow the
estimate; the robust cost advances; nothing else changes but what C43 lists. -/
theorem C44_rest (h : AgReach o ID p a) (hs : a.state = .INITIALIZED)
    (e : a.updateMeasurementWeights = ok a') :
    (p.numResets ≤ a.trajectoryResetCount → a'.X = a.X ∧ a'.neighborPoses = a.neighborPoses ∧
      a'.neighborAuxPoses = a.neighborAuxPoses ∧ a'.trajectoryResetCount = a.trajectoryResetCount) ∧
    (a.trajectoryResetCount < p.numResets → a.XInit = some a'.X ∧ a'.neighborPoses = [] ∧
      a'.neighborAuxPoses = [] ∧ a'.trajectoryResetCount = a.trajectoryResetCount + 1) ∧
    (p.acceleration = true → a'.XPrev = a'.X ∧ a'.V = a'.X ∧ a'.Y = a'.X ∧ a'.gamma = 0 ∧ a'.alpha = 0) ∧
    a'.cost = a.cost.update ∧
    a' = { a with
      graph := a'.graph, weightUpdateCount := a'.weightUpdateCount
      latestWeightUpdate := a'.latestWeightUpdate, innerIter := a'.innerIter, cost := a'.cost
      teamStatus := a'.teamStatus, status := a'.status
      trajectoryResetCount := a'.trajectoryResetCount, X := a'.X, neighborPoses := a'.neighborPoses
      neighborAuxPoses := a'.neighborAuxPoses, XPrev := a'.XPrev, gamma := a'.gamma
      alpha := a'.alpha, V := a'.V, Y := a'.Y } := by
  have hi := agReach_inv h
  rcases Agent.updateMeasurementWeights_form hi.reach e with
    ⟨c, -⟩ | ⟨-, ps, g, b, -, -, -, -, hb, rfl⟩
  · exact absurd hs c
  have hbs : b.state = .INITIALIZED ∧ b.params = p ∧ b.cost = a.cost.update := by
    rcases Agent.resetTrajectory_form hb with ⟨-, rfl⟩ | ⟨-, -, X, -, rfl⟩ <;>
      exact ⟨hs, hi.params, rfl⟩
  have hX : b.resync.X = b.X ∧ b.resync.neighborPoses = b.neighborPoses ∧
      b.resync.neighborAuxPoses = b.neighborAuxPoses ∧
      b.resync.trajectoryResetCount = b.trajectoryResetCount ∧ b.resync.cost = b.cost := by
    rw [Agent.resync_frame]
    exact ⟨rfl, rfl, rfl, rfl, rfl⟩
  rw [hX.1, hX.2.1, hX.2.2.1, hX.2.2.2.1, hX.2.2.2.2]
  refine ⟨fun hr => ?_, fun hr => ?_, fun hp => ?_, hbs.2.2, ?_⟩
  · rcases Agent.resetTrajectory_form hb with ⟨-, rfl⟩ | ⟨c, -⟩
    · exact ⟨rfl, rfl, rfl, rfl⟩
    · have c : a.trajectoryResetCount < a.params.numResets := c
      rw [hi.params] at c; omega
  · rcases Agent.resetTrajectory_form hb with ⟨c, -⟩ | ⟨-, -, X, hXi, rfl⟩
    · have c : ¬ a.trajectoryResetCount < a.params.numResets := c
      rw [hi.params] at c; omega
    · exact ⟨hXi, rfl, rfl, rfl⟩
  · unfold Agent.resync
    rw [if_pos ⟨by rw [hbs.2.1]; exact hp, hbs.1⟩]
    exact ⟨rfl, rfl, rfl, rfl, rfl⟩
  · have f := Agent.step_frame (op := .updateMeasurementWeights) (o := o) hi e
    rw [← hX.1, ← hX.2.1, ← hX.2.2.1, ← hX.2.2.2.1, ← hX.2.2.2.2]
    have f1 := congrArg Agent.teamStatus f
    have f2 := congrArg Agent.status f
    have f3 := congrArg Agent.innerIter f
    have f4 := congrArg Agent.latestWeightUpdate f
    have f5 := congrArg Agent.weightUpdateCount f
    have f6 := congrArg Agent.cost f
    rw [f1, f2, f3, f4, f5, f6]
    exact f

/-- **C44** (totality): with usable cost parameters a weight update always returns, except that a due
trajectory reset needs an initial guess. -/
theorem C44_total (h : AgReach o ID p a) (hp : ParamsOk p.robust) (hL1 : p.robust.costType ≠ .L1)
    (hk : a.weightUpdateCount + 1 < 2 ^ 31)
    (hr : a.trajectoryResetCount < p.numResets →
      a.trajectoryResetCount + 1 < 2 ^ 31 ∧ ∃ X, a.XInit = some X) :
    ∃ a', a.updateMeasurementWeights = ok a' :=
  updateWeights_total (agReach_inv h) hp hL1 hk hr

/-! ## C45 both robots compute the same weight -/

/-- **C45** -/
theorem C45_agree {oA oB : AgentOracles} {i j : Nat} {q : AgentParams} {b b' : Agent}
    (hij : i ≠ j) (hr : q.r = p.r) (hd : q.d = p.d)
    (ha : AgReach oA i p a) (hb : AgReach oB j q b)
    (hsa : a.state = .INITIALIZED) (hsb : b.state = .INITIALIZED)
    (uab : UpToDate p.r p.d i a b) (uba : UpToDate p.r p.d j b a) (hcost : a.cost = b.cost)
    {m m' : Meas ℝ} (hm : m ∈ a.graph.sharedLcs) (hm' : m' ∈ b.graph.sharedLcs)
    (hmm : m' = { m with weight := m'.weight })
    (hends : m.r1 = i ∧ m.r2 = j ∨ m.r1 = j ∧ m.r2 = i) (hf : m.fixedWeight = false)
    (la : Live i a m) (lb : Live j b m') (ka : EndsKnown i a m) (kb : EndsKnown j b m')
    (ea : a.updateMeasurementWeights = ok a') (eb : b.updateMeasurementWeights = ok b') :
    ∃ w, { m with weight := w } ∈ a'.graph.sharedLcs ∧ { m' with weight := w } ∈ b'.graph.sharedLcs := by
  obtain ⟨-, -, ua, -⟩ := C44_weights ha hsa ea
  obtain ⟨-, -, ub, -⟩ := C44_weights hb hsb eb
  obtain ⟨n, hn, un⟩ := forall₂_mem ua hm
  obtain ⟨n', hn', un'⟩ := forall₂_mem ub hm'
  obtain ⟨⟨A, x, hA⟩, B, y, hB⟩ := ka
  obtain ⟨⟨A', x', hA'⟩, B', y', hB'⟩ := kb
  have ht : tailId m' = tailId m := by rw [hmm]; rfl
  have hh : headId m' = headId m := by rw [hmm]; rfl
  obtain ⟨w, hw, rfl⟩ := un.2 hf la A x B y hA hB
  obtain ⟨w', hw', rfl⟩ := un'.2 (by rw [hmm]; exact hf) lb A' x' B' y' hA' hB'
  have hres : resid p.r p.d m A x B y = resid q.r q.d m' A' x' B' y' := by
    rw [hr, hd]
    have hone : ∀ k A x A' x', (k.robot = i ∨ k.robot = j) → Holds i a k A x → Holds j b k A' x' →
        ∀ ρ < p.r, ∀ c < p.d + 1, A.v ρ (x * (p.d + 1) + c) = A'.v ρ (x' * (p.d + 1) + c) := by
      intro k A x A' x' hk h1 h2 ρ hρ c hc
      rcases h1 with ⟨c1, rfl, rfl⟩ | ⟨c1, rfl, P, hP, rfl⟩ <;>
        rcases h2 with ⟨c2, rfl, rfl⟩ | ⟨c2, rfl, P', hP', rfl⟩
      · exact absurd (c1.symm.trans c2) hij
      · rw [Nat.zero_mul, Nat.zero_add]
        exact (uab k P' c1 hP' ρ hρ c hc).symm
      · rw [Nat.zero_mul, Nat.zero_add]
        exact uba k P c2 hP ρ hρ c hc
      · rcases hk with hk | hk
        · exact absurd hk c1
        · exact absurd hk c2
    rw [ht] at hA'
    rw [hh] at hB'
    refine resid_congr (by rw [hmm]) (by rw [hmm]) (by rw [hmm]) (by rw [hmm])
      (hone _ A x A' x' ?_ hA hA') (hone _ B y B' y' ?_ hB hB') <;>
      simp only [tailId, headId] <;> omega
  rw [hres, hcost, hw'] at hw
  cases hw
  exact ⟨w, hn, hn'⟩

/-- The two robots of the example team, whose poses are three units apart: both lower the weight of the
loop closure between them from 1 to 1/100. -/
example : ∃ (a b a' b' : Agent) (m : Meas ℝ), AgReach exOracle 1 (exTrio .GM) a ∧
    AgReach exOracle 2 (exTrio .GM) b ∧ a.state = .INITIALIZED ∧ b.state = .INITIALIZED ∧
    UpToDate 3 2 1 a b ∧ UpToDate 3 2 2 b a ∧ a.cost = b.cost ∧ m ∈ a.graph.sharedLcs ∧
    m ∈ b.graph.sharedLcs ∧ m.r1 = 1 ∧ m.r2 = 2 ∧ m.fixedWeight = false ∧ m.weight = 1 ∧ Live 1 a m ∧
    Live 2 b m ∧ EndsKnown 1 a m ∧ EndsKnown 2 b m ∧ a.updateMeasurementWeights = ok a' ∧
    b.updateMeasurementWeights = ok b' ∧ { m with weight := 1 / 100 } ∈ a'.graph.sharedLcs ∧
    { m with weight := 1 / 100 } ∈ b'.graph.sharedLcs := by
  have hpar : ParamsOk (exTrio .GM).robust :=
    ⟨by simp [exTrio, RobustParams.default], by simp [exTrio, RobustParams.default],
      by simp [exTrio, RobustParams.default], by norm_num [exTrio, RobustParams.default]⟩
  have tot : ∀ {ID : Nat} {a : Agent}, AgReach exOracle ID (exTrio .GM) a → a.weightUpdateCount = 0 →
      a.trajectoryResetCount = 0 → ∃ a', a.updateMeasurementWeights = ok a' := fun h h1 h2 =>
    C44_total h hpar (by simp [exTrio, RobustParams.default]) (by rw [h1]; norm_num)
      (by rw [h2]; simp [exTrio, AgentParams.default])
  obtain ⟨l, a, h, -, hs, hX, hn, hl, -, -, hact, -, -, -, hc, h4, h5, -⟩ :=
    exMember .GM 1 2 (Or.inl ⟨rfl, rfl⟩)
  obtain ⟨l', b, h', -, hs', hX', hn', hl', -, -, hact', -, -, -, hc', h4', h5', -⟩ :=
    exMember .GM 2 1 (Or.inr ⟨rfl, rfl⟩)
  obtain ⟨a', ea⟩ := tot h.reach h4 h5
  obtain ⟨b', eb⟩ := tot h'.reach h4' h5'
  have hm : exI 1 2 1 0 ∈ a.graph.sharedLcs := by rw [hl]; simp
  have hm' : exI 1 2 1 0 ∈ b.graph.sharedLcs := by rw [hl']; simp
  have uab : UpToDate 3 2 1 a b := by
    intro k P hk hP ρ hρ c hc
    rw [hn', List.mem_singleton] at hP
    cases hP
    rw [hX]
    have : (1 * 3 + c) % 3 = c % 3 := by omega
    simp [exPoseOf, exEst, exKey, this]
  have uba : UpToDate 3 2 2 b a := by
    intro k P hk hP ρ hρ c hc
    rw [hn, List.mem_singleton] at hP
    cases hP
    rw [hX']
    simp [exPoseOf, exEst, exKey]
  have la : Live 1 a (exI 1 2 1 0) := Or.inr hact
  have lb : Live 2 b (exI 1 2 1 0) := Or.inr hact'
  have a1 : Holds 1 a (tailId (exI 1 2 1 0)) a.X.X 1 := Or.inl ⟨rfl, rfl, rfl⟩
  have a2 : Holds 1 a (headId (exI 1 2 1 0)) (exPoseOf 2).X 0 :=
    Or.inr ⟨by decide, rfl, exPoseOf 2, by rw [hn]; simp [headId, exI, exKey], rfl⟩
  have b1 : Holds 2 b (tailId (exI 1 2 1 0)) (exPoseOf 1).X 0 :=
    Or.inr ⟨by decide, rfl, exPoseOf 1, by rw [hn']; simp [tailId, exI, exKey], rfl⟩
  have b2 : Holds 2 b (headId (exI 1 2 1 0)) b.X.X 0 := Or.inl ⟨rfl, rfl, rfl⟩
  obtain ⟨w, h1, h2⟩ := C45_agree (by decide) rfl rfl h.reach h'.reach hs hs' uab uba
    (hc.trans hc'.symm) hm hm' rfl (Or.inl ⟨rfl, rfl⟩) rfl la lb ⟨⟨_, _, a1⟩, _, _, a2⟩
    ⟨⟨_, _, b1⟩, _, _, b2⟩ ea eb
  have hw : w = 1 / 100 := by
    obtain ⟨-, -, u, -⟩ := C44_weights h.reach hs ea
    rw [hl] at u
    obtain ⟨n, hn1, hu⟩ := forall₂_mem u (x := exI 1 2 1 0) (by simp)
    obtain ⟨x, hx, hx'⟩ := hu.2 rfl la _ _ _ _ a1 a2
    have hlen : a'.graph.sharedLcs = [n] := by
      have := u.length_eq
      match hh : a'.graph.sharedLcs, this with
      | [y], _ => rw [hh, List.mem_singleton] at hn1; rw [hn1]
    rw [hlen, List.mem_singleton] at h1
    have hwx : w = x := (congrArg Meas.weight h1).trans (congrArg Meas.weight hx')
    have hres : resid 3 2 (exI 1 2 1 0) a.X.X 1 (exPoseOf 2).X 0 = 3 := by
      have : resid 3 2 (exI 1 2 1 0) (exEst 1) 1 (exPoseOf 2).X 0 = Real.sqrt (3 ^ 2) := by
        unfold resid rotRes traRes rot tra
        simp [Finset.sum_range_succ, exI, exEst, exPoseOf, DMat.one, DMat.zero]
        norm_num
      rw [hX, this]
      exact Real.sqrt_sq (by norm_num)
    rw [show (exTrio .GM).r = 3 from rfl, show (exTrio .GM).d = 2 from rfl, hres, hc] at hx
    have hx : ok (1 / ((1 + 3 * 3) * (1 + 3 * 3) : ℝ)) = ok x := hx
    rw [hwx, ← Res.ok.inj hx]
    norm_num
  subst hw
  exact ⟨a, b, a', b', _, h.reach, h'.reach, hs, hs', uab, uba, hc.trans hc'.symm, hm, hm', rfl, rfl,
    rfl, rfl, la, lb, ⟨⟨_, _, a1⟩, _, _, a2⟩, ⟨⟨_, _, b1⟩, _, _, b2⟩, ea, eb, h1, h2⟩

end Dpgo.Props
