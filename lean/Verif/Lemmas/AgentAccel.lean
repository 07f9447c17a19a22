import Verif.Lemmas.AgentIterate
import Verif.Lemmas.AgentHist
import Verif.Spec.Accel

/-! # The accelerated sequences -/

namespace Dpgo

open Res Spec PoseGraph

variable {o : AgentOracles} {ID : Nat} {p : AgentParams} {a a' : Agent}

/-! ### The recurrence -/

theorem gamma_step {N : Nat} (hN : 0 < N) (x y : ℝ)
    (hy : y = (1 + Real.sqrt (1 + 4 * (N : ℝ) ^ 2 * x ^ 2)) / (2 * N)) :
    N * y ^ 2 - y = N * x ^ 2 ∧ |x| + 1 / (2 * N) ≤ y ∧ y ≤ |x| + 1 / N ∧ 1 ≤ y * N := by
  have hn : (0 : ℝ) < N := by exact_mod_cast hN
  set s := Real.sqrt (1 + 4 * (N : ℝ) ^ 2 * x ^ 2) with hs
  have h0 : 0 ≤ s := Real.sqrt_nonneg _
  have h1 : s ^ 2 = 1 + 4 * (N : ℝ) ^ 2 * x ^ 2 := Real.sq_sqrt (by positivity)
  have hx : |x| ^ 2 = x ^ 2 := sq_abs x
  have hax : 0 ≤ |x| := abs_nonneg x
  have hnx : 0 ≤ N * |x| := by positivity
  have h2 : 2 * N * |x| ≤ s := by
    refine abs_le_of_sq_le_sq' ?_ h0 |>.2
    rw [h1, mul_pow, hx]; nlinarith
  have h3 : s ≤ 1 + 2 * N * |x| := by
    refine abs_le_of_sq_le_sq' ?_ (by positivity) |>.2
    rw [h1]
    have : (1 + 2 * N * |x|) ^ 2 = 1 + 4 * (N * |x|) + 4 * (N : ℝ) ^ 2 * x ^ 2 := by
      rw [← hx]; ring
    rw [this]; linarith
  have h4 : 1 ≤ s := by
    refine abs_le_of_sq_le_sq' ?_ h0 |>.2
    rw [h1]
    have : 0 ≤ 4 * (N : ℝ) ^ 2 * x ^ 2 := by positivity
    linarith
  have hyN : y * (2 * N) = 1 + s := by rw [hy]; field_simp
  refine ⟨?_, ?_, ?_, by linarith⟩
  · have : 4 * N * (N * y ^ 2 - y - N * x ^ 2) = 0 := by
      have e : (y * (2 * N)) ^ 2 - 2 * (y * (2 * N)) = 4 * (N : ℝ) ^ 2 * x ^ 2 := by
        rw [hyN]; nlinarith
      linear_combination e
    have h5 : N * y ^ 2 - y - N * x ^ 2 = 0 := by
      rcases mul_eq_zero.1 this with c | c
      · exact absurd c (by positivity)
      · exact c
    linarith
  · have : |x| + 1 / (2 * N) = (2 * N * |x| + 1) / (2 * N) := by field_simp
    rw [this, hy]
    apply div_le_div_of_nonneg_right _ (by positivity)
    linarith
  · have : |x| + 1 / N = (2 * N * |x| + 2) / (2 * N) := by field_simp
    rw [this, hy]
    apply div_le_div_of_nonneg_right _ (by positivity)
    linarith

/-! ### One iteration -/

theorem restartsNext_iff {b : Agent} (hn : b.iterationNumber = u32 (a.iterationNumber + 1)) :
    u32 (b.iterationNumber + 1) % p.restartInterval = 0 ↔ RestartsNext p a := by
  unfold RestartsNext
  rw [hn, u32_succ]

/-- What an accelerated iteration does to the sequences. -/
theorem iterate_accel {doOpt s : Bool} (hs : a.state = .INITIALIZED) (hp : a.params.acceleration = true)
    (e : a.iterate o doOpt = ok (s, a')) :
    a.params.restartInterval ≠ 0 ∧ u32 (2 * a.params.numRobots) ≠ 0 ∧
    ((RestartsNext a.params a ∧ a'.gamma = 0 ∧ a'.alpha = 0 ∧ a'.V = a'.X ∧ a'.Y = a'.X ∧
        ∃ c b c', Agent.updateX o c doOpt false = ok (b, c') ∧ a'.X = c'.X ∧ a'.graph = c'.graph ∧
          c.X = a.X ∧ c.neighborPoses = a.neighborPoses ∧ c.state = a.state ∧ c.params = a.params ∧
          Steps Agent.updating a.graph c.graph) ∨
     (¬ RestartsNext a.params a ∧
        a'.gamma = (1 + Real.sqrt (1 + 4 * (a.params.numRobots : ℝ) ^ 2 * a.gamma ^ 2)) /
          (u32 (2 * a.params.numRobots) : ℝ) ∧
        a'.alpha = 1 / (a'.gamma * a.params.numRobots))) := by
  obtain ⟨b, hb, hc⟩ := Agent.iterate_form e
  obtain ⟨k, -, -, rfl⟩ := Agent.tick_form hb
  rcases hc with ⟨-, hc⟩ | ⟨c, -⟩
  swap
  · exact absurd hs c
  obtain ⟨c, c', hc1, hc2, rfl⟩ := Agent.iterateBody_form hc
  have key : a.params.restartInterval ≠ 0 ∧ u32 (2 * a.params.numRobots) ≠ 0 ∧
    ((RestartsNext a.params a ∧ c.gamma = 0 ∧ c.alpha = 0 ∧ c.V = c.X ∧ c.Y = c.X ∧
        ∃ x b x', Agent.updateX o x doOpt false = ok (b, x') ∧ c.X = x'.X ∧ c.graph = x'.graph ∧
          x.X = a.X ∧ x.neighborPoses = a.neighborPoses ∧ x.state = a.state ∧ x.params = a.params ∧
          Steps Agent.updating a.graph x.graph) ∨
     (¬ RestartsNext a.params a ∧
        c.gamma = (1 + Real.sqrt (1 + 4 * (a.params.numRobots : ℝ) ^ 2 * a.gamma ^ 2)) /
          (u32 (2 * a.params.numRobots) : ℝ) ∧
        c.alpha = 1 / (c.gamma * a.params.numRobots))) := by
    rcases hc1 with ⟨-, hc1⟩ | ⟨x, -⟩
    swap
    · have x : a.params.acceleration = false := x
      rw [hp] at x; cases x
    obtain ⟨a1, a2, a3, a4, a5, r, e1, e2, e3, e4, e5, e6, e7⟩ := Agent.accelStep_form hc1
    obtain ⟨-, -, hN, rfl⟩ := Agent.updateGamma_form e1
    obtain ⟨-, -, -, rfl⟩ := Agent.updateAlpha_form e2
    obtain ⟨-, -, P, -, -, -, rfl⟩ := Agent.updateY_form e3
    obtain ⟨f4, st4⟩ := Agent.updateX_frame e4
    obtain ⟨-, -, R, -, -, -, h5⟩ := Agent.updateV_form e5
    have k1 : a5.gamma = (1 + Real.sqrt (1 + 4 * (a.params.numRobots : ℝ) ^ 2 * a.gamma ^ 2)) /
          (u32 (2 * a.params.numRobots) : ℝ) := by rw [h5]; show a4.gamma = _; rw [f4]
    have k2 : a5.alpha = 1 / (a5.gamma * a.params.numRobots) := by
      rw [k1, h5]; show a4.alpha = _; rw [f4]
    have k3 : a5.XPrev = a.X := by rw [h5]; show a4.XPrev = _; rw [f4]
    have k4 : a5.neighborPoses = a.neighborPoses := by rw [h5]; show a4.neighborPoses = _; rw [f4]
    have k5 : a5.iterationNumber = u32 (a.iterationNumber + 1) := by
      rw [h5]; show a4.iterationNumber = _; rw [f4]
    have k6 : a5.params = a.params := by rw [h5]; show a4.params = _; rw [f4]
    have k7 : a5.state = a.state := by rw [h5]; show a4.state = _; rw [f4]
    have k8 : Steps Agent.updating a.graph a5.graph := by rw [h5]; exact st4
    clear h5 f4
    rcases Agent.shouldRestart_form e6 with ⟨c, -⟩ | ⟨-, hI, c⟩
    · rw [k6, hp] at c; cases c
    rw [k6] at hI c
    refine ⟨hI, hN, ?_⟩
    rcases e7 with ⟨hr, rfl⟩ | ⟨hr, e7⟩
    · refine Or.inr ⟨?_, k1, k2⟩
      rw [hr] at c
      rw [← restartsNext_iff k5]
      simpa using c.symm
    · rcases Agent.restart_form e7 with ⟨x, -⟩ | ⟨-, b', x, e8, rfl⟩
      · exact absurd ⟨by rw [k6]; exact hp, by rw [k7]; exact hs⟩ x
      · refine Or.inl ⟨?_, rfl, rfl, rfl, rfl, _, _, _, e8, rfl, rfl, k3, k4, k7, k6, k8⟩
        rw [hr] at c
        rw [← restartsNext_iff k5]
        simpa using c.symm
  rcases hc2 with ⟨-, hc2⟩ | ⟨-, rfl⟩
  · obtain ⟨_, _, -, -, _, -, rfl⟩ := Agent.iterateStatus_form hc2
    exact key
  · exact key

/-- The report of an iteration is computed from the new and the previous estimate. -/
theorem iterate_report {s : Bool} (hs : a.state = .INITIALIZED) (e : a.iterate o true = ok (s, a')) :
    ∃ d st, PArr.maxTranslationDistance a'.X a.X = ok d ∧ a'.graph.statistics = ok st := by
  obtain ⟨b, hb, hc⟩ := Agent.iterate_form e
  obtain ⟨k, -, -, rfl⟩ := Agent.tick_form hb
  rcases hc with ⟨-, hc⟩ | ⟨c, -⟩
  swap
  · exact absurd hs c
  obtain ⟨c, c', hc1, ⟨-, hc2⟩ | ⟨x, -⟩, rfl⟩ := Agent.iterateBody_form hc
  swap
  · cases x
  obtain ⟨d, st, h1, h2, ready, -, rfl⟩ := Agent.iterateStatus_form hc2
  have f : c.XPrev = a.X := by
    rcases hc1 with ⟨-, hc1⟩ | ⟨-, hc1⟩
    · exact congrArg Agent.XPrev (Agent.accelStep_frame hc1).1
    · exact congrArg Agent.XPrev (Agent.updateX_frame hc1).1
  rw [f] at h1
  exact ⟨d, st, h1, h2⟩

/-- The step depends only on the estimate, the graph and the poses received. -/
theorem updateX_agree {c c' q : Agent} {doOpt b : Bool}
    (e : Agent.updateX o c doOpt false = ok (b, c')) (h1 : q.state = c.state) (h2 : q.X = c.X)
    (h3 : q.graph = c.graph) (h4 : q.neighborPoses = c.neighborPoses) (h5 : q.calls = c.calls)
    (h6 : q.params.localOpt = c.params.localOpt) :
    Agent.updateX o q doOpt false = ok (b, { q with X := c'.X, graph := c'.graph, calls := c'.calls }) := by
  unfold Agent.updateX at e ⊢
  cases doOpt with
  | false =>
    simp only [Bool.not_false, if_true, Bool.false_eq_true, if_false, Res.ok.injEq, Prod.mk.injEq] at e ⊢
    obtain ⟨h, rfl⟩ := e
    refine ⟨h, ?_⟩
    rw [← h2, ← h3, ← h5]
  | true =>
    simp only [Bool.not_true, Bool.false_eq_true, if_false, Bool.not_false, Bool.true_or, check_true,
      ok_bind] at e ⊢
    rw [h1, h3, h4]
    rw [bind_eq_ok] at e
    obtain ⟨_, k1, e⟩ := e
    rw [k1, ok_bind]
    rw [bind_eq_ok] at e
    obtain ⟨⟨built, g⟩, k2, e⟩ := e
    rw [k2, ok_bind]
    cases built with
    | false =>
      simp only [Bool.false_eq_true, if_false, Res.ok.injEq, Prod.mk.injEq] at e ⊢
      obtain ⟨h, rfl⟩ := e
      refine ⟨h, ?_⟩
      rw [← h2, ← h5]
    | true =>
      simp only [if_true] at e ⊢
      unfold Agent.optimizeX at e ⊢
      simp only [Bool.false_eq_true, if_false] at e ⊢
      rw [h2, h5, h6]
      simp only [bind_eq_ok] at e
      obtain ⟨_, j1, _, j2, ⟨Z, res, g2⟩, j3, X, j4, e⟩ := e
      rw [j1, ok_bind, j2, ok_bind, j3, ok_bind]
      simp only [j4, ok_bind]
      simp only [Res.ok.injEq, Prod.mk.injEq] at e ⊢
      obtain ⟨h, rfl⟩ := e
      exact ⟨h, by simp only [h1, h4]⟩

/-- A restarting iteration gives the estimate of a plain one. -/
theorem iterate_restart_plain {doOpt s : Bool} (hs : a.state = .INITIALIZED)
    (hp : a.params.acceleration = true) (hr : RestartsNext a.params a)
    (e : a.iterate o doOpt = ok (s, a')) :
    ∃ g k s' b, Agent.iterate o { a with params := plain a.params, graph := g, calls := k } doOpt =
        ok (s', b) ∧ b.X = a'.X ∧ Steps Agent.updating a.graph g := by
  obtain ⟨-, -, ⟨-, -, -, -, -, c, b, c', e1, x1, x2, y1, y2, y3, y4, y5⟩ | ⟨k, -⟩⟩ :=
    iterate_accel hs hp e
  swap
  · exact absurd hr k
  obtain ⟨b0, hb, -⟩ := Agent.iterate_form e
  set q : Agent := { a with params := plain a.params, graph := c.graph, calls := c.calls } with hq
  have ht : ∃ k, q.tick = ok { q with iterationNumber := u32 (a.iterationNumber + 1), innerIter := k } := by
    unfold Agent.tick at hb ⊢
    by_cases c : a.params.robust.costType ≠ .L2
    · rw [if_pos c, bind_eq_ok] at hb
      obtain ⟨k, hk, -⟩ := hb
      rw [if_pos (show q.params.robust.costType ≠ .L2 from c), show incInt q.innerIter = ok k from hk,
        ok_bind]
      exact ⟨k, rfl⟩
    · rw [if_neg (show ¬ q.params.robust.costType ≠ .L2 from c), ok_bind]
      exact ⟨_, rfl⟩
  obtain ⟨k, ht⟩ := ht
  set q1 : Agent := { q with
    iterationNumber := u32 (a.iterationNumber + 1), innerIter := k, XPrev := a.X } with hq1
  have e2 := updateX_agree (q := q1) e1 y3.symm y1.symm rfl y2.symm rfl (by rw [y4]; rfl)
  set q2 : Agent := { q1 with X := c'.X, graph := c'.graph, calls := c'.calls } with hq2
  have hstat : doOpt = true → ∃ z, q2.iterateStatus b = ok z ∧ z.X = q2.X := by
    rintro rfl
    obtain ⟨d, st, d1, d2⟩ := iterate_report hs e
    unfold Agent.iterateStatus
    have d1 : PArr.maxTranslationDistance q2.X q2.XPrev = ok d := by rw [← d1, x1]
    have d2 : q2.graph.statistics = ok st := by rw [← d2, x2]
    rw [d1, ok_bind]
    simp only
    rw [d2, ok_bind]
    exact ⟨_, rfl, rfl⟩
  have hb : ∃ z, Agent.iterateBody o { q with
      iterationNumber := u32 (a.iterationNumber + 1), innerIter := k } doOpt = ok (b, z) ∧ z.X = q2.X := by
    unfold Agent.iterateBody
    rw [if_neg (show ¬ (plain a.params).acceleration = true from by simp [plain])]
    have e2 : Agent.updateX o { q with
      iterationNumber := u32 (a.iterationNumber + 1), innerIter := k, XPrev := q.X } doOpt false =
        ok (b, q2) := e2
    simp only [e2, ok_bind]
    cases doOpt with
    | true =>
      obtain ⟨z, hz, hz'⟩ := hstat rfl
      simp only [hz, ok_bind, if_true]
      exact ⟨_, rfl, hz'⟩
    | false => exact ⟨_, rfl, rfl⟩
  obtain ⟨z, hz, hz'⟩ := hb
  refine ⟨c.graph, c.calls, b, z, ?_, hz'.trans x1.symm, y5⟩
  unfold Agent.iterate
  rw [← hq, ht, ok_bind, if_pos (show a.state = .INITIALIZED from hs)]
  exact hz

/-- With restart interval zero an iteration is undefined. -/
theorem iterate_zero (hd : 0 < p.d) (h : AgInv ID p a) (hc : AgCache p a)
    (hs : a.state = .INITIALIZED) (h1 : ¬ hasSelfLoop a.graph) (h2 : posesCovered a.graph)
    (hk : p.robust.costType ≠ .L2 → a.innerIter + 1 < 2 ^ 31) (hp : p.acceleration = true)
    (hN : u32 (2 * p.numRobots) ≠ 0) (hI : p.restartInterval = 0) (doOpt : Bool) :
    a.iterate o doOpt = ub := by
  have hr := runReady h hc hs h1 h2
  obtain ⟨k, ek⟩ : ∃ k, a.tick =
      ok { a with iterationNumber := u32 (a.iterationNumber + 1), innerIter := k } := by
    unfold Agent.tick
    by_cases c : a.params.robust.costType ≠ .L2
    · rw [if_pos c]
      unfold incInt
      rw [if_pos (hk (by rw [← h.params]; exact c))]
      exact ⟨_, rfl⟩
    · rw [if_neg c]
      exact ⟨_, rfl⟩
  unfold Agent.iterate
  rw [ek, ok_bind, if_pos (show a.state = .INITIALIZED from hs)]
  unfold Agent.iterateBody
  have hr0 : RunReady ID p { a with
      iterationNumber := u32 (a.iterationNumber + 1), innerIter := k, XPrev := a.X } :=
    ⟨hr.graph, hr.state, hr.params, hr.X, hr.nbr, hr.aux⟩
  obtain ⟨hY, hV, -⟩ := h.accel hs hp
  generalize hq : ({ a with
      iterationNumber := u32 (a.iterationNumber + 1), innerIter := k, XPrev := a.X } : Agent) = q at hr0
  have hY' : ArrOk p.r p.d q.graph.n q.Y := by rw [← hq]; exact hY
  have hV' : ArrOk p.r p.d q.graph.n q.V := by rw [← hq]; exact hV
  rw [if_pos (show a.params.acceleration = true by rw [h.params]; exact hp)]
  have key : q.accelStep o doOpt = ub := by
    unfold Agent.accelStep
    obtain ⟨γ, hγ, e1⟩ := hr0.updateGamma hp hN
    rw [e1, ok_bind]
    have r1 : RunReady ID p { q with gamma := γ } :=
      ⟨hr0.graph, hr0.state, hr0.params, hr0.X, hr0.nbr, hr0.aux⟩
    obtain ⟨α, e2⟩ := r1.updateAlpha hp hN hγ
    rw [e2, ok_bind]
    have r2 : RunReady ID p { q with gamma := γ, alpha := α } :=
      ⟨hr0.graph, hr0.state, hr0.params, hr0.X, hr0.nbr, hr0.aux⟩
    obtain ⟨Y, e3, hY2⟩ := r2.updateY (o := o) hp hY' hV'
    rw [e3, ok_bind]
    have r3 : RunReady ID p { q with gamma := γ, alpha := α, Y := Y } :=
      ⟨hr0.graph, hr0.state, hr0.params, hr0.X, hr0.nbr, hr0.aux⟩
    obtain ⟨s, a4, e4, hs, r4, n4⟩ := r3.updateX (o := o) hd (accel := true)
      (fun _ => ⟨hp, hY2⟩) doOpt
    rw [e4]
    simp only [ok_bind]
    have f4 := (Agent.updateX_frame e4).1
    have f1 : a4.V = q.V := by rw [f4]
    have f2 : a4.Y = Y := by rw [f4]
    have n4' : a4.graph.n = q.graph.n := n4
    clear f4
    obtain ⟨V, e5, -⟩ := r4.updateV (o := o) hp (by rw [f2, n4']; exact hY2)
      (by rw [f1, n4']; exact hV')
    rw [e5, ok_bind]
    have e6 : Agent.shouldRestart { a4 with V := V } = ub := by
      unfold Agent.shouldRestart
      rw [if_pos (show a4.params.acceleration = true by rw [r4.params]; exact hp),
        if_pos (show a4.params.restartInterval = 0 by rw [r4.params]; exact hI)]
    rw [e6]
    rfl
  rw [key]
  rfl

/-! ### Histories -/

theorem resync_scalars (hp : a.params.acceleration = true) (hs : a.state = .INITIALIZED) :
    a.resync.gamma = 0 ∧ a.resync.alpha = 0 ∧ a.resync.V = a.resync.X ∧ a.resync.Y = a.resync.X := by
  unfold Agent.resync
  rw [if_pos ⟨hp, hs⟩]
  exact ⟨rfl, rfl, rfl, rfl⟩

/-- The scalars are zero and the sequences equal the estimate. -/
def Synced (a : Agent) : Prop := a.gamma = 0 ∧ a.alpha = 0 ∧ a.V = a.X ∧ a.Y = a.X

theorem Agent.initGlobal_synced {r d : Nat} {T : PArr ℝ} (hg : Reachable ID r d a.graph)
    (hp : a.params.acceleration = true) (e : a.initializeInGlobalFrame T = ok a') : Synced a' := by
  obtain ⟨Y, R, X, g', c, -, -, -, -, -, -, -, -, rfl⟩ := Agent.initializeInGlobalFrame_form hg e
  exact resync_scalars hp rfl

/-- A synchronising call that is not an iteration. -/
theorem step_synced (h : AgInv ID p a) (hp : p.acceleration = true) {op : AgOp}
    (e : a.step o op = ok a') (hs : Syncs p ⟨a, op, a'⟩) : Synced a' := by
  have hpa : a.params.acceleration = true := by rw [h.params]; exact hp
  have fs := congrArg Agent.state (Agent.step_frame h e)
  obtain ⟨h1, h2⟩ := hs
  simp only at h1 h2
  cases op with
  | init T =>
    rcases Agent.init_form h.reach e with ⟨-, rfl⟩ | ⟨x, -, rfl⟩ | ⟨x, -, T', S, X, b, c, hT, hS, hX, hc, he⟩
    · simp [h1] at h2
    · have h1 : a.state = .INITIALIZED := h1
      rw [x] at h1; cases h1
    · obtain ⟨-, g', k, hg1, rfl, -⟩ := Agent.chooseTrajectory_form hT
      have hg2 : Reachable ID p.r p.d g' :=
        (hg1.mono Agent.weighting_quiet).reach quiet_wf h.reach
      have key : c.state = .INITIALIZED → Synced c := by
        rcases hc with ⟨-, rfl⟩ | ⟨-, I, -, hc⟩
        · intro x; cases x
        · intro _; exact Agent.initGlobal_synced (by exact hg2) (by exact hpa) hc
      rcases he with ⟨-, rfl⟩ | ⟨-, he⟩
      · exact key h1
      · obtain ⟨-, rfl⟩ := Agent.startOptimizationLoop_form he
        exact key h1
  | initializeInGlobalFrame T => exact Agent.initGlobal_synced h.reach hpa e
  | iterate b =>
    simp only [Agent.step, bind_eq_ok] at e
    obtain ⟨⟨s, c⟩, hc, e⟩ := e
    cases e
    have hi : a.state = .INITIALIZED := (show c.state = a.state from fs) ▸ h1
    have hr : RestartsNext p a := by
      simpa [hi] using h2
    obtain ⟨-, -, ⟨-, k1, k2, k3, k4, -⟩ | ⟨k, -⟩⟩ := iterate_accel hi hpa hc
    · exact ⟨k1, k2, k3, k4⟩
    · rw [h.params] at k; exact absurd hr k
  | setX M =>
    obtain ⟨-, -, -, rfl⟩ := Agent.setX_form e
    exact resync_scalars hpa rfl
  | updateNeighborPoses n dict =>
    obtain ⟨-, ⟨-, rfl⟩ | ⟨-, b, hb, he⟩⟩ := Agent.updateNeighborPoses_form e
    · simp [h1] at h2
    have hna : a.state ≠ .INITIALIZED := by simpa using h2
    have key : b.state = .INITIALIZED → Synced b := by
      rcases Agent.tryInitialize_form hb with ⟨-, rfl⟩ | ⟨-, -, rfl⟩ | ⟨-, T, -, hb⟩
      · intro c; exact absurd c hna
      · intro c; exact absurd c hna
      · intro _; exact Agent.initGlobal_synced h.reach hpa hb
    rcases he with ⟨c, rfl⟩ | ⟨c, -, rfl⟩
    · exact absurd h1 c
    · exact key c
  | initializeAcceleration =>
    obtain ⟨-, rfl⟩ := Agent.initializeAcceleration_form e
    have hi : a.state = .INITIALIZED := by
      rw [Agent.resync_frame] at h1; exact h1
    exact resync_scalars hpa hi
  | updateMeasurementWeights =>
    rcases Agent.updateMeasurementWeights_form h.reach e with ⟨x, rfl⟩ | ⟨x, ps, g, b, -, -, -, -, hb, rfl⟩
    · exact absurd h1 x
    · rcases Agent.resetTrajectory_form hb with ⟨-, rfl⟩ | ⟨-, -, X, -, rfl⟩
      · exact resync_scalars hpa x
      · exact resync_scalars hpa x
  | reset =>
    have fs : a'.state = .WAIT_FOR_DATA := fs
    rw [fs] at h1; cases h1
  | _ =>
    have fs : a'.state = a.state := fs
    rw [← fs, h1] at h2
    simp at h2

/-- A call that neither synchronises nor iterates leaves the scalars alone. -/
theorem step_scalars (h : AgInv ID p a) (hp : p.acceleration = true) {op : AgOp}
    (e : a.step o op = ok a') (hs : ¬ Syncs p ⟨a, op, a'⟩)
    (hi : ¬ ((∃ b, op = .iterate b) ∧ a.state = .INITIALIZED)) :
    a'.gamma = a.gamma ∧ a'.alpha = a.alpha := by
  have hpa : a.params.acceleration = true := by rw [h.params]; exact hp
  have hf := Agent.step_frame h e
  have f1 := congrArg Agent.gamma hf
  have f2 := congrArg Agent.alpha hf
  have fs := congrArg Agent.state hf
  clear hf
  unfold Syncs at hs
  simp only at hs
  cases op with
  | init T =>
    rcases Agent.init_form h.reach e with ⟨-, rfl⟩ | ⟨x, -, rfl⟩ | ⟨x, -, T', S, X, b, c, hT, hS, hX, hc, he⟩
    · exact ⟨rfl, rfl⟩
    · exact ⟨rfl, rfl⟩
    · have hn : a'.state ≠ .INITIALIZED := fun c => hs ⟨c, Or.inl (by rw [x]; simp)⟩
      obtain ⟨-, g', k, hg1, rfl, -⟩ := Agent.chooseTrajectory_form hT
      have hg2 : Reachable ID p.r p.d g' :=
        (hg1.mono Agent.weighting_quiet).reach quiet_wf h.reach
      have key : c.state ≠ .INITIALIZED → c.gamma = a.gamma ∧ c.alpha = a.alpha := by
        rcases hc with ⟨-, rfl⟩ | ⟨-, I, -, hc⟩
        · intro _; exact ⟨rfl, rfl⟩
        · intro x
          have := congrArg Agent.state (Agent.initGlobal_frame (by exact hg2) hc).1
          exact absurd this x
      rcases he with ⟨-, rfl⟩ | ⟨-, he⟩
      · exact key hn
      · obtain ⟨-, rfl⟩ := Agent.startOptimizationLoop_form he
        exact key hn
  | initializeInGlobalFrame T => exact absurd ⟨fs, by simp⟩ hs
  | iterate b =>
    have hna : a.state ≠ .INITIALIZED := fun c => hi ⟨⟨b, rfl⟩, c⟩
    simp only [Agent.step, bind_eq_ok] at e
    obtain ⟨⟨s, c⟩, hc, e⟩ := e
    cases e
    obtain ⟨b', hb, ⟨c, -⟩ | ⟨-, -, rfl⟩⟩ := Agent.iterate_form hc
    · exact absurd c hna
    · obtain ⟨k, -, -, rfl⟩ := Agent.tick_form hb
      exact ⟨rfl, rfl⟩
  | setX M => exact absurd ⟨fs, by simp⟩ hs
  | updateNeighborPoses n dict =>
    obtain ⟨-, ⟨-, rfl⟩ | ⟨-, b, hb, he⟩⟩ := Agent.updateNeighborPoses_form e
    · exact ⟨rfl, rfl⟩
    have key : b.gamma = a.gamma ∧ b.alpha = a.alpha ∨
        (b.state = .INITIALIZED ∧ a.state ≠ .INITIALIZED) := by
      rcases Agent.tryInitialize_form hb with ⟨-, rfl⟩ | ⟨-, -, rfl⟩ | ⟨x, T, -, hb⟩
      · exact Or.inl ⟨rfl, rfl⟩
      · exact Or.inl ⟨rfl, rfl⟩
      · have := congrArg Agent.state (Agent.initGlobal_frame h.reach hb).1
        exact Or.inr ⟨this, by rw [x]; simp⟩
    rcases key with k | ⟨k1, k2⟩
    · rcases he with ⟨-, rfl⟩ | ⟨-, -, rfl⟩ <;> exact k
    · rcases he with ⟨x, rfl⟩ | ⟨-, -, rfl⟩
      · exact absurd k1 x
      · exact absurd ⟨k1, Or.inl k2⟩ hs
  | initializeAcceleration =>
    obtain ⟨-, rfl⟩ := Agent.initializeAcceleration_form e
    have hn : a.state ≠ .INITIALIZED := fun c => hs ⟨by rw [Agent.resync_frame]; exact c, by simp⟩
    unfold Agent.resync
    rw [if_neg (fun c => hn c.2)]
    exact ⟨rfl, rfl⟩
  | updateMeasurementWeights =>
    rcases Agent.updateMeasurementWeights_form h.reach e with ⟨x, rfl⟩ | ⟨x, -⟩
    · exact ⟨rfl, rfl⟩
    · have fs : a'.state = a.state := fs
      exact absurd ⟨fs.trans x, by simp⟩ hs
  | _ => exact ⟨f1, f2⟩

/-- The scalars of every history. -/
theorem scalars_spec (hp : p.acceleration = true) (hN : 2 * p.numRobots < 2 ^ 32) {t : List Ev}
    (h : Hist o ID p t a) :
    a.gamma = gammaSeq p.numRobots (acceleratedSteps p t) ∧
    a.alpha = if acceleratedSteps p t = 0 then 0
      else 1 / (gammaSeq p.numRobots (acceleratedSteps p t) * p.numRobots) := by
  refine hist_ind (P := fun t a => a.gamma = gammaSeq p.numRobots (acceleratedSteps p t) ∧
    a.alpha = if acceleratedSteps p t = 0 then 0
      else 1 / (gammaSeq p.numRobots (acceleratedSteps p t) * p.numRobots)) ?_ ?_ h
  · intro a e
    obtain ⟨X, g, YL, -, -, -, -, -, rfl⟩ := Agent.new_form e
    exact ⟨rfl, rfl⟩
  · intro t a op a' hi hw e ih
    have hpa : a.params.acceleration = true := by rw [hi.params]; exact hp
    have hk : acceleratedSteps p (t ++ [⟨a, op, a'⟩]) = (open Classical in
        if Syncs p ⟨a, op, a'⟩ then 0
        else if (∃ b, op = .iterate b) ∧ a.state = .INITIALIZED then acceleratedSteps p t + 1
        else acceleratedSteps p t) := by
      unfold acceleratedSteps
      rw [List.foldl_append]
      rfl
    rw [hk]
    by_cases hs : Syncs p ⟨a, op, a'⟩
    · rw [if_pos hs]
      obtain ⟨k1, k2, -, -⟩ := step_synced hi hp e hs
      exact ⟨k1, k2⟩
    · rw [if_neg hs]
      by_cases hit : (∃ b, op = .iterate b) ∧ a.state = .INITIALIZED
      · rw [if_pos hit]
        obtain ⟨⟨b, rfl⟩, hA⟩ := hit
        simp only [Agent.step, bind_eq_ok] at e
        obtain ⟨⟨s, c⟩, hc, e⟩ := e
        cases e
        obtain ⟨-, hn, ⟨k, -⟩ | ⟨-, k1, k2⟩⟩ := iterate_accel hA hpa hc
        · have fs := congrArg Agent.state (Agent.iterate_frame hc).1
          refine absurd ⟨fs.trans hA, ?_⟩ hs
          rw [hi.params] at k
          exact Or.inr (Or.inr (Or.inr (Or.inr (Or.inr ⟨b, rfl, k⟩))))
        · rw [hi.params] at k1 k2
          have hu : ((u32 (2 * p.numRobots) : Nat) : ℝ) = 2 * p.numRobots := by
            unfold u32
            rw [Nat.mod_eq_of_lt hN]; push_cast; ring
          have g1 : c.gamma = gammaSeq p.numRobots (acceleratedSteps p t + 1) := by
            rw [k1, ih.1, hu]; rfl
          refine ⟨g1, ?_⟩
          rw [if_neg (Nat.succ_ne_zero _), k2, g1]
      · rw [if_neg hit]
        obtain ⟨k1, k2⟩ := step_scalars hi hp e hs hit
        rw [k1, k2]
        exact ih

end Dpgo
