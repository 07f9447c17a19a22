import Verif.Lemmas.AgentAccel
import Verif.Props.AgentMessages

/-! # C46, C47: the accelerated sequences -/

namespace Dpgo.Props

open Res Spec PoseGraph

variable {o : AgentOracles} {ID : Nat} {p : AgentParams} {a a' : Agent}

/-! ### C46 -/

/-- **C46** (histories).  In every history the scalars are those of the accelerated method after as many
steps as there were iterations since the sequences were last synchronised. -/
theorem C46_scalars (hp : p.acceleration = true) (hN : 2 * p.numRobots < 2 ^ 32) {t : List Ev}
    (h : Hist o ID p t a) :
    a.gamma = gammaSeq p.numRobots (acceleratedSteps p t) ∧
    a.alpha = if acceleratedSteps p t = 0 then 0
      else 1 / (gammaSeq p.numRobots (acceleratedSteps p t) * p.numRobots) :=
  scalars_spec hp hN h

/-- **C46** (one iteration that does not restart).  The scalars obey the recurrence; `alpha` lies in
`(0, 1]`, and `gamma` grows by at least `1 / (2 N)` and at most `1 / N`.  On the first iteration after a
synchronisation (`gamma = 0`) `alpha` is 1. -/
theorem C46_step (hp : p.acceleration = true) (hN : 2 * p.numRobots < 2 ^ 32) (ha : AgReach o ID p a)
    (hs : a.state = .INITIALIZED) (hr : ¬ RestartsNext p a) {doOpt s : Bool}
    (e : a.iterate o doOpt = ok (s, a')) :
    0 ≤ a.gamma ∧
    a'.gamma = (1 + Real.sqrt (1 + 4 * (p.numRobots : ℝ) ^ 2 * a.gamma ^ 2)) / (2 * p.numRobots) ∧
    a'.alpha = 1 / (a'.gamma * p.numRobots) ∧
    p.numRobots * a'.gamma ^ 2 - a'.gamma = p.numRobots * a.gamma ^ 2 ∧
    0 < a'.alpha ∧ a'.alpha ≤ 1 ∧ (a.gamma = 0 → a'.alpha = 1) ∧
    a.gamma + 1 / (2 * p.numRobots) ≤ a'.gamma ∧ a'.gamma ≤ a.gamma + 1 / p.numRobots := by
  have hi := agReach_inv ha
  obtain ⟨-, h2, ⟨c, -⟩ | ⟨-, h3, h4⟩⟩ := iterate_accel hs (by rw [hi.params]; exact hp) e
  · rw [hi.params] at c; exact absurd c hr
  rw [hi.params] at h2 h3 h4
  have hpos : 0 < p.numRobots := Nat.pos_of_ne_zero (by rintro c; rw [c] at h2; exact h2 rfl)
  have hn : (0 : ℝ) < p.numRobots := by exact_mod_cast hpos
  have hu : ((u32 (2 * p.numRobots) : Nat) : ℝ) = 2 * p.numRobots := by
    unfold u32
    rw [Nat.mod_eq_of_lt hN]; push_cast; ring
  rw [hu] at h3
  obtain ⟨g1, g2, g3, g4⟩ := gamma_step hpos a.gamma a'.gamma h3
  have h0 : 0 ≤ a.gamma := by
    obtain ⟨t, ht⟩ := agReach_hist ha
    rw [(scalars_spec hp hN ht).1]
    cases acceleratedSteps p t with
    | zero => exact le_refl _
    | succ k =>
      unfold gammaSeq
      positivity
  rw [abs_of_nonneg h0] at g2 g3
  have h5 : 0 < a'.gamma * p.numRobots := by linarith
  refine ⟨h0, h3, h4, g1, ?_, ?_, ?_, g2, g3⟩
  · rw [h4]; exact one_div_pos.2 h5
  · rw [h4, div_le_one h5]; exact g4
  · intro c
    rw [h4, h3, c]
    norm_num
    field_simp

/-- **C46** (growth): after `k` steps `gamma` lies between `k / (2 N)` and `k / N`. -/
theorem C46_growth {N : Nat} (hN : 0 < N) (k : Nat) :
    k / (2 * N) ≤ gammaSeq N k ∧ gammaSeq N k ≤ k / N := by
  have hn : (0 : ℝ) < N := by exact_mod_cast hN
  induction k with
  | zero => simp [gammaSeq]
  | succ k ih =>
    obtain ⟨-, g2, g3, -⟩ := gamma_step hN (gammaSeq N k) (gammaSeq N (k + 1)) rfl
    have h0 : 0 ≤ gammaSeq N k := le_trans (by positivity) ih.1
    rw [abs_of_nonneg h0] at g2 g3
    push_cast
    rw [add_div, add_div]
    exact ⟨by linarith [ih.1], by linarith [ih.2]⟩

/-! ### C47 -/

/-- **C47** (restart).  After an iteration in which the restart condition holds, the auxiliary sequences
equal the estimate and the scalars are zero.  The estimate is the one that an iteration without
acceleration gives from the previous estimate, on a graph with the same measurements, weights, priors and
active neighbours (its cached matrices and the number of past solver runs may differ). -/
theorem C47_restart_partial (hp : p.acceleration = true) (ha : AgReach o ID p a)
    (hs : a.state = .INITIALIZED) (hr : RestartsNext p a) {doOpt s : Bool}
    (e : a.iterate o doOpt = ok (s, a')) :
    a'.V = a'.X ∧ a'.Y = a'.X ∧ a'.gamma = 0 ∧ a'.alpha = 0 ∧
    ∃ g k s' b, SameProblem a.graph g ∧
      Agent.iterate o { a with params := plain p, graph := g, calls := k } doOpt = ok (s', b) ∧
      b.X = a'.X := by
  have hi := agReach_inv ha
  have hpa : a.params.acceleration = true := by rw [hi.params]; exact hp
  have hra : RestartsNext a.params a := by rw [hi.params]; exact hr
  obtain ⟨-, -, ⟨-, h1, h2, h3, h4, -⟩ | ⟨c, -⟩⟩ := iterate_accel hs hpa e
  swap
  · exact absurd hra c
  obtain ⟨g, k, s', b, h5, h6, h7⟩ := iterate_restart_plain hs hpa hra e
  have hb := updating_book h7
  refine ⟨h3, h4, h1, h2, g, k, s', b,
    ⟨hb.n, hb.odometry, hb.privateLcs, hb.sharedLcs, hb.priors, hb.nbrActive⟩, ?_, h6⟩
  rw [hi.params] at h5
  exact h5

/-- **C47** (synchronisation).  Every call that makes the agent initialised, replaces its estimate or
updates its weights leaves the auxiliary sequences equal to the estimate and the scalars zero. -/
theorem C47_synced (hp : p.acceleration = true) (ha : AgReach o ID p a) {op : AgOp}
    (e : a.step o op = ok a') (hs : Syncs p ⟨a, op, a'⟩) :
    a'.gamma = 0 ∧ a'.alpha = 0 ∧ a'.V = a'.X ∧ a'.Y = a'.X :=
  step_synced (agReach_inv ha) hp e hs

/-- **C47** (interval zero).  Every accelerated iteration with restart interval zero is undefined
behaviour (a remainder by zero). -/
theorem C47_zero (hd : 0 < p.d) (ha : AgReach o ID p a) (hs : a.state = .INITIALIZED)
    (h1 : ¬ hasSelfLoop a.graph) (h2 : posesCovered a.graph)
    (hk : p.robust.costType ≠ .L2 → a.innerIter + 1 < 2 ^ 31) (hp : p.acceleration = true)
    (hN : 2 * p.numRobots % 2 ^ 32 ≠ 0) (hI : p.restartInterval = 0) (doOpt : Bool) :
    a.iterate o doOpt = ub :=
  iterate_zero hd (agReach_inv ha) (agReach_cache hd ha) hs h1 h2 hk hp hN hI doOpt

/-- **C47** (violation): restart interval zero is accepted by the constructor and by initialisation, and
the first iteration is undefined behaviour. -/
theorem C47_violated : ∃ (o : AgentOracles) (p : AgentParams) (a : Agent), p.acceleration = true ∧
    p.restartInterval = 0 ∧ AgReach o 0 p a ∧ a.state = .INITIALIZED ∧ a.iterate o true = ub := by
  obtain ⟨a, b, h1, h2, h3, -⟩ :=
    exDeliver { exAccel with restartInterval := 0 } rfl rfl (by simp [exAccel, exParams, AgentParams.default])
  exact ⟨exOracle, _, a, rfl, rfl, h1, h2, C47_zero (by decide) h1 h2 h3.noSelf h3.covered
    (by simp [exAccel, exParams, AgentParams.default, RobustParams.default]) rfl (by decide) rfl true⟩

/-- Non-vacuity of `C47_restart_partial` and `C47_synced`: the robot that restarts in every iteration. -/
example : ∃ (a a' : Agent) (s : Bool), AgReach exOracle 0 exAccel a ∧ a.state = .INITIALIZED ∧
    RestartsNext exAccel a ∧ a.iterate exOracle true = ok (s, a') ∧
    Syncs exAccel ⟨a, .iterate true, a'⟩ := by
  obtain ⟨a, b, h1, h2, h3, -⟩ :=
    exDeliver exAccel rfl rfl (by simp [exAccel, exParams, AgentParams.default])
  obtain ⟨s, a', e, -⟩ := C66_iterate (by decide) h1 h2 h3.noSelf h3.covered
    (by simp [exAccel, exParams, AgentParams.default, RobustParams.default])
    (by intro; decide) true
  have hr : RestartsNext exAccel a := show u32 _ % 1 = 0 from Nat.mod_one _
  have fs := congrArg Agent.state (Agent.iterate_frame e).1
  exact ⟨a, a', s, h1, h2, hr, e, fs.trans h2,
    Or.inr (Or.inr (Or.inr (Or.inr (Or.inr ⟨true, rfl, hr⟩))))⟩

/-- Non-vacuity of `C46_step` and `C46_scalars`: with restart interval 3 the first iteration does not
restart. -/
example : ∃ (p : AgentParams) (a a' : Agent) (s : Bool) (t : List Ev), p.acceleration = true ∧
    AgReach exOracle 0 p a ∧ a.state = .INITIALIZED ∧ ¬ RestartsNext p a ∧
    a.iterate exOracle true = ok (s, a') ∧ Hist exOracle 0 p t a ∧ a'.gamma = 1 / p.numRobots ∧
    a'.alpha = 1 := by
  obtain ⟨a0, b, h1, h2, h3, -, -, h4, -⟩ :=
    exDeliver { exAccel with restartInterval := 3 } rfl rfl (by simp [exAccel, exParams, AgentParams.default])
  have hp0 : a0.params = { exAccel with restartInterval := 3 } := (agReach_inv h1).params
  have e0 : a0.step exOracle .initializeAcceleration = ok a0.resync := by
    unfold Agent.step Agent.initializeAcceleration Agent.resync
    simp [h2, hp0, exAccel]
  have hs0 : Syncs { exAccel with restartInterval := 3 } ⟨a0, .initializeAcceleration, a0.resync⟩ :=
    ⟨by rw [Agent.resync_frame]; exact h2, by simp⟩
  obtain ⟨hg, -⟩ := C47_synced rfl h1 e0 hs0
  have h1' := agReach_snoc h1 (op := .initializeAcceleration) trivial e0
  have h2' : a0.resync.state = .INITIALIZED := by rw [Agent.resync_frame]; exact h2
  have h3' : a0.resync.graph = a0.graph := by rw [Agent.resync_frame]
  have h4' : a0.resync.iterationNumber = 0 := by rw [Agent.resync_frame]; exact h4
  generalize a0.resync = a at *
  obtain ⟨s, a', e, -⟩ := C66_iterate (by decide) h1' h2' (by rw [h3']; exact h3.noSelf)
    (by rw [h3']; exact h3.covered)
    (by simp [exAccel, exParams, AgentParams.default, RobustParams.default])
    (by intro; decide) true
  have hr : ¬ RestartsNext { exAccel with restartInterval := 3 } a := by
    unfold RestartsNext
    rw [h4']
    decide
  obtain ⟨t, ht⟩ := agReach_hist h1'
  obtain ⟨-, k1, -, -, -, -, k2, -⟩ := C46_step rfl (by decide) h1' h2' hr e
  refine ⟨_, a, a', s, t, rfl, h1', h2', hr, e, ht, ?_, k2 hg⟩
  rw [k1, hg]
  norm_num [exAccel, exParams, AgentParams.default]

end Dpgo.Props
