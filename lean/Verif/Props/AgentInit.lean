import Verif.Lemmas.AgentReject

/-! # C32, C33, C50: local initialisation, wrong trajectories, rejected loop closures -/

namespace Dpgo.Props

open Res Spec PoseGraph Matrix

variable {o : AgentOracles} {ID : Nat} {p : AgentParams} {a a' : Agent}

/-! ### C32 -/

/-- **C32.** A supplied trajectory with one pose per pose of the graph is accepted: afterwards the local
trajectory starts at the identity and has the relative poses of the supplied one. -/
theorem C32_supplied {T : PArr ℝ} (ha : AgReach o ID p a) (hs : a.state = .WAIT_FOR_DATA)
    (hn : 0 < a.graph.n) (hT : ArrOk p.d p.d a.graph.n T) (hdet : (rotM p.d p.d T 0).det ≠ 0)
    (hasync : p.asynchronous = true → p.acceleration = false)
    (hY : ID = 0 ∨ p.multirobotInit = false → ∃ Y, a.YLift = some Y) :
    ∃ a' S, a.init o (some T) = ok a' ∧ a'.TLocalInit = some S ∧ ArrOk p.d p.d a.graph.n S ∧
      rotM p.d p.d S 0 = 1 ∧ traV p.d p.d S 0 = 0 ∧ SameRelative p.d a.graph.n S T := by
  have h := agReach_inv ha
  obtain ⟨-, -, hd, -⟩ := h.dims
  obtain ⟨a', S, e, h1, h2, -, h3, -⟩ := Agent.init_chosen (o := o) h hs (Agent.choose_supplied
    (a := { a with running := false }) (hT.2.1.trans hd.symm) hT.2.2.1) hT hn hdet hasync hY
  exact ⟨a', S, e, h1, h2, (normal_start hn hdet h3).1, (normal_start hn hdet h3).2,
    normal_relative hdet h3⟩

/-- **C32.** Without a supplied trajectory, on measurements that describe one complete trajectory: the
local trajectory starts at the identity and has the relative poses of the computed one. -/
theorem C32_computed {T : PArr ℝ} {b : Agent} (ha : AgReach o ID p a) (hs : a.state = .WAIT_FOR_DATA)
    (hn : 0 < a.graph.n) (e : Agent.localInitialization o { a with running := false } = ok (T, b))
    (hT : ArrOk p.d p.d a.graph.n T) (hdet : (rotM p.d p.d T 0).det ≠ 0)
    (hasync : p.asynchronous = true → p.acceleration = false)
    (hY : ID = 0 ∨ p.multirobotInit = false → ∃ Y, a.YLift = some Y) :
    ∃ a' S, a.init o none = ok a' ∧ a'.TLocalInit = some S ∧ ArrOk p.d p.d a.graph.n S ∧
      rotM p.d p.d S 0 = 1 ∧ traV p.d p.d S 0 = 0 ∧ SameRelative p.d a.graph.n S T := by
  have h := agReach_inv ha
  obtain ⟨-, -, hd, -⟩ := h.dims
  obtain ⟨a', S, e', h1, h2, -, h3, -⟩ := Agent.init_chosen (o := o) h hs
    (Agent.choose_none e (hT.2.1.trans hd.symm)) hT hn hdet hasync hY
  exact ⟨a', S, e', h1, h2, (normal_start hn hdet h3).1, (normal_start hn hdet h3).2,
    normal_relative hdet h3⟩

/-- **C32.** With odometry as the configured method, the local trajectory satisfies every odometry
measurement exactly. -/
theorem C32_odometry (ha : AgReach o ID p a) (hs : a.state = .WAIT_FOR_DATA)
    (hm : p.initMethod = .Odometry) (hc : Complete p.d a.graph)
    (hasync : p.asynchronous = true → p.acceleration = false)
    (hY : ID = 0 ∨ p.multirobotInit = false → ∃ Y, a.YLift = some Y) :
    ∃ a' S, a.init o none = ok a' ∧ a'.TLocalInit = some S ∧ ArrOk p.d p.d a.graph.n S ∧
      rotM p.d p.d S 0 = 1 ∧ traV p.d p.d S 0 = 0 ∧
      ∀ i m, a.graph.odometry[i]? = some m → Satisfied p.d S i (i + 1) m := by
  have h := agReach_inv ha
  obtain ⟨-, -, hd, -⟩ := h.dims
  obtain ⟨T, e, hT, h0, t0, hsat⟩ := hc.odo h.reach
  have hn : 0 < a.graph.n := by have := hc.all; omega
  have hl : Agent.localInitialization o { a with running := false } =
      ok (T, { a with running := false }) := by
    unfold Agent.localInitialization
    have : a.params.initMethod = .Odometry := by rw [h.params]; exact hm
    simp only [this, e, ok_bind]
  obtain ⟨a', S, e', h1, h2, -, h3, -⟩ := Agent.init_chosen (o := o) h hs
    (Agent.choose_none hl (hT.2.1.trans hd.symm)) hT hn (by rw [h0]; simp) hasync hY
  have hdet : (rotM p.d p.d T 0).det ≠ 0 := by rw [h0]; simp
  refine ⟨a', S, e', h1, h2, (normal_start hn hdet h3).1, (normal_start hn hdet h3).2, fun i m hi => ?_⟩
  have hlt : i < a.graph.odometry.length := (List.getElem?_eq_some_iff.1 hi).1
  have := hc.all
  have k1 := h3 i (by omega)
  have k2 := h3 (i + 1) (by omega)
  rw [h0, t0, inv_one, Matrix.one_mul, Matrix.one_mulVec, sub_zero] at k1 k2
  obtain ⟨s1, s2⟩ := hsat i m hi
  exact ⟨by rw [k1.1, k2.1, s1], by rw [k1.1, k1.2, k2.2, s2]⟩

/-- Non-vacuity of `C32_supplied` and `C32_odometry`. -/
example : ∃ (a : Agent), AgReach exOracle 0 exParams a ∧
    (∃ a' S, a.init exOracle (some exTwo) = ok a' ∧ a'.TLocalInit = some S ∧ rotM 2 2 S 0 = 1) ∧
    ∃ a' S, a.init exOracle none = ok a' ∧ a'.TLocalInit = some S ∧
      Satisfied 2 S 0 1 (exI 0 0 0 1) := by
  obtain ⟨a, ha, hs, hG, -, ho, -, -, -, hY, -⟩ := exData exParams rfl rfl
  have hn : 0 < a.graph.n := by rw [hG.n]; omega
  obtain ⟨a1, S1, e1, h1, -, k1, -⟩ := C32_supplied (T := exTwo) ha hs hn (by rw [hG.n]; exact exTwo_ok)
    (by rw [show exParams.d = 2 from rfl, exTwo_rot]; simp) (fun h => by cases h) (fun _ => ⟨_, hY⟩)
  have hc := exTwo_complete hG ho
  obtain ⟨a2, S2, e2, h2, -, -, -, k2⟩ := C32_odometry ha hs rfl hc (fun h => by cases h)
    (fun _ => ⟨_, hY⟩)
  exact ⟨a, ha, ⟨a1, S1, e1, h1, k1⟩, a2, S2, e2, h2, k2 0 _ (by rw [ho]; rfl)⟩

/-- Non-vacuity of `C32_computed`, with the robust method. -/
example : ∃ (a b : Agent) (T : PArr ℝ), AgReach exOracle 1 exWary a ∧ a.state = .WAIT_FOR_DATA ∧
    Agent.localInitialization exOracle { a with running := false } = ok (T, b) ∧
    ArrOk 2 2 a.graph.n T ∧ (rotM 2 2 T 0).det ≠ 0 := by
  obtain ⟨a, b, T, h1, h2, h3, h4, h5, -⟩ := exWary_local
  exact ⟨a, b, T, h1, h2, h3, h4, h5⟩

/-! ### C33 -/

/-- **C33** (fallback).  A supplied trajectory of the wrong length or dimension has no effect at all: the
call does what it does without one. -/
theorem C33_fallback_partial {T : PArr ℝ} (h : T.d ≠ a.graph.d ∨ T.n ≠ a.graph.n) :
    a.init o (some T) = a.init o none :=
  Agent.init_other fun c => h.elim (fun x => x c.1) fun x => x c.2

/-- **C33** (part of the claim that holds).  If the robot's own measurements describe one complete
trajectory, initialisation with a trajectory of the wrong length succeeds by the configured method.
With the robust method a weight may fail to be a number.  Missing: measurements that do not cover every
pose of the graph, see `C33_violated`. -/
theorem C33_total_partial {T : PArr ℝ} (ha : AgReach o ID p a) (hs : a.state = .WAIT_FOR_DATA)
    (hT : T.d ≠ a.graph.d ∨ T.n ≠ a.graph.n) (hc : Complete p.d a.graph)
    (hch : p.initMethod = .Chordal → LawfulLsq o.qr)
    (hr : p.initMethod = .GNC_TLS → (∀ k, StaysOnManifold (o.opt k)) ∧
      ∀ m ∈ a.graph.odometry, (m.R.toMat p.d p.d)ᵀ * m.R.toMat p.d p.d = 1)
    (hasync : p.asynchronous = true → p.acceleration = false)
    (hY : ID = 0 ∨ p.multirobotInit = false → ∃ Y, a.YLift = some Y) :
    (∃ a' S, a.init o (some T) = ok a' ∧ a'.TLocalInit = some S ∧ ArrOk p.d p.d a.graph.n S ∧
      a'.state = (if ID = 0 ∨ p.multirobotInit = false then .INITIALIZED
        else .WAIT_FOR_INITIALIZATION)) ∨
    (p.initMethod = .GNC_TLS ∧ a.init o (some T) = nonfinite) := by
  have h := agReach_inv ha
  obtain ⟨-, -, hd, -⟩ := h.dims
  have hn : 0 < a.graph.n := by have := hc.all; omega
  have hp : a.params = p := h.params
  rw [C33_fallback_partial hT]
  rcases Agent.localInitialization_total (o := o) (a := { a with running := false }) hc h.reach
    (fun c => hch (by rw [← hp]; exact c)) (fun c => hr (by rw [← hp]; exact c))
    with ⟨S, b, e, hA, hdet⟩ | ⟨hm, e⟩
  · obtain ⟨a', S', e', h1, h2, -, -, h3⟩ := Agent.init_chosen (o := o) h hs
      (Agent.choose_none e (hA.2.1.trans hd.symm)) hA hn hdet hasync hY
    exact Or.inl ⟨a', S', e', h1, h2, h3⟩
  · refine Or.inr ⟨by rw [← hp]; exact hm, ?_⟩
    unfold Agent.init
    rw [if_neg (by rw [hs]; simp)]
    simp only
    rw [if_neg (show ¬ a.endOptimizationLoop.numPoses = 0 from fun c => by
    have c : a.graph.n = 0 := c
    omega)]
    have hx : a.endOptimizationLoop.chooseTrajectory o none = nonfinite := by
      unfold Agent.chooseTrajectory Agent.endOptimizationLoop
      simp only [e]
      rfl
    rw [hx]
    rfl

/-- Non-vacuity of `C33_total_partial` and `C33_fallback_partial`: the robot with two poses, given a
trajectory of one pose. -/
example : ∃ (a : Agent) (T : PArr ℝ), AgReach exOracle 0 exParams a ∧ ArrOk 2 2 1 T ∧ a.graph.n = 2 ∧
    ∃ a', a.init exOracle (some T) = ok a' ∧ a'.state = .INITIALIZED := by
  obtain ⟨a, ha, hs, hG, -, ho, -, -, -, hY, -⟩ := exData exParams rfl rfl
  obtain ⟨I, -, i2, -⟩ := C17_identity_value (K := ℝ) 2
  refine ⟨a, I, ha, i2, hG.n, ?_⟩
  rcases C33_total_partial (T := I) ha hs (Or.inr (by rw [i2.2.2.1, hG.n]; omega))
    (exTwo_complete hG ho) (fun h => by cases h) (fun h => by cases h) (fun h => by cases h)
    (fun _ => ⟨_, hY⟩) with ⟨a', S, e, -, -, h⟩ | ⟨h, -⟩
  · exact ⟨a', e, by rw [h]; rfl⟩
  · cases h

/-- **C33** (general violation).  If the odometry is one chain but does not reach the last pose of the
graph, every supplied trajectory of the wrong length ends the program. -/
theorem C33_short {T : PArr ℝ} (ha : AgReach o ID p a) (hs : a.state = .WAIT_FOR_DATA)
    (hT : T.d ≠ a.graph.d ∨ T.n ≠ a.graph.n) (hm : p.initMethod = .Odometry) (hd : p.d = 2 ∨ p.d = 3)
    (hne : a.graph.odometry ≠ []) (hcon : Consecutive a.graph.odometry)
    (hlt : a.graph.odometry.length + 1 < a.graph.n) : a.init o (some T) = abort := by
  have h := agReach_inv ha
  obtain ⟨-, -, hdd, -⟩ := h.dims
  rw [C33_fallback_partial hT]
  obtain ⟨⟨log, hi⟩, -⟩ := Reachable.inv h.reach
  have hmem : ∀ m ∈ a.graph.odometry, MeasDim p.d m ∧ MeasWF m := by
    intro m hm
    have hl : m ∈ a.graph.localMeasurements := by
      unfold PoseGraph.localMeasurements
      exact List.mem_append_left _ hm
    have := hi.localDims m hl
    rw [hdd] at this
    refine ⟨this, hi.wf m ?_⟩
    rw [hi.odo] at hm
    exact (List.mem_filter.1 hm).1
  have hlen : a.graph.odometry.length + 1 < 2 ^ 64 := by
    have hl : 0 < a.graph.odometry.length := List.length_pos_of_ne_nil hne
    have k1 := (hcon (a.graph.odometry.length - 1) a.graph.odometry[a.graph.odometry.length - 1]
      (by simp)).1
    have k2 := (hmem a.graph.odometry[a.graph.odometry.length - 1] (List.getElem_mem _)).2
    unfold MeasWF at k2
    omega
  obtain ⟨S, e, hS, h0, -⟩ := C28_chain hne hd (fun m hm => (hmem m hm).1) hcon hlen
  have hl : Agent.localInitialization o { a with running := false } =
      ok (S, { a with running := false }) := by
    unfold Agent.localInitialization
    have : a.params.initMethod = .Odometry := by rw [h.params]; exact hm
    simp only [this, e, ok_bind]
  have hch := Agent.choose_none hl (hS.2.1.trans hdd.symm)
  have hno := Agent.normalize_short (a := { a with running := false }) hS (by omega) hdd hlt
    (by rw [h0]; simp)
  unfold Agent.init
  rw [if_neg (by rw [hs]; simp)]
  simp only
  rw [if_neg (show ¬ a.endOptimizationLoop.numPoses = 0 from fun c => by
    have c : a.graph.n = 0 := c
    omega)]
  have hch' : a.endOptimizationLoop.chooseTrajectory o none = ok (S, { a with running := false }) := hch
  rw [hch', ok_bind]
  simp only [hno]
  rfl

/-- **C33** (violation).  Robot 0 has odometry from pose 0 to pose 1 and a loop closure with another
robot at pose 2; a trajectory of one pose ends the program. -/
theorem C33_violated : ∃ (o : AgentOracles) (p : AgentParams) (a : Agent) (T : PArr ℝ),
    AgReach o 0 p a ∧ a.state = .WAIT_FOR_DATA ∧ ArrOk p.d p.d 1 T ∧ a.graph.n = 3 ∧
    (∃ Y, a.YLift = some Y) ∧ p.asynchronous = false ∧ a.init o (some T) = abort := by
  have hg : ∃ g0 g1 g2 : PoseGraph ℝ, PoseGraph.new 0 3 2 = ok g0 ∧
      g0.addMeasurement (exI 0 0 0 1) = ok g1 ∧ g1.addMeasurement (exI 0 1 2 0) = ok g2 ∧
      g2.n = 3 ∧ g2.d = 2 ∧ g2.odometry = [exI 0 0 0 1] := ⟨_, _, _, rfl, rfl, rfl, rfl, rfl, rfl⟩
  obtain ⟨g0, g1, g2, e0, e1, e2, gn, gd, go⟩ := hg
  obtain ⟨X, hX, -, -⟩ := PArr.make_ok (K := ℝ) (r := 3) (d := 2) (n := 1) (by omega)
  have hnew : ∃ a0, Agent.new exOracle 0 exParams = ok a0 ∧ a0.graph = g0 ∧
      a0.state = .WAIT_FOR_DATA ∧ ∃ Y, a0.YLift = some Y := by
    unfold Agent.new
    rw [show exParams.r = 3 from rfl, show exParams.d = 2 from rfl, hX, e0]
    simp only [ok_bind, if_pos, Agent.setLiftingMatrix, DMat.ofMat, beq_self_eq_true, check_true]
    exact ⟨_, rfl, rfl, rfl, _, rfl⟩
  obtain ⟨a0, n0, n1, n2, n3⟩ := hnew
  have r0 : AgReach exOracle 0 exParams a0 := ⟨a0, [], n0, by simp, rfl⟩
  have r1 := agReach_snoc (op := .addMeasurement (exI 0 0 0 1)) (a' := { a0 with graph := g1 }) r0
    (by simp [AgOpWF, exI, MeasWF])
    (by simp only [Agent.step, Agent.addMeasurement, n2, ne_eq, not_true_eq_false, if_false, n1, e1,
      ok_bind])
  have r2 := agReach_snoc (op := .addMeasurement (exI 0 1 2 0)) (a' := { a0 with graph := g2 }) r1
    (by simp [AgOpWF, exI, MeasWF])
    (by simp only [Agent.step, Agent.addMeasurement, n2, ne_eq, not_true_eq_false, if_false, e2,
      ok_bind])
  obtain ⟨I, -, i2, -⟩ := C17_identity_value (K := ℝ) 2
  refine ⟨exOracle, exParams, _, I, r2, n2, i2, gn, n3, rfl, C33_short r2 n2 (Or.inr ?_) rfl
    (Or.inl rfl) ?_ ?_ ?_⟩
  · show I.n ≠ g2.n
    rw [i2.2.2.1, gn]; omega
  · show g2.odometry ≠ []
    rw [go]; simp
  · show Consecutive g2.odometry
    rw [go]
    intro i m hm
    match i, hm with
    | 0, hm => cases hm; exact ⟨rfl, rfl⟩
  · show g2.odometry.length + 1 < g2.n
    rw [go, gn]; simp

/-! ### C50 -/

/-- **C50** (rejection).  The robust local initialisation sets the weight of every measurement it rejects
to 0: every measurement whose weight vanishes in the robust solution has the weight 0 in the graph. -/
theorem C50_rejects_partial {T : PArr ℝ} {b : Agent} (ha : AgReach o ID p a)
    (hm : p.initMethod = .GNC_TLS) (e : a.localInitialization o = ok (T, b)) :
    ∃ P ms, odometryInitialization a.graph.odometry none = ok P ∧
      solveRobustPGO { o.toSolverOracles with opt := fun k => o.opt (a.calls + k) }
        Agent.gncInitParams a.graph.localMeasurements (some P) = ok (T, ms) ∧
      List.Forall₂ SameButWeight a.graph.localMeasurements ms ∧
      ∀ m ∈ ms, m.weight < 1 / 100000000 →
        ∃ m' ∈ b.graph.localMeasurements, sameEnds m m' = true ∧ m'.weight = 0 := by
  have h := agReach_inv ha
  obtain ⟨⟨log, hi⟩, -⟩ := Reachable.inv h.reach
  unfold Agent.localInitialization at e
  have hp : a.params.initMethod = .GNC_TLS := by rw [h.params]; exact hm
  simp only [hp, bind_eq_ok] at e
  obtain ⟨P, e1, ⟨T', ms⟩, e2, c, e3, e⟩ := e
  cases e
  have hsame : List.Forall₂ SameButWeight a.graph.localMeasurements ms :=
    (C27_solver_partial e2).imp fun _ _ h => h.1
  refine ⟨P, ms, e1, e2, hsame, fun m hm hw => ?_⟩
  obtain ⟨i, hil, rfl⟩ := List.mem_iff_getElem.1 hm
  have hl := hsame.length_eq
  have hs : SameButWeight a.graph.localMeasurements[i] ms[i] := hsame.get (by omega) hil
  set m0 := a.graph.localMeasurements[i]'(by omega) with hm0
  have hmem : m0 ∈ a.graph.localMeasurements := List.getElem_mem _
  obtain ⟨q, hq, hqs⟩ : ∃ q, a.graph.deref q = some m0 ∧ ∀ j, q ≠ .shared j := by
    rcases List.mem_append.1 hmem with c | c
    · obtain ⟨j, hj⟩ := List.mem_iff_getElem?.1 c
      exact ⟨.odo j, hj, fun j c => by cases c⟩
    · obtain ⟨j, hj⟩ := List.mem_iff_getElem?.1 c
      exact ⟨.priv j, hj, fun j c => by cases c⟩
  have hf := hi.find_deref hq
  have hsrc : ms[i].src = m0.src ∧ ms[i].dst = m0.dst := by rw [hs]; exact ⟨rfl, rfl⟩
  have hit : Agent.Hit a.graph ms q := ⟨ms[i], hm, hw, by
    show a.graph.findMeasurement ms[i].src ms[i].dst = _
    rw [hsrc.1, hsrc.2]; exact hf⟩
  have hres := (Agent.rejectOutliers_spec e3 q m0 hq).1 hit
  refine ⟨{ m0 with weight := 0, fixedWeight := false }, ?_, ?_, rfl⟩
  · show _ ∈ c.graph.odometry ++ c.graph.privateLcs
    rw [List.mem_append]
    cases q with
    | odo j => exact Or.inl (List.mem_of_getElem? hres)
    | priv j => exact Or.inr (List.mem_of_getElem? hres)
    | shared j => exact absurd rfl (hqs j)
  · rw [hs]
    simp [sameEnds]

/-- Non-vacuity of `C50_rejects_partial`: the robot with a wrong loop closure. -/
example : ∃ (a b : Agent) (T : PArr ℝ), AgReach exOracle 1 exWary a ∧ exWary.initMethod = .GNC_TLS ∧
    a.localInitialization exOracle = ok (T, b) ∧ a.graph.privateLcs = [exWrong] := by
  obtain ⟨a, b, T, h1, -, h3, -, -, h6⟩ := exWary_local
  exact ⟨_, b, T, agReach_snoc (op := .endOptimizationLoop) (a' := { a with running := false }) h1
    trivial rfl, rfl, h3, h6⟩

/-- **C50** (general violation).  With a robust cost, moving to the global frame gives every private loop
closure whose weight is not fixed the weight 1, whether it was rejected or not. -/
theorem C50_lost {W : PArr ℝ} (ha : AgReach o ID p a) (hc : p.robust.costType ≠ .L2)
    (e : a.initializeInGlobalFrame W = ok a') :
    ∀ (i : Nat) m, a.graph.privateLcs[i]? = some m → m.fixedWeight = false →
      a'.graph.privateLcs[i]? = some { m with weight := 1 } := by
  have h := agReach_inv ha
  obtain ⟨Y, R, X, g', c, -, -, -, -, -, hst, hw, -, rfl⟩ :=
    Agent.initializeInGlobalFrame_form h.reach e
  rw [Agent.resync_graph]
  rcases hw with ⟨c, -⟩ | ⟨-, -, ps, hps, hg⟩
  · rw [h.params] at c; exact absurd c hc
  rw [Agent.weightsToOne_wstep] at hg
  obtain ⟨-, w2, w3⟩ := Agent.wloop_spec (Agent.active_nodup h.reach hps) hg
  intro i m hi hf
  have hin : MPtr.priv i ∈ ps := by
    obtain ⟨⟨log, hlog⟩, -⟩ := Reachable.inv h.reach
    rw [hlog.active_eq] at hps
    cases hps
    exact List.mem_append_left _ (List.mem_map.2 ⟨i, List.mem_range.2
      (List.getElem?_eq_some_iff.1 hi).1, rfl⟩)
  obtain ⟨w, hw, hx⟩ := (w3 (.priv i) m hi).2 hin hf
  cases hw
  exact hx

/-- **C50** (part of the claim that holds).  Moving to the global frame keeps all odometry, hence rejected
odometry, and with the quadratic cost it keeps all measurements.  Missing: loop closures under a robust
cost, see `C50_lost` and `C50_violated`. -/
theorem C50_kept_partial {W : PArr ℝ} (ha : AgReach o ID p a) (e : a.initializeInGlobalFrame W = ok a') :
    a'.graph.odometry = a.graph.odometry ∧
    (p.robust.costType = .L2 → a'.graph.measurements = a.graph.measurements) := by
  have h := agReach_inv ha
  obtain ⟨Y, R, X, g', c, -, -, -, -, -, hst, hw, -, rfl⟩ :=
    Agent.initializeInGlobalFrame_form h.reach e
  rw [Agent.resync_graph]
  rcases hw with ⟨-, rfl, -⟩ | ⟨c, -, ps, hps, hg⟩
  · exact ⟨rfl, fun _ => rfl⟩
  · refine ⟨?_, fun x => absurd (by rw [h.params]; exact x) c⟩
    rw [Agent.weightsToOne_wstep] at hg
    obtain ⟨-, w2, w3⟩ := Agent.wloop_spec (Agent.active_nodup h.reach hps) hg
    apply List.ext_getElem?
    intro i
    show g'.deref (.odo i) = a.graph.deref (.odo i)
    cases hd : a.graph.deref (.odo i) with
    | none => exact w2 _ hd
    | some m =>
      refine (w3 _ _ hd).1 fun c => ?_
      obtain ⟨-, -, ⟨j, x, -⟩ | ⟨j, x, -⟩⟩ := Agent.active_valid h.reach hps c.1 <;> cases x

/-- **C50** (violation).  A loop closure ten units off is rejected by the robust local initialisation: its
weight is 0 while the robot waits for its neighbours.  Once moved to the global frame its weight
is 1. -/
theorem C50_violated : ∃ (o : AgentOracles) (p : AgentParams) (a b : Agent) (W : PArr ℝ),
    AgReach o 1 p a ∧ p.initMethod = .GNC_TLS ∧ p.robust.costType = .GNC_TLS ∧
    a.state = .WAIT_FOR_INITIALIZATION ∧ a.initializeInGlobalFrame W = ok b ∧
    b.state = .INITIALIZED ∧ ∃ m, a.graph.privateLcs = [m] ∧ m.weight = 0 ∧
      b.graph.privateLcs = [{ m with weight := 1 }] := by
  obtain ⟨a0, a, r0, -, -, -, -, -, e, hs, hY, hp⟩ := exRejected
  have r1 := agReach_snoc (op := .init none) r0 (fun _ h => by cases h) e
  have h := agReach_inv r1
  obtain ⟨I, -, i2, -⟩ := C17_identity_value (K := ℝ) 2
  obtain ⟨-, ⟨T, hT, -⟩, -⟩ := h.data (by rw [hs]; simp)
  obtain ⟨b, X, e1, hst, -⟩ := Agent.initGlobal_ok h.toAgCore (by rw [hs]; simp) hY hT i2
  have hlost := C50_lost r1 (by simp [exWary, RobustParams.default]) e1 0 _ (by rw [hp]; rfl) rfl
  obtain ⟨_, _, _, g', _, -, -, -, -, -, hg, -, -, hb⟩ :=
    Agent.initializeInGlobalFrame_form h.reach e1
  have hbg : b.graph = g' := by rw [hb, Agent.resync_graph]
  have t := congrArg List.length (hg.topology Agent.weighting_quiet).privateLcs
  rw [← hbg, hp] at t
  refine ⟨exOracle, exWary, a, b, I, r1, rfl, rfl, hs, e1, hst, _, hp, rfl, ?_⟩
  match hq : b.graph.privateLcs, t with
  | [m], _ =>
    rw [hq] at hlost
    simpa using hlost

end Dpgo.Props
