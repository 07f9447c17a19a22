import Verif.Lemmas.AgentTotal
import Verif.Props.Solver

/-!
# A small agent used in examples and counterexamples

Robot 0 of a team of two: two poses joined by odometry, one shared loop closure with pose 0 of robot 1.
-/

namespace Dpgo.Props

open Res Spec PoseGraph

noncomputable section

/-- Measurement of the identity. -/
def exI (r1 r2 p1 p2 : Nat) : Meas ℝ :=
  ⟨r1, r2, p1, p2, DMat.one 2 2, DMat.zero 2 1, 1, 1, false, 1⟩

/-- Plane poses, rank 3, two robots. -/
def exParams : AgentParams := { AgentParams.default 2 3 with numRobots := 2 }

/-- Lawful external code; the optimiser stays where it is. -/
def exOracle : AgentOracles :=
  { svd := exists_lawfulSvd.choose, qr := exists_lawfulLsq.choose, opt := fun _ => exOpt
    stiefel := fun _ _ => Matrix.of fun i j => if (i : Nat) = j then 1 else 0 }

/-- Two poses at the origin. -/
def exTwo : PArr ℝ := ⟨2, 2, 2, ⟨2, 6, fun i j => if j % 3 = i then 1 else 0⟩⟩

theorem exTwo_ok : ArrOk 2 2 2 exTwo := ⟨rfl, rfl, rfl, rfl, rfl⟩

theorem exTwo_rot : rotM 2 2 exTwo 0 = 1 := by
  ext i j
  fin_cases i <;> fin_cases j <;> simp [rotM, exTwo]

/-- The graph of the example. -/
structure ExGraph (g : PoseGraph ℝ) : Prop where
  n : g.n = 2
  id : g.id = 0
  r : g.r = 3
  d : g.d = 2
  nbr : g.nbrShared = [⟨1, 0⟩]
  loc : g.localShared = [⟨0, 1⟩]
  robots : g.nbrRobots = [1]
  odo : g.odometry.map strip = [strip (exI 0 0 0 1)]
  priv : g.privateLcs = []
  shared : g.sharedLcs.map strip = [strip (exI 0 1 1 0)]

theorem ExGraph.same {g g' : PoseGraph ℝ} (h : ExGraph g) (t : SameTopology g g') : ExGraph g' :=
  ⟨t.n.trans h.n, t.id.trans h.id, t.r.trans h.r, t.d.trans h.d, t.nbrShared.trans h.nbr,
    t.localShared.trans h.loc, t.nbrRobots.trans h.robots, t.odometry.trans h.odo,
    List.map_eq_nil_iff.1 (t.privateLcs.trans (by rw [h.priv]; rfl)), t.sharedLcs.trans h.shared⟩

/-- The history before `initialize`. -/
def exAgOps : List AgOp := [.addMeasurement (exI 0 0 0 1), .addMeasurement (exI 0 1 1 0)]

theorem exAgOps_wf : ∀ op ∈ exAgOps, AgOpWF op := by
  simp [exAgOps, AgOpWF, exI, MeasWF]

theorem exG : ∃ g0 g1 g2 : PoseGraph ℝ, PoseGraph.new 0 3 2 = ok g0 ∧
    g0.addMeasurement (exI 0 0 0 1) = ok g1 ∧ g1.addMeasurement (exI 0 1 1 0) = ok g2 ∧ ExGraph g2 ∧
    g2.sharedLcs = [exI 0 1 1 0] ∧ g2.odometry = [exI 0 0 0 1] ∧ g2.Q = none ∧ g2.G = none ∧
    g2.neighborPoses = [] ∧ g2.priors = [] ∧
    g2.isNeighborActive 1 = ok true :=
  ⟨_, _, _, rfl, rfl, rfl, ⟨rfl, rfl, rfl, rfl, rfl, rfl, rfl, rfl, rfl, rfl⟩, rfl, rfl, rfl, rfl,
    rfl, rfl, rfl⟩

/-- The agent with its measurements. -/
theorem exData (p : AgentParams) (hd : p.d = 2) (hr : p.r = 3) :
    ∃ a, AgReach exOracle 0 p a ∧ a.state = .WAIT_FOR_DATA ∧ ExGraph a.graph ∧
      a.graph.sharedLcs = [exI 0 1 1 0] ∧ a.graph.odometry = [exI 0 0 0 1] ∧
      a.graph.isNeighborActive 1 = ok true ∧ a.graph.Q = none ∧ a.graph.G = none ∧
      a.YLift = some (DMat.ofMat (exOracle.stiefel p.d p.r)) ∧ a.iterationNumber = 0 ∧
      a.teamStatus = [] ∧ a.teamActive = List.replicate p.numRobots true ∧
      a.weightUpdateCount = 0 ∧ a.globalAnchor = none ∧ a.running = false ∧
      a.cost = RobustCost.new p.robust := by
  obtain ⟨g0, g1, g2, e0, e1, e2, hG, h1, h2, h3, h4, -, -, h6⟩ := exG
  have hnew : ∃ a0, Agent.new exOracle 0 p = ok a0 ∧ a0.graph = g0 ∧ a0.state = .WAIT_FOR_DATA ∧
      a0.YLift = some (DMat.ofMat (exOracle.stiefel p.d p.r)) ∧ a0.iterationNumber = 0 ∧
      a0.teamStatus = [] ∧ a0.teamActive = List.replicate p.numRobots true ∧
      a0.weightUpdateCount = 0 ∧ a0.globalAnchor = none ∧ a0.running = false ∧
      a0.cost = RobustCost.new p.robust := by
    obtain ⟨X, hX, -, -⟩ := PArr.make_ok (K := ℝ) (r := p.r) (d := p.d) (n := 1) (by omega)
    unfold Agent.new
    rw [hX, hd, hr, e0]
    simp only [ok_bind, if_pos, Agent.setLiftingMatrix, DMat.ofMat, beq_self_eq_true, check_true]
    exact ⟨_, rfl, rfl, rfl, rfl, rfl, rfl, rfl, rfl, rfl, rfl, rfl⟩
  obtain ⟨a0, n0, n1, n2, n3, n4, n5, n6, n7, n8, n9, n10⟩ := hnew
  refine ⟨{ a0 with graph := g2 }, ⟨a0, exAgOps, n0, exAgOps_wf, ?_⟩, n2, hG, h1, h2, h6, h3, h4, n3,
    n4, n5, n6, n7, n8, n9, n10⟩
  unfold Agent.run exAgOps
  simp only [foldl_cons, Agent.step, Agent.addMeasurement, n2, ne_eq, not_true_eq_false, if_false,
    n1, e1, ok_bind, ok_bind', e2, foldl_nil]

/-- The initialised agent. -/
theorem exInit (p : AgentParams) (hd : p.d = 2) (hr : p.r = 3)
    (has : p.asynchronous = true → p.acceleration = false) :
    ∃ a, AgReach exOracle 0 p a ∧ a.state = .INITIALIZED ∧ ExGraph a.graph ∧
      a.graph.isNeighborActive 1 = ok true ∧
      a.YLift = some (DMat.ofMat (exOracle.stiefel p.d p.r)) ∧ a.iterationNumber = 0 ∧
      a.teamStatus = [] ∧ a.teamActive = List.replicate p.numRobots true ∧
      a.weightUpdateCount = 0 ∧ a.running = p.asynchronous ∧ a.neighborPoses = [] ∧
      a.graph.Q = none ∧ a.graph.G = none ∧ (∀ m ∈ a.graph.sharedLcs, m.fixedWeight = false) ∧
      a.globalAnchor = none ∧ a.params = p := by
  obtain ⟨a, ha, hs, hG, h1, h2, h6, hQ, hG', h7, h8, h9, h10, h11, h12, h13, h14⟩ := exData p hd hr
  have hinv := agReach_inv ha
  obtain ⟨a', S, e, -, -, -, -, hst⟩ := Agent.init_chosen (o := exOracle) (TI := some exTwo) hinv hs
    (Agent.choose_supplied (a := { a with running := false }) hG.d.symm hG.n.symm)
    (by rw [hd, hG.n]; exact exTwo_ok) (by rw [hG.n]; omega)
    (by rw [hd, exTwo_rot]; simp) has (fun _ => ⟨_, h7⟩)
  rw [if_pos (Or.inl rfl)] at hst
  have hr' := agReach_snoc (op := .init (some exTwo)) ha
    (fun P hP => by cases hP; exact exTwo_ok) e
  refine ⟨a', hr', hst, ?_⟩
  have hparams := (agReach_inv hr').params
  rcases Agent.init_form hinv.reach e with ⟨c, -⟩ | ⟨-, c, -⟩ | ⟨-, -, T, S', X, b, c, hT, -, -, hc, hf⟩
  · exact absurd hs c
  · have : a.graph.n = 0 := c
    rw [hG.n] at this; omega
  · rw [Agent.choose_supplied (a := { a with running := false }) hG.d.symm hG.n.symm] at hT
    cases hT
    obtain ⟨-, I, -, hc⟩ := hc.resolve_left (fun x => x.1 (Or.inl hinv.id))
    obtain ⟨Y, R, X', g', c', -, -, -, -, -, hg, hw, -, rfl⟩ :=
      Agent.initializeInGlobalFrame_form (by exact hinv.reach) hc
    have key : ∀ q : Agent, ExGraph q.graph → q.graph.isNeighborActive 1 = ok true →
        q.YLift = a.YLift → q.iterationNumber = a.iterationNumber → q.teamStatus = a.teamStatus →
        q.teamActive = a.teamActive → q.weightUpdateCount = a.weightUpdateCount →
        q.neighborPoses = [] → q.graph.Q = none → q.graph.G = none →
        (∀ m ∈ q.graph.sharedLcs, m.fixedWeight = false) → q.globalAnchor = none →
        ExGraph q.resync.graph ∧ q.resync.graph.isNeighborActive 1 = ok true ∧
        q.resync.YLift = a.YLift ∧ q.resync.iterationNumber = a.iterationNumber ∧
        q.resync.teamStatus = a.teamStatus ∧ q.resync.teamActive = a.teamActive ∧
        q.resync.weightUpdateCount = a.weightUpdateCount ∧ q.resync.neighborPoses = [] ∧
        q.resync.graph.Q = none ∧ q.resync.graph.G = none ∧
        (∀ m ∈ q.resync.graph.sharedLcs, m.fixedWeight = false) ∧
        q.resync.globalAnchor = none ∧ q.resync.running = q.running := by
      intro q k1 k2 k3 k4 k5 k6 k7 k8 k9 k10 k11 k12
      unfold Agent.resync
      split <;> exact ⟨k1, k2, k3, k4, k5, k6, k7, k8, k9, k10, k11, k12, rfl⟩
    have hg' : ExGraph g' ∧ g'.isNeighborActive 1 = ok true ∧ g'.Q = none ∧ g'.G = none ∧
        ∀ m ∈ g'.sharedLcs, m.fixedWeight = false := by
      rcases hw with ⟨-, rfl, -⟩ | ⟨-, -, ps, hps, hg1⟩
      · refine ⟨hG, h6, hQ, hG', fun m hm => ?_⟩
        rw [show PoseGraph.sharedLcs _ = _ from h1] at hm
        rw [List.mem_singleton.1 hm]; rfl
      · rw [Agent.weightsToOne_wstep] at hg1
        have hps' : a.graph.activeLoopClosures = ok ps := hps
        have hg1' : Res.foldl (Agent.wstep fun _ => ok (some 1)) a.graph ps = ok g' := hg1
        obtain ⟨⟨w1⟩, w2, w3⟩ := Agent.wloop_spec (Agent.active_nodup hinv.reach hps') hg1'
        have t : SameTopology a.graph g' := (hg.mono Agent.weighting_quiet).topology (fun _ h => h)
        refine ⟨hG.same t, ?_, ?_, ?_, fun m hm => ?_⟩
        · rw [w1]; exact h6
        · rw [w1]; exact hQ
        · rw [w1]; exact hG'
        · obtain ⟨i, hi⟩ := List.mem_iff_getElem?.1 hm
          have hi' : g'.deref (.shared i) = some m := hi
          cases hd : a.graph.deref (.shared i) with
          | none => rw [w2 _ hd] at hi'; cases hi'
          | some m0 =>
            have hm0 : m0 ∈ a.graph.sharedLcs := List.mem_iff_getElem?.2 ⟨i, hd⟩
            have hf0 : m0.fixedWeight = false := by
              rw [h1] at hm0
              rw [List.mem_singleton.1 hm0]; rfl
            by_cases hin : MPtr.shared i ∈ ps
            · obtain ⟨w, -, hw⟩ := (w3 _ _ hd).2 hin hf0
              rw [hw] at hi'; cases hi'; exact hf0
            · rw [(w3 _ _ hd).1 (fun x => hin x.1)] at hi'; cases hi'; exact hf0
    obtain ⟨k1, k2, k3, k4, k5⟩ := hg'
    have kk := key { a with
        running := false, TLocalInit := some S', X := X', XInit := some X', state := .INITIALIZED
        neighborPoses := [], neighborAuxPoses := [], graph := g', cost := c' } k1 k2 rfl rfl rfl rfl rfl rfl k3 k4 k5 h12
    have : a.params = p := hinv.params
    rcases hf with ⟨hf, rfl⟩ | ⟨hf, hf'⟩
    · refine ⟨kk.1, kk.2.1, kk.2.2.1.trans h7, kk.2.2.2.1.trans h8, kk.2.2.2.2.1.trans h9,
        kk.2.2.2.2.2.1.trans h10, kk.2.2.2.2.2.2.1.trans h11, ?_, kk.2.2.2.2.2.2.2.1,
        kk.2.2.2.2.2.2.2.2.1, kk.2.2.2.2.2.2.2.2.2.1, kk.2.2.2.2.2.2.2.2.2.2.1,
        kk.2.2.2.2.2.2.2.2.2.2.2.1, hparams⟩
      rw [kk.2.2.2.2.2.2.2.2.2.2.2.2, ← this]; exact hf.symm
    · obtain ⟨-, rfl⟩ := Agent.startOptimizationLoop_form hf'
      refine ⟨kk.1, kk.2.1, kk.2.2.1.trans h7, kk.2.2.2.1.trans h8, kk.2.2.2.2.1.trans h9,
        kk.2.2.2.2.2.1.trans h10, kk.2.2.2.2.2.2.1.trans h11, ?_, kk.2.2.2.2.2.2.2.1,
        kk.2.2.2.2.2.2.2.2.1, kk.2.2.2.2.2.2.2.2.2.1, kk.2.2.2.2.2.2.2.2.2.2.1,
        kk.2.2.2.2.2.2.2.2.2.2.2.1, hparams⟩
      rw [← this]; exact hf.symm

end

end Dpgo.Props
