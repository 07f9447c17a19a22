import Verif.Lemmas.AgentDeliver
import Verif.Spec.Careful

/-!
# Two robots that share a loop closure and know each other's pose

Robots 1 and 2 of a team of three, two poses each, joined by a loop closure from pose 1 of robot 1 to
pose 0 of robot 2.  Robot 2 sits three units away from robot 1.
-/

namespace Dpgo.Props

open Res Spec PoseGraph

noncomputable section

/-- Estimate of robot `ID`. -/
def exEst (ID : Nat) : DMat ℝ := ⟨3, 6, fun i j =>
  if j % 3 = 2 then (if i = 0 then 3 * ((ID : ℝ) - 1) else 0) else if j % 3 = i then 1 else 0⟩

/-- A pose of robot `ID`, as sent. -/
def exPoseOf (ID : Nat) : PArr ℝ := ⟨3, 2, 1, ⟨3, 3, fun i j =>
  if j % 3 = 2 then (if i = 0 then 3 * ((ID : ℝ) - 1) else 0) else if j % 3 = i then 1 else 0⟩⟩

/-- The pose of robot `ID` at the shared loop closure. -/
def exKey (ID : Nat) : PoseID := ⟨ID, if ID = 1 then 1 else 0⟩

/-- Team of three with robust cost `t`. -/
def exTrio (t : CostType) : AgentParams :=
  { AgentParams.default 2 3 with numRobots := 3, multirobotInit := true, robust := RobustParams.default t }

theorem exMember_graph (ID oth : Nat) (h : ID = 1 ∧ oth = 2 ∨ ID = 2 ∧ oth = 1) :
    ∃ g0 g1 g2 : PoseGraph ℝ, PoseGraph.new ID 3 2 = ok g0 ∧
      g0.addMeasurement (exI ID ID 0 1) = ok g1 ∧ g1.addMeasurement (exI 1 2 1 0) = ok g2 ∧
      g2.n = 2 ∧ g2.r = 3 ∧ g2.d = 2 ∧ g2.nbrShared = [exKey oth] ∧ g2.sharedLcs = [exI 1 2 1 0] ∧
      g2.privateLcs = [] ∧ g2.odometry = [exI ID ID 0 1] ∧ g2.isNeighborActive oth = ok true ∧
      g2.Q = none ∧ g2.G = none := by
  rcases h with ⟨rfl, rfl⟩ | ⟨rfl, rfl⟩
  · exact ⟨_, _, _, rfl, rfl, rfl, rfl, rfl, rfl, rfl, rfl, rfl, rfl, rfl, rfl, rfl⟩
  · exact ⟨_, _, _, rfl, rfl, rfl, rfl, rfl, rfl, rfl, rfl, rfl, rfl, rfl, rfl, rfl⟩

/-- The robot after the poses have been exchanged. -/
theorem exMember (t : CostType) (ID oth : Nat) (h : ID = 1 ∧ oth = 2 ∨ ID = 2 ∧ oth = 1) :
    ∃ (l : List Ev) (a : Agent), Hist exOracle ID (exTrio t) l a ∧
      (∀ e ∈ l, e.op ≠ .updateMeasurementWeights) ∧ a.state = .INITIALIZED ∧ a.X.X = exEst ID ∧
      a.neighborPoses = [(exKey oth, exPoseOf oth)] ∧ a.graph.sharedLcs = [exI 1 2 1 0] ∧
      a.graph.privateLcs = [] ∧ a.graph.odometry = [exI ID ID 0 1] ∧
      a.graph.isNeighborActive oth = ok true ∧ a.graph.n = 2 ∧ a.graph.Q = none ∧ a.graph.G = none ∧
      a.cost = RobustCost.new (exTrio t).robust ∧ a.weightUpdateCount = 0 ∧
      a.trajectoryResetCount = 0 ∧ a.iterationNumber = 0 ∧ a.innerIter = 0 ∧
      a.teamStatus = [(oth, ⟨oth, .INITIALIZED, 0, 0, false, 0⟩)] ∧
      a.teamActive = List.replicate 3 true ∧ a.latestWeightUpdate = 0 ∧ CarefulHist l := by
  obtain ⟨g0, g1, g2, e0, e1, e2, gn, gr, gd, gs, gl, gp, go, ga, gQ, gG⟩ := exMember_graph ID oth h
  have hID : ID ≠ 0 := by omega
  -- construction, measurements, lifting matrix
  obtain ⟨X, hX, -, -⟩ := PArr.make_ok (K := ℝ) (r := 3) (d := 2) (n := 1) (by omega)
  have hnew : ∃ a0, Agent.new exOracle ID (exTrio t) = ok a0 ∧ a0.graph = g0 ∧
      a0.state = .WAIT_FOR_DATA ∧ a0.cost = RobustCost.new (exTrio t).robust ∧
      a0.weightUpdateCount = 0 ∧ a0.trajectoryResetCount = 0 ∧ a0.iterationNumber = 0 ∧
      a0.innerIter = 0 ∧ a0.teamStatus = [] ∧ a0.teamActive = List.replicate 3 true ∧
      a0.r = 3 ∧ a0.d = 2 ∧ a0.latestWeightUpdate = 0 := by
    unfold Agent.new
    rw [show (exTrio t).r = 3 from rfl, show (exTrio t).d = 2 from rfl, hX, e0]
    simp only [ok_bind, if_neg hID]
    exact ⟨_, rfl, rfl, rfl, rfl, rfl, rfl, rfl, rfl, rfl, rfl, rfl, rfl, rfl⟩
  obtain ⟨a0, n0, n1, n2, n3, n4, n5, n6, n7, n8, n9, n10, n11, n12⟩ := hnew
  have r0 : Hist exOracle ID (exTrio t) [] a0 := .new n0
  have r1 := Hist.call (op := .addMeasurement (exI ID ID 0 1))
    (a' := { a0 with graph := g1 }) r0 (by
      have : ID < 4294967295 := by omega
      simp [AgOpWF, exI, MeasWF, this])
      (by simp only [Agent.step, Agent.addMeasurement, n2, ne_eq, not_true_eq_false, if_false, n1, e1,
        ok_bind])
  have r2 := Hist.call (op := .addMeasurement (exI 1 2 1 0))
    (a' := { a0 with graph := g2 }) r1 (by simp [AgOpWF, exI, MeasWF])
      (by simp only [Agent.step, Agent.addMeasurement, n2, ne_eq, not_true_eq_false, if_false, e2,
        ok_bind])
  have r3 := Hist.call (op := .setLiftingMatrix (DMat.zero 3 2))
    (a' := { a0 with graph := g2, YLift := some (DMat.zero 3 2) }) r2 trivial
      (by
        simp only [Agent.step, Agent.setLiftingMatrix, n10, n11, DMat.zero, beq_self_eq_true,
          check_true, ok_bind])
  generalize hb : ({ a0 with graph := g2, YLift := some (DMat.zero 3 2) } : Agent) = b at r3
  have hib := agReach_inv r3.reach
  have b1 : b.graph = g2 := by rw [← hb]
  have b2 : b.state = .WAIT_FOR_DATA := by rw [← hb]; exact n2
  -- initialisation
  obtain ⟨c, S, ec, -, -, -, -, hcs⟩ := Agent.init_chosen (o := exOracle) (TI := some exTwo) hib b2
    (Agent.choose_supplied (a := { b with running := false }) (by rw [b1, gd]; rfl) (by rw [b1, gn]; rfl))
    (by rw [b1, gn]; exact exTwo_ok) (by rw [b1, gn]; omega)
    (by rw [show (exTrio t).d = 2 from rfl, exTwo_rot]; simp)
    (by simp [exTrio, AgentParams.default]) (fun x => by
      rcases x with x | x
      · exact absurd x hID
      · simp [exTrio] at x)
  rw [if_neg (by simp [hID, exTrio])] at hcs
  have r4 := Hist.call (op := .init (some exTwo)) r3 (fun P hP => by cases hP; exact exTwo_ok) ec
  have hf : c = { b with
      running := false, TLocalInit := c.TLocalInit, X := c.X, state := .WAIT_FOR_INITIALIZATION } := by
    rcases Agent.init_form hib.reach ec with ⟨x, -⟩ | ⟨-, x, -⟩ | ⟨-, -, T, S', X, b', c', hT, -, -, hc, hf⟩
    · exact absurd b2 x
    · have : b.graph.n = 0 := x
      rw [b1, gn] at this; omega
    · rw [Agent.choose_supplied (a := { b with running := false }) (by rw [b1, gd]; rfl)
        (by rw [b1, gn]; rfl)] at hT
      cases hT
      obtain ⟨-, rfl⟩ := hc.resolve_right (by
        rintro ⟨x, -⟩
        rcases x with x | x
        · exact hID (hib.id.symm.trans x)
        · have x : ¬ b.params.multirobotInit = true := x
          rw [hib.params] at x; simp [exTrio] at x)
      rcases hf with ⟨hf, rfl⟩ | ⟨hf, -⟩
      · rfl
      · have hf : b.params.asynchronous = true := hf
        rw [hib.params] at hf; simp [exTrio, AgentParams.default] at hf
  have hic := agReach_inv r4.reach
  have c1 : c.graph = g2 := by rw [hf]; exact b1
  have hcX := (hic.data (by rw [hcs]; decide)).2.2
  -- the estimate
  have hset : ∃ Z : PArr ℝ, c.X.setData (exEst ID) = ok Z ∧ Z.X = exEst ID := by
    refine ⟨⟨c.X.r, c.X.d, c.X.n, exEst ID⟩, ?_, rfl⟩
    unfold PArr.setData
    rw [hcX.1, hcX.2.1, hcX.2.2.1, c1, gn]
    rfl
  obtain ⟨Z, hZ, hZX⟩ := hset
  have r5 := Hist.call (op := .setX (exEst ID))
    (a' := { c with state := .INITIALIZED, X := Z }) r4 trivial (by
      show c.setX (exEst ID) = _
      unfold Agent.setX Agent.resetAcceleration
      rw [hcs, hZ]
      unfold Agent.relaxationRank Agent.dimension Agent.numPoses
      rw [c1, gr, gd, gn]
      simp only [hic.params]
      rfl)
  have r6 := Hist.call (op := .setNeighborStatus ⟨oth, .INITIALIZED, 0, 0, false, 0⟩) r5 trivial rfl
  generalize hu : Agent.setNeighborStatus { c with state := .INITIALIZED, X := Z }
    ⟨oth, .INITIALIZED, 0, 0, false, 0⟩ = u at r6
  have hiu := agReach_inv r6.reach
  have u1 : u.graph = g2 := by rw [← hu]; exact c1
  have u2 : u.state = .INITIALIZED := by rw [← hu]; rfl
  have u3 : u.X = Z := by rw [← hu]; rfl
  have ub : u = { b with
      running := false, TLocalInit := c.TLocalInit, X := Z, state := .INITIALIZED
      teamStatus := [(oth, ⟨oth, .INITIALIZED, 0, 0, false, 0⟩)] } := by
    rw [← hu, hf, ← hb]
    unfold Agent.setNeighborStatus
    simp only [n8]
    rfl
  have u4 : u.neighborPoses = [] := by
    have : u.neighborPoses = c.neighborPoses := by rw [← hu]; rfl
    rw [this]; exact (hic.notInit (by rw [hcs]; decide)).2.1
  have hok : (oth != u.id) = true := by rw [hiu.id]; simp; omega
  have u5 : u.YLift = some (DMat.zero 3 2) := by rw [ub, ← hb]
  have u6 : u.teamStatus = [(oth, ⟨oth, .INITIALIZED, 0, 0, false, 0⟩)] := by rw [ub]
  have hreq : u.graph.requireNeighborPose (exKey oth) = true := by
    unfold PoseGraph.requireNeighborPose
    rw [u1, gs, OSet.contains_iff strictTotal_ltPoseID]
    simp
  have hst : u.storePoses oth u.neighborPoses [(exKey oth, exPoseOf oth)] =
      ok [(exKey oth, exPoseOf oth)] := by
    unfold Agent.storePoses
    rw [u4]
    have h1 : ((exPoseOf oth).r == u.r) = true := by rw [hiu.r]; rfl
    have h2 : ((exPoseOf oth).d == u.d) = true := by rw [hiu.d]; rfl
    have h3 : ((exKey oth).robot == oth) = true := beq_self_eq_true oth
    simp only [foldl_cons, foldl_nil, hreq, h1, h2, h3, check_true, ok_bind, ok_bind', if_true]
    rfl
  have hacc : u.acceptsFrom oth = true := by
    unfold Agent.acceptsFrom
    rw [u5, u6]
    simp [OMap.find?, ltNat]
  have r7 := Hist.call (op := .updateNeighborPoses oth [(exKey oth, exPoseOf oth)])
    (a' := { u with neighborPoses := [(exKey oth, exPoseOf oth)] }) r6
      ⟨by simp [OMap.Sorted, OMap.keys, OSet.Sorted], fun kv hkv => by
        rw [List.mem_singleton.1 hkv]; exact ⟨rfl, rfl, rfl, rfl, rfl⟩⟩
      (by
        show u.updateNeighborPoses exOracle oth _ = _
        unfold Agent.updateNeighborPoses Agent.tryInitialize
        simp only [hok, check_true, ok_bind, hacc, u2, hst, Bool.not_true, Bool.false_eq_true, if_false,
          reduceCtorEq, ne_eq, not_true_eq_false])
  refine ⟨_, _, r7, by simp, u2, by rw [← hZX, ← u3], rfl, by rw [← gl, ← u1], by rw [← gp, ← u1],
    by rw [← go, ← u1], by rw [← ga, ← u1], by rw [← gn, ← u1], by rw [← gQ, ← u1],
    by rw [← gG, ← u1], ?_, ?_, ?_, ?_, ?_, u6, ?_, ?_,
    by simp [CarefulHist, CarefulCall]⟩
  all_goals rw [ub, ← hb]
  exacts [n3, n4, n5, n6, n7, n9, n12]

end

end Dpgo.Props
