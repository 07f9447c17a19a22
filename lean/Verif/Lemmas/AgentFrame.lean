import Verif.Lemmas.AgentInv

/-! # What each call of the agent leaves alone -/

namespace Dpgo

open Res Spec

namespace Agent
variable {o : AgentOracles} {a a' : Agent}

theorem updateX_frame {doOpt accel b : Bool} (e : a.updateX o doOpt accel = ok (b, a')) :
    a' = { a with X := a'.X, graph := a'.graph, calls := a'.calls } ∧
      Steps updating a.graph a'.graph := by
  rcases updateX_form e with ⟨-, -, rfl⟩ | ⟨-, -, -, g1, -, hs, ⟨-, rfl⟩ | ⟨-, Z, res, g2, -, hs2, -, -, rfl⟩⟩
  · split
    · exact ⟨rfl, .refl _⟩
    · exact ⟨rfl, .refl _⟩
  · exact ⟨rfl, hs⟩
  · exact ⟨rfl, hs.trans hs2⟩

theorem accelStep_frame {doOpt s : Bool} (e : a.accelStep o doOpt = ok (s, a')) :
    a' = { a with
      X := a'.X, Y := a'.Y, V := a'.V, gamma := a'.gamma, alpha := a'.alpha, graph := a'.graph
      calls := a'.calls } ∧ Steps updating a.graph a'.graph := by
  obtain ⟨a1, a2, a3, a4, a5, b, e1, e2, e3, e4, e5, e6, e7⟩ := accelStep_form e
  obtain ⟨-, -, -, rfl⟩ := updateGamma_form e1
  obtain ⟨-, -, -, rfl⟩ := updateAlpha_form e2
  obtain ⟨-, -, P, -, y1, y2, rfl⟩ := updateY_form e3
  obtain ⟨f4, s4⟩ := updateX_frame e4
  obtain ⟨-, -, V, -, v1, v2, rfl⟩ := updateV_form e5
  have base : Steps updating a.graph a4.graph := s4
  rcases e7 with ⟨-, rfl⟩ | ⟨-, e7⟩
  · refine ⟨?_, base⟩
    rw [f4]
  · rcases restart_form e7 with ⟨-, rfl⟩ | ⟨-, b', c, hc, rfl⟩
    · refine ⟨?_, base⟩
      rw [f4]
    · obtain ⟨f5, s5⟩ := updateX_frame hc
      refine ⟨?_, base.trans s5⟩
      rw [f5, f4]

/-- Everything `iterate` may change. -/
theorem iterate_frame {doOpt s : Bool} (e : a.iterate o doOpt = ok (s, a')) :
    a' = { a with
      iterationNumber := u32 (a.iterationNumber + 1), innerIter := a'.innerIter
      X := a'.X, Y := a'.Y, V := a'.V, XPrev := a'.XPrev, gamma := a'.gamma, alpha := a'.alpha
      graph := a'.graph, calls := a'.calls, status := a'.status
      publishPublicPoses := a'.publishPublicPoses
      publishAsynchronous := a'.publishAsynchronous } ∧ Steps updating a.graph a'.graph ∧
    (a.params.robust.costType = .L2 → a'.innerIter = a.innerIter) ∧
    (a.params.robust.costType ≠ .L2 → a'.innerIter = a.innerIter + 1) := by
  obtain ⟨b, hb, hc⟩ := iterate_form e
  obtain ⟨k, k1, k2, rfl⟩ := tick_form hb
  rcases hc with ⟨hi, hc⟩ | ⟨-, -, rfl⟩
  · obtain ⟨c, c', hc1, hc2, rfl⟩ := iterateBody_form hc
    have h1 : c = { a with
          iterationNumber := u32 (a.iterationNumber + 1), innerIter := k
          X := c.X, Y := c.Y, V := c.V, XPrev := a.X, gamma := c.gamma, alpha := c.alpha
          graph := c.graph, calls := c.calls } ∧ Steps updating a.graph c.graph := by
      rcases hc1 with ⟨-, hc1⟩ | ⟨-, hc1⟩
      · exact accelStep_frame hc1
      · obtain ⟨f, s⟩ := updateX_frame hc1
        refine ⟨?_, s⟩
        rw [f]
    obtain ⟨h1, s1⟩ := h1
    rcases hc2 with ⟨-, hc2⟩ | ⟨-, rfl⟩
    · obtain ⟨_, _, -, -, _, -, rfl⟩ := iterateStatus_form hc2
      have hk : c.innerIter = k := by rw [h1]
      refine ⟨?_, s1, fun h => hk.trans (k1 h), fun h => hk.trans (k2 h)⟩
      unfold publish
      rw [h1]
    · have hk : c'.innerIter = k := by rw [h1]
      refine ⟨?_, s1, fun h => hk.trans (k1 h), fun h => hk.trans (k2 h)⟩
      unfold publish
      rw [h1]
  · exact ⟨rfl, .refl _, k1, k2⟩

theorem resync_frame (a : Agent) : a.resync = { a with
    XPrev := a.resync.XPrev, gamma := a.resync.gamma, alpha := a.resync.alpha, V := a.resync.V
    Y := a.resync.Y } := by
  unfold resync
  split <;> rfl

/-- Everything `initializeInGlobalFrame` may change. -/
theorem initGlobal_frame {ID r d : Nat} {T : PArr ℝ} (hg : Reachable ID r d a.graph)
    (e : a.initializeInGlobalFrame T = ok a') :
    a' = { a with
      neighborPoses := [], neighborAuxPoses := [], X := a'.X, XInit := a'.XInit
      state := .INITIALIZED, graph := a'.graph, cost := a'.cost, XPrev := a'.XPrev, gamma := a'.gamma
      alpha := a'.alpha, V := a'.V, Y := a'.Y } ∧ Steps weighting a.graph a'.graph := by
  obtain ⟨Y, R, X, g', c, -, -, -, -, -, hg, -, -, rfl⟩ := initializeInGlobalFrame_form hg e
  have f := resync_frame { a with
        neighborPoses := [], neighborAuxPoses := [], X := X, XInit := some X
        state := .INITIALIZED, graph := g', cost := c }
  refine ⟨?_, ?_⟩
  · rw [f]
  · rw [f]; exact hg

/-- Everything `initialize` may change. -/
theorem init_frame {ID r d : Nat} {TI : Option (PArr ℝ)} (hg : Reachable ID r d a.graph)
    (e : a.init o TI = ok a') :
    a' = { a with
      neighborPoses := a'.neighborPoses, neighborAuxPoses := a'.neighborAuxPoses, X := a'.X
      XInit := a'.XInit, state := a'.state, graph := a'.graph, cost := a'.cost, XPrev := a'.XPrev
      gamma := a'.gamma, alpha := a'.alpha, V := a'.V, Y := a'.Y, TLocalInit := a'.TLocalInit
      running := a'.running, calls := a'.calls } ∧ Steps weighting a.graph a'.graph := by
  rcases init_form hg e with ⟨-, rfl⟩ | ⟨-, -, rfl⟩ | ⟨hs, hn, T', S, X, b, c, hT, hS, hX, hc, he⟩
  · exact ⟨rfl, .refl _⟩
  · exact ⟨rfl, .refl _⟩
  obtain ⟨-, g', k, hg1, rfl, -⟩ := chooseTrajectory_form hT
  have hg2 : Reachable ID r d g' := (hg1.mono weighting_quiet).reach quiet_wf hg
  have h1 : c = { a with
      neighborPoses := c.neighborPoses, neighborAuxPoses := c.neighborAuxPoses, X := c.X
      XInit := c.XInit, state := c.state, graph := c.graph, cost := c.cost, XPrev := c.XPrev
      gamma := c.gamma, alpha := c.alpha, V := c.V, Y := c.Y, TLocalInit := c.TLocalInit
      running := false, calls := c.calls } ∧ Steps weighting a.graph c.graph := by
    rcases hc with ⟨-, rfl⟩ | ⟨-, I, -, hc⟩
    · exact ⟨rfl, hg1⟩
    · obtain ⟨f, s⟩ := initGlobal_frame (by exact hg2) hc
      refine ⟨?_, hg1.trans s⟩
      rw [f]
  obtain ⟨h1, s1⟩ := h1
  rcases he with ⟨-, rfl⟩ | ⟨-, he⟩
  · refine ⟨?_, s1⟩
    rw [h1]
  · obtain ⟨-, rfl⟩ := startOptimizationLoop_form he
    refine ⟨?_, s1⟩
    rw [h1]

/-- Everything `updateNeighborPoses` may change. -/
theorem updateNeighborPoses_frame {ID r d : Nat} {nid : Nat} {dict : PoseDict ℝ}
    (hg : Reachable ID r d a.graph) (e : a.updateNeighborPoses o nid dict = ok a') :
    a' = { a with
      neighborPoses := a'.neighborPoses, neighborAuxPoses := a'.neighborAuxPoses, X := a'.X
      XInit := a'.XInit, state := a'.state, graph := a'.graph, cost := a'.cost, XPrev := a'.XPrev
      gamma := a'.gamma, alpha := a'.alpha, V := a'.V, Y := a'.Y } ∧
      Steps weighting a.graph a'.graph := by
  obtain ⟨-, ⟨-, rfl⟩ | ⟨-, b, hb, he⟩⟩ := updateNeighborPoses_form e
  · exact ⟨rfl, .refl _⟩
  have h1 : b = { a with
      neighborPoses := b.neighborPoses, neighborAuxPoses := b.neighborAuxPoses, X := b.X
      XInit := b.XInit, state := b.state, graph := b.graph, cost := b.cost, XPrev := b.XPrev
      gamma := b.gamma, alpha := b.alpha, V := b.V, Y := b.Y } ∧ Steps weighting a.graph b.graph := by
    rcases tryInitialize_form hb with ⟨-, rfl⟩ | ⟨-, -, rfl⟩ | ⟨-, T, -, hb⟩
    · exact ⟨rfl, .refl _⟩
    · exact ⟨rfl, .refl _⟩
    · obtain ⟨f, s⟩ := initGlobal_frame hg hb
      refine ⟨?_, s⟩
      rw [f]
  obtain ⟨h1, s1⟩ := h1
  rcases he with ⟨-, rfl⟩ | ⟨-, -, rfl⟩
  · exact ⟨h1, s1⟩
  · refine ⟨?_, s1⟩
    rw [h1]

/-- Everything `updateMeasurementWeights` may change when it does something. -/
theorem updateWeights_frame {ID r d : Nat} (hg : Reachable ID r d a.graph)
    (e : a.updateMeasurementWeights = ok a') (hs : a.state = .INITIALIZED) :
    a' = { a with
      graph := a'.graph, weightUpdateCount := a.weightUpdateCount + 1
      latestWeightUpdate := a.iterationNumber, innerIter := 0, cost := a.cost.update, teamStatus := []
      status := { a.status with readyToTerminate := false, relativeChange := 0 }
      trajectoryResetCount := a'.trajectoryResetCount, X := a'.X
      neighborPoses := a'.neighborPoses, neighborAuxPoses := a'.neighborAuxPoses
      XPrev := a'.XPrev, gamma := a'.gamma, alpha := a'.alpha, V := a'.V, Y := a'.Y } ∧
    Steps quiet a.graph a'.graph := by
  rcases updateMeasurementWeights_form hg e with ⟨h, -⟩ | ⟨-, ps, g, b, -, -, hsg, -, hb, rfl⟩
  · exact absurd hs h
  have s1 : Steps quiet a.graph g.clearDataMatrices :=
    (hsg.mono weighting_quiet).trans (AgInv.quiet_clear g)
  have f := resync_frame b
  rcases resetTrajectory_form hb with ⟨-, rfl⟩ | ⟨-, -, X, -, rfl⟩
  · refine ⟨?_, ?_⟩
    · rw [f]; rfl
    · rw [f]; exact s1
  · refine ⟨?_, ?_⟩
    · rw [f]; rfl
    · rw [f]; exact s1

/-- Only two calls change the set of measurements, and only while waiting for data. -/
theorem step_quiet_of {ID : Nat} {p : AgentParams} (h : AgInv ID p a) {op : AgOp}
    (e : a.step o op = ok a') (hs : a.state = .WAIT_FOR_DATA →
      (∀ m, op ≠ .addMeasurement m) ∧ ∀ x y z, op ≠ .setMeasurements x y z) :
    Steps quiet a.graph a'.graph := by
  cases op with
  | addMeasurement m =>
    rcases addMeasurement_form e with ⟨-, rfl⟩ | ⟨c, -⟩
    · exact .refl _
    · exact absurd rfl ((hs c).1 m)
  | setMeasurements x y z =>
    obtain ⟨c, -⟩ := setMeasurements_form e
    exact absurd rfl ((hs c).2 x y z)
  | init T => exact (init_frame h.reach e).2.mono weighting_quiet
  | initializeInGlobalFrame T => exact (initGlobal_frame h.reach e).2.mono weighting_quiet
  | iterate b =>
    simp only [Agent.step, bind_eq_ok] at e
    obtain ⟨⟨s, c⟩, hc, e⟩ := e
    cases e
    exact (iterate_frame hc).2.1.mono updating_quiet
  | reset =>
    rw [reset_form e]
    exact Steps.one (op := .reset) trivial rfl
  | setX M =>
    obtain ⟨-, -, -, rfl⟩ := setX_form e
    rw [resync_frame]; exact .refl _
  | setXToInitialGuess => obtain ⟨-, X, -, rfl⟩ := setXToInitialGuess_form e; exact .refl _
  | setLiftingMatrix M => obtain ⟨-, -, rfl⟩ := setLiftingMatrix_form e; exact .refl _
  | setGlobalAnchor M =>
    obtain ⟨-, hr, hd, hrd⟩ := h.dims
    obtain ⟨-, -, Xa, -, -, -, rfl⟩ := setGlobalAnchor_form (by rw [h.r, h.d]; exact hrd)
      (hr.trans h.r.symm) (hd.trans h.d.symm) e
    exact .refl _
  | updateNeighborPoses n dict => exact (updateNeighborPoses_frame h.reach e).2.mono weighting_quiet
  | updateAuxNeighborPoses n dict =>
    obtain ⟨-, -, ⟨-, rfl⟩ | ⟨-, -, -, rfl⟩⟩ := updateAuxNeighborPoses_form e <;> exact .refl _
  | clearNeighborPoses => cases e; exact .refl _
  | clearActiveNeighborPoses => obtain ⟨ids, -, rfl⟩ := clearActiveNeighborPoses_form e; exact .refl _
  | getStatus => cases e; exact .refl _
  | setNeighborStatus s => cases e; exact .refl _
  | startOptimizationLoop => obtain ⟨-, rfl⟩ := startOptimizationLoop_form e; exact .refl _
  | endOptimizationLoop => cases e; exact .refl _
  | initializeAcceleration =>
    obtain ⟨-, rfl⟩ := initializeAcceleration_form e
    rw [resync_frame]; exact .refl _
  | initializeRobustOptimization =>
    obtain ⟨ps, g', -, -, hg, rfl⟩ := initializeRobustOptimization_form h.reach e
    exact hg.mono weighting_quiet
  | updateMeasurementWeights =>
    by_cases hi : a.state = .INITIALIZED
    · exact (updateWeights_frame h.reach e hi).2
    · rcases updateMeasurementWeights_form h.reach e with ⟨-, rfl⟩ | ⟨c, -⟩
      · exact .refl _
      · exact absurd c hi
  | setMeasurementWeight s d w f =>
    simp only [Agent.step, bind_eq_ok] at e
    obtain ⟨⟨b, c⟩, hc, e⟩ := e
    cases e
    obtain ⟨g', hg, rfl⟩ := setMeasurementWeight_form hc
    exact Steps.one (op := .writeWeight s d w f) trivial hg
  | setRobotActive rid b =>
    rcases setRobotActive_form e with ⟨-, rfl⟩ | ⟨-, -, g, hg, rfl⟩
    · exact .refl _
    · exact Steps.one (op := .setNeighborActive rid b) trivial hg
  | anchorFirstPose =>
    simp only [Agent.step, bind_eq_ok] at e
    obtain ⟨⟨b, c⟩, hc, e⟩ := e
    cases e
    rcases anchorFirstPose_form hc with ⟨-, -, rfl⟩ | ⟨-, -, P, M, g', -, -, hg, rfl⟩
    · exact .refl _
    · exact Steps.one (op := .setPrior 0 P) trivial hg
  | anchorFirstPoseWith P =>
    simp only [Agent.step, bind_eq_ok] at e
    obtain ⟨⟨b, c⟩, hc, e⟩ := e
    cases e
    obtain ⟨-, g', hg, rfl⟩ := anchorFirstPoseWith_form hc
    exact Steps.one (op := .setPrior 0 P) trivial hg

/-- The call changes the set of measurements only while waiting for data. -/
theorem step_quiet {ID : Nat} {p : AgentParams} (h : AgInv ID p a) {op : AgOp}
    (e : a.step o op = ok a') (hs : a.state ≠ .WAIT_FOR_DATA) : Steps quiet a.graph a'.graph :=
  step_quiet_of h e fun c => absurd c hs

/-- The agent after a call, all fields the call never writes being those before it. -/
noncomputable def frame (a a' : Agent) : AgOp → Agent
  | .addMeasurement _ => { a with graph := a'.graph }
  | .setMeasurements _ _ _ => { a with graph := a'.graph }
  | .init _ => { a with
      neighborPoses := a'.neighborPoses, neighborAuxPoses := a'.neighborAuxPoses, X := a'.X
      XInit := a'.XInit, state := a'.state, graph := a'.graph, cost := a'.cost, XPrev := a'.XPrev
      gamma := a'.gamma, alpha := a'.alpha, V := a'.V, Y := a'.Y, TLocalInit := a'.TLocalInit
      running := a'.running, calls := a'.calls }
  | .initializeInGlobalFrame _ => { a with
      neighborPoses := [], neighborAuxPoses := [], X := a'.X, XInit := a'.XInit
      state := .INITIALIZED, graph := a'.graph, cost := a'.cost, XPrev := a'.XPrev, gamma := a'.gamma
      alpha := a'.alpha, V := a'.V, Y := a'.Y }
  | .iterate _ => { a with
      iterationNumber := u32 (a.iterationNumber + 1), innerIter := a'.innerIter
      X := a'.X, Y := a'.Y, V := a'.V, XPrev := a'.XPrev, gamma := a'.gamma, alpha := a'.alpha
      graph := a'.graph, calls := a'.calls, status := a'.status
      publishPublicPoses := a'.publishPublicPoses
      publishAsynchronous := a'.publishAsynchronous }
  | .reset => { a with
      running := false, neighborPoses := [], neighborAuxPoses := []
      instanceNumber := u32 (a.instanceNumber + 1), iterationNumber := 0, latestWeightUpdate := 0
      innerIter := 0, weightUpdateCount := 0, trajectoryResetCount := 0, state := .WAIT_FOR_DATA
      status := ⟨a.id, .WAIT_FOR_DATA, u32 (a.instanceNumber + 1), 0, false, 0⟩
      teamStatus := [], teamActive := List.replicate a.params.numRobots false
      globalAnchor := none, TLocalInit := none, XInit := none
      publishPublicPoses := false, publishAsynchronous := false
      graph := a.graph.reset }
  | .setX _ => { a with
      state := .INITIALIZED, X := a'.X, XPrev := a'.XPrev, gamma := a'.gamma, alpha := a'.alpha
      V := a'.V, Y := a'.Y }
  | .setXToInitialGuess => { a with X := a'.X }
  | .setLiftingMatrix _ => { a with YLift := a'.YLift }
  | .setGlobalAnchor _ => { a with globalAnchor := a'.globalAnchor }
  | .updateNeighborPoses _ _ => { a with
      neighborPoses := a'.neighborPoses, neighborAuxPoses := a'.neighborAuxPoses, X := a'.X
      XInit := a'.XInit, state := a'.state, graph := a'.graph, cost := a'.cost, XPrev := a'.XPrev
      gamma := a'.gamma, alpha := a'.alpha, V := a'.V, Y := a'.Y }
  | .updateAuxNeighborPoses _ _ => { a with neighborAuxPoses := a'.neighborAuxPoses }
  | .clearNeighborPoses => { a with neighborPoses := [], neighborAuxPoses := [] }
  | .clearActiveNeighborPoses => { a with
      neighborPoses := a'.neighborPoses, neighborAuxPoses := a'.neighborAuxPoses }
  | .getStatus => { a with status := a'.status }
  | .setNeighborStatus s => { a with teamStatus := OMap.insert ltNat s.agentID s a.teamStatus }
  | .startOptimizationLoop => { a with running := true }
  | .endOptimizationLoop => { a with running := false }
  | .initializeAcceleration => { a with
      XPrev := a'.XPrev, gamma := a'.gamma, alpha := a'.alpha, V := a'.V, Y := a'.Y }
  | .initializeRobustOptimization => { a with cost := a.cost.reset, graph := a'.graph }
  | .updateMeasurementWeights => { a with
      graph := a'.graph
      weightUpdateCount :=
        if a.state = .INITIALIZED then a.weightUpdateCount + 1 else a.weightUpdateCount
      latestWeightUpdate :=
        if a.state = .INITIALIZED then a.iterationNumber else a.latestWeightUpdate
      innerIter := if a.state = .INITIALIZED then 0 else a.innerIter
      cost := if a.state = .INITIALIZED then a.cost.update else a.cost
      teamStatus := if a.state = .INITIALIZED then [] else a.teamStatus
      status := if a.state = .INITIALIZED then
        { a.status with readyToTerminate := false, relativeChange := 0 } else a.status
      trajectoryResetCount := a'.trajectoryResetCount, X := a'.X
      neighborPoses := a'.neighborPoses, neighborAuxPoses := a'.neighborAuxPoses
      XPrev := a'.XPrev, gamma := a'.gamma, alpha := a'.alpha, V := a'.V, Y := a'.Y }
  | .setMeasurementWeight _ _ _ _ => { a with graph := a'.graph }
  | .setRobotActive _ _ => { a with teamActive := a'.teamActive, graph := a'.graph }
  | .anchorFirstPose => { a with graph := a'.graph }
  | .anchorFirstPoseWith _ => { a with graph := a'.graph }

theorem step_frame {ID : Nat} {p : AgentParams} (h : AgInv ID p a) {op : AgOp}
    (e : a.step o op = ok a') : a' = frame a a' op := by
  unfold frame
  cases op with
  | addMeasurement m =>
    rcases addMeasurement_form e with ⟨-, rfl⟩ | ⟨-, g, -, rfl⟩ <;> rfl
  | setMeasurements x y z =>
    obtain ⟨-, -, ⟨-, rfl⟩ | ⟨-, g0, g', -, -, rfl⟩⟩ := setMeasurements_form e <;> rfl
  | init T => exact (init_frame h.reach e).1
  | initializeInGlobalFrame T => exact (initGlobal_frame h.reach e).1
  | iterate b =>
    simp only [Agent.step, bind_eq_ok] at e
    obtain ⟨⟨s, c⟩, hc, e⟩ := e
    cases e
    exact (iterate_frame hc).1
  | reset => exact reset_form e
  | setX M =>
    obtain ⟨-, -, -, rfl⟩ := setX_form e
    rw [resync_frame]
  | setXToInitialGuess => obtain ⟨-, X, -, rfl⟩ := setXToInitialGuess_form e; rfl
  | setLiftingMatrix M => obtain ⟨-, -, rfl⟩ := setLiftingMatrix_form e; rfl
  | setGlobalAnchor M =>
    obtain ⟨-, hr, hd, hrd⟩ := h.dims
    obtain ⟨-, -, Xa, -, -, -, rfl⟩ := setGlobalAnchor_form (by rw [h.r, h.d]; exact hrd)
      (hr.trans h.r.symm) (hd.trans h.d.symm) e
    rfl
  | updateNeighborPoses n dict => exact (updateNeighborPoses_frame h.reach e).1
  | updateAuxNeighborPoses n dict =>
    obtain ⟨-, -, ⟨-, rfl⟩ | ⟨-, -, -, rfl⟩⟩ := updateAuxNeighborPoses_form e <;> rfl
  | clearNeighborPoses => cases e; rfl
  | clearActiveNeighborPoses =>
    obtain ⟨ids, -, rfl⟩ := clearActiveNeighborPoses_form e; rfl
  | getStatus => cases e; rfl
  | setNeighborStatus s => cases e; rfl
  | startOptimizationLoop => obtain ⟨-, rfl⟩ := startOptimizationLoop_form e; rfl
  | endOptimizationLoop => cases e; rfl
  | initializeAcceleration =>
    obtain ⟨-, rfl⟩ := initializeAcceleration_form e
    rw [resync_frame]
  | initializeRobustOptimization =>
    obtain ⟨ps, g', -, -, hg, rfl⟩ := initializeRobustOptimization_form h.reach e
    rfl
  | updateMeasurementWeights =>
    by_cases hi : a.state = .INITIALIZED
    · simp only [hi, if_true]
      have := (updateWeights_frame h.reach e hi).1
      rw [hi] at this
      exact this
    · rcases updateMeasurementWeights_form h.reach e with ⟨-, rfl⟩ | ⟨c, -⟩
      · simp only [hi, if_false]
      · exact absurd c hi
  | setMeasurementWeight s d w f =>
    simp only [Agent.step, bind_eq_ok] at e
    obtain ⟨⟨b, c⟩, hc, e⟩ := e
    cases e
    obtain ⟨g', hg, rfl⟩ := setMeasurementWeight_form hc
    rfl
  | setRobotActive rid b =>
    rcases setRobotActive_form e with ⟨-, rfl⟩ | ⟨-, -, g, hg, rfl⟩ <;> rfl
  | anchorFirstPose =>
    simp only [Agent.step, bind_eq_ok] at e
    obtain ⟨⟨b, c⟩, hc, e⟩ := e
    cases e
    rcases anchorFirstPose_form hc with ⟨-, -, rfl⟩ | ⟨-, -, P, M, g', -, -, hg, rfl⟩ <;> rfl
  | anchorFirstPoseWith P =>
    simp only [Agent.step, bind_eq_ok] at e
    obtain ⟨⟨b, c⟩, hc, e⟩ := e
    cases e
    obtain ⟨-, g', hg, rfl⟩ := anchorFirstPoseWith_form hc
    rfl

end Agent

end Dpgo
