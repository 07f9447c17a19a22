import Verif.Lemmas.AgentGraph
import Verif.Lemmas.Poses
import Verif.Spec.Agent

/-! # What each call of the agent returns, in closed form -/

namespace Dpgo

open Res Spec

noncomputable section

namespace Agent

/-- Effect of `resetAcceleration`. -/
def resync (a : Agent) : Agent :=
  if a.params.acceleration = true ∧ a.state = .INITIALIZED then
    { a with XPrev := a.X, gamma := 0, alpha := 0, V := a.X, Y := a.X } else a

theorem resync_params (a : Agent) : a.resync.params = a.params := by unfold resync; split <;> rfl

theorem initializeAcceleration_form {a a' : Agent} (e : a.initializeAcceleration = ok a') :
    a.params.acceleration = true ∧ a' = a.resync := by
  unfold initializeAcceleration at e
  simp only [bind_eq_ok, check_eq_ok, exists_and_left, exists_const] at e
  obtain ⟨h, e⟩ := e
  refine ⟨h, ?_⟩
  unfold resync
  split at e
  · rename_i hs
    rw [if_pos ⟨h, hs⟩]; cases e; rfl
  · rename_i hs
    rw [if_neg (fun x => hs x.2)]; cases e; rfl

theorem resetAcceleration_eq (a : Agent) : a.resetAcceleration = ok a.resync := by
  unfold resetAcceleration resync initializeAcceleration
  by_cases h : a.params.acceleration = true
  · by_cases hs : a.state = .INITIALIZED <;> simp [h, hs]
  · simp [h]

theorem setData_form {P P' : PArr ℝ} {M : DMat ℝ} (e : P.setData M = ok P') :
    M.rows = P.r ∧ M.cols = (P.d + 1) * P.n ∧ P' = { P with X := M } := by
  unfold PArr.setData at e
  simp only [bind_eq_ok, check_eq_ok, exists_and_left, exists_const, beq_iff_eq] at e
  obtain ⟨h1, h2, e⟩ := e
  cases e
  exact ⟨h1, h2, rfl⟩

theorem setX_form {a a' : Agent} {M : DMat ℝ} (e : a.setX M = ok a') :
    a.state ≠ .WAIT_FOR_DATA ∧ M.rows = a.X.r ∧ M.cols = (a.X.d + 1) * a.X.n ∧
      a' = resync { a with state := .INITIALIZED, X := { a.X with X := M } } := by
  unfold setX at e
  simp only [bind_eq_ok, check_eq_ok, exists_and_left, exists_const, resetAcceleration_eq] at e
  obtain ⟨h1, h2, h3, X, hX, e⟩ := e
  obtain ⟨h4, h5, rfl⟩ := setData_form hX
  cases e
  exact ⟨by simpa using h1, h4, h5, rfl⟩

theorem setXToInitialGuess_form {a a' : Agent} (e : a.setXToInitialGuess = ok a') :
    a.state ≠ .WAIT_FOR_DATA ∧ ∃ X, a.XInit = some X ∧ a' = { a with X := X } := by
  unfold setXToInitialGuess at e
  simp only [bind_eq_ok, check_eq_ok, exists_and_left, exists_const] at e
  obtain ⟨h1, e⟩ := e
  split at e
  · cases e
  · rename_i X hX
    cases e
    exact ⟨by simpa using h1, X, hX, rfl⟩

theorem setLiftingMatrix_form {a a' : Agent} {M : DMat ℝ} (e : a.setLiftingMatrix M = ok a') :
    M.rows = a.r ∧ M.cols = a.d ∧ a' = { a with YLift := some M } := by
  unfold setLiftingMatrix at e
  simp only [bind_eq_ok, check_eq_ok, exists_and_left, exists_const, beq_iff_eq] at e
  obtain ⟨h1, h2, e⟩ := e
  cases e
  exact ⟨h1, h2, rfl⟩

theorem startOptimizationLoop_form {a a' : Agent} (e : a.startOptimizationLoop = ok a') :
    a.params.acceleration = false ∧ a' = { a with running := true } := by
  unfold startOptimizationLoop at e
  simp only [bind_eq_ok, check_eq_ok, exists_and_left, exists_const] at e
  obtain ⟨h1, e⟩ := e
  cases e
  exact ⟨by simpa using h1, rfl⟩

theorem clearActiveNeighborPoses_form {a a' : Agent} (e : a.clearActiveNeighborPoses = ok a') :
    ∃ ids, a.graph.activeNeighborPublicPoseIDs = ok ids ∧ a' = { a with
      neighborPoses := ids.foldl (fun m k => OMap.erase ltPoseID k m) a.neighborPoses
      neighborAuxPoses := ids.foldl (fun m k => OMap.erase ltPoseID k m) a.neighborAuxPoses } := by
  unfold clearActiveNeighborPoses at e
  rw [bind_eq_ok] at e
  obtain ⟨ids, h, e⟩ := e
  cases e
  exact ⟨ids, h, rfl⟩

theorem setGlobalAnchor_form {a a' : Agent} {M : DMat ℝ} (hrd : a.d ≤ a.r)
    (hr : a.graph.r = a.r) (hd : a.graph.d = a.d) (e : a.setGlobalAnchor M = ok a') :
    M.rows = a.r ∧ M.cols = a.d + 1 ∧ ∃ Xa : PArr ℝ, ArrOk a.r a.d 1 Xa ∧
      rotM a.r a.d Xa 0 = M.toMat a.r a.d ∧ traV a.r a.d Xa 0 = (fun i : Fin a.r => M.v i a.d) ∧
      a' = { a with globalAnchor := some Xa } := by
  unfold setGlobalAnchor at e
  simp only [bind_eq_ok, check_eq_ok, exists_and_left, exists_const, beq_iff_eq, relaxationRank,
    dimension, hr, hd] at e
  obtain ⟨h1, h2, P, hP, Q, hQ, e⟩ := e
  obtain ⟨P', hP', hok, -⟩ := PArr.make_ok (K := ℝ) (n := 1) hrd
  rw [hP] at hP'
  cases hP'
  rw [PArr.setPose_ok hok zero_lt_one ⟨h1, h2⟩] at hQ
  cases hQ
  cases e
  refine ⟨h1, h2, _, PArr.arrOk_setBlock hok _ _ _, ?_, ?_, rfl⟩
  · rw [PArr.rotM_setPose P 0 0 ⟨h1, h2⟩, if_pos rfl]
  · rw [PArr.traV_setPose P 0 0 ⟨h1, h2⟩, if_pos rfl]

/-! ### Weights -/

/-- Weight writes. -/
def weighting : PGOp ℝ → Prop
  | .writeWeight _ _ _ _ => True
  | _ => False

theorem weighting_quiet (op : PGOp ℝ) (h : weighting op) : quiet op := by
  cases op <;> simp [quiet, weighting] at h ⊢

theorem write_steps {ID r d : Nat} {g : PoseGraph ℝ} (hg : Reachable ID r d g) {p : PoseGraph.MPtr}
    {m : Meas ℝ} (hp : g.deref p = some m) (w : ℝ) (f : Bool) :
    Steps weighting g (g.writeWeight p w f) :=
  Steps.one (op := .writeWeight m.src m.dst w f) trivial (step_writeWeight hg hp w f)

/-- A loop of weight writes. -/
theorem weight_loop {ID r d : Nat} {f : PoseGraph ℝ → PoseGraph.MPtr → Res (PoseGraph ℝ)}
    (hf : ∀ g p g', Reachable ID r d g → f g p = ok g' → Steps weighting g g') :
    ∀ (ps : List PoseGraph.MPtr) {g g' : PoseGraph ℝ}, Reachable ID r d g →
      Res.foldl f g ps = ok g' → Steps weighting g g'
  | [], g, g', _, e => by cases e; exact .refl _
  | p :: ps, g, g', hg, e => by
    rw [foldl_cons, bind_eq_ok'] at e
    obtain ⟨g1, e1, e⟩ := e
    have h1 := hf g p g1 hg e1
    exact h1.trans (weight_loop hf ps (h1.reach (fun op h => quiet_wf op (weighting_quiet op h)) hg) e)

theorem weightsToOne_steps {ID r d : Nat} {g g' : PoseGraph ℝ} {ps : List PoseGraph.MPtr}
    (hg : Reachable ID r d g) (e : weightsToOne g ps = ok g') : Steps weighting g g' := by
  refine weight_loop (ID := ID) (r := r) (d := d) ?_ ps hg e
  intro g p g' hg e
  split at e
  · cases e
  · rename_i m hm
    simp only [Res.ok.injEq] at e
    subst e
    split
    · exact .refl _
    · exact write_steps hg hm _ _

theorem initializeRobustOptimization_form {ID r d : Nat} {a a' : Agent}
    (hg : Reachable ID r d a.graph) (e : a.initializeRobustOptimization = ok a') :
    ∃ ps g', a.graph.activeLoopClosures = ok ps ∧ weightsToOne a.graph ps = ok g' ∧
      Steps weighting a.graph g' ∧ a' = { a with cost := a.cost.reset, graph := g' } := by
  unfold initializeRobustOptimization at e
  simp only [bind_eq_ok] at e
  obtain ⟨ps, h1, g', h2, e⟩ := e
  cases e
  exact ⟨ps, g', h1, h2, weightsToOne_steps hg h2, rfl⟩

theorem reweightStep_steps {ID r d : Nat} {a : Agent} {g g' : PoseGraph ℝ} {p : PoseGraph.MPtr}
    (hg : Reachable ID r d g) (e : a.reweightStep g p = ok g') : Steps weighting g g' := by
  unfold reweightStep at e
  split at e
  · cases e
  · rename_i m hm
    split at e
    · cases e; exact .refl _
    · rw [bind_eq_ok] at e
      obtain ⟨q, h, e⟩ := e
      cases q with
      | none => cases e; exact .refl _
      | some res =>
        simp only [bind_eq_ok] at e
        obtain ⟨w, hw, e⟩ := e
        cases e
        exact write_steps hg hm _ _

/-- `incInt`. -/
theorem incInt_form {x y : Int} (e : incInt x = ok y) : y = x + 1 ∧ x + 1 < 2 ^ 31 := by
  unfold incInt at e
  split at e
  · rename_i h
    cases e; exact ⟨rfl, h⟩
  · cases e

theorem resetTrajectory_form {a a' : Agent} (e : a.resetTrajectory = ok a') :
    (¬ a.trajectoryResetCount < a.params.numResets ∧ a' = a) ∨
    (a.trajectoryResetCount < a.params.numResets ∧ a.state ≠ .WAIT_FOR_DATA ∧
      ∃ X, a.XInit = some X ∧ a' = { a with
        trajectoryResetCount := a.trajectoryResetCount + 1, X := X
        neighborPoses := [], neighborAuxPoses := [] }) := by
  unfold resetTrajectory at e
  split at e
  · rename_i h
    simp only [bind_eq_ok] at e
    obtain ⟨k, hk, b, hb, e⟩ := e
    obtain ⟨rfl, -⟩ := incInt_form hk
    obtain ⟨hs, X, hX, rfl⟩ := setXToInitialGuess_form hb
    cases e
    exact Or.inr ⟨h, hs, X, hX, rfl⟩
  · rename_i h
    cases e
    exact Or.inl ⟨h, rfl⟩

/-- State of the agent after the counters and caches of a weight update are changed. -/
def reweighted (a : Agent) (g : PoseGraph ℝ) : Agent :=
  { a with
    graph := g.clearDataMatrices, weightUpdateCount := a.weightUpdateCount + 1
    latestWeightUpdate := a.iterationNumber
    innerIter := 0, cost := a.cost.update, teamStatus := []
    status := { a.status with readyToTerminate := false, relativeChange := 0 } }

theorem updateMeasurementWeights_form {ID r d : Nat} {a a' : Agent}
    (hg : Reachable ID r d a.graph) (e : a.updateMeasurementWeights = ok a') :
    (a.state ≠ .INITIALIZED ∧ a' = a) ∨
    (a.state = .INITIALIZED ∧ ∃ ps g b, a.graph.activeLoopClosures = ok ps ∧
      Res.foldl a.reweightStep a.graph ps = ok g ∧ Steps weighting a.graph g ∧
      a.weightUpdateCount + 1 < 2 ^ 31 ∧
      (a.reweighted g).resetTrajectory = ok b ∧ a' = b.resync) := by
  unfold updateMeasurementWeights at e
  split at e
  · rename_i h
    cases e
    exact Or.inl ⟨h, rfl⟩
  · rename_i h
    simp only [bind_eq_ok, resetAcceleration_eq] at e
    obtain ⟨ps, h1, g, h2, k, hk, b, hb, e⟩ := e
    obtain ⟨rfl, hk'⟩ := incInt_form hk
    cases e
    exact Or.inr ⟨by simpa using h, ps, g, b, h1, h2,
      weight_loop (fun g p g' hg e => reweightStep_steps hg e) ps hg h2, hk', hb, rfl⟩

theorem setMeasurementWeight_form {a a' : Agent} {src dst : PoseID} {w : ℝ} {f b : Bool}
    (e : a.setMeasurementWeight src dst w f = ok (b, a')) :
    ∃ g', a.graph.step (.writeWeight src dst w f) = ok g' ∧ a' = { a with graph := g' } := by
  unfold setMeasurementWeight at e
  simp only [bind_eq_ok] at e
  obtain ⟨q, h, e⟩ := e
  cases q with
  | none =>
    cases e
    refine ⟨a.graph, ?_, rfl⟩
    simp only [PoseGraph.step, h, ok_bind]
  | some p =>
    cases e
    refine ⟨a.graph.writeWeight p w f, ?_, rfl⟩
    simp only [PoseGraph.step, h, ok_bind]

theorem setRobotActive_form {a a' : Agent} {rid : Nat} {b : Bool}
    (e : a.setRobotActive rid b = ok a') :
    (a.params.numRobots ≤ rid ∧ a' = a) ∨
    (rid < a.params.numRobots ∧ rid < a.teamActive.length ∧
      ∃ g', a.graph.step (.setNeighborActive rid b) = ok g' ∧
        a' = { a with teamActive := a.teamActive.set rid b, graph := g' }) := by
  unfold setRobotActive at e
  split at e
  · rename_i h
    cases e; exact Or.inl ⟨h, rfl⟩
  · rename_i h
    simp only [bind_eq_ok, require_eq_ok, exists_and_left, exists_const, decide_eq_true_eq] at e
    obtain ⟨hl, e⟩ := e
    by_cases hn : a.graph.hasNeighbor rid = true
    · rw [if_pos hn, bind_eq_ok] at e
      obtain ⟨g', hg, e⟩ := e
      cases e
      exact Or.inr ⟨by omega, hl, g', hg, rfl⟩
    · rw [if_neg hn, ok_bind] at e
      cases e
      refine Or.inr ⟨by omega, hl, a.graph, ?_, rfl⟩
      simp only [PoseGraph.step, PoseGraph.setNeighborActive]
      simp [hn]

theorem anchorFirstPose_form {a a' : Agent} {b : Bool} (e : a.anchorFirstPose = ok (b, a')) :
    (a.numPoses = 0 ∧ b = false ∧ a' = a) ∨
    (0 < a.numPoses ∧ b = true ∧ ∃ prior M g', a.X.poseAt 0 = ok M ∧
      prior.X = M ∧ a.graph.step (.setPrior 0 prior) = ok g' ∧ a' = { a with graph := g' }) := by
  unfold anchorFirstPose at e
  split at e
  · rename_i h
    simp only [bind_eq_ok] at e
    obtain ⟨P, hP, M, hM, P', hP', g', hg, e⟩ := e
    obtain ⟨-, -, rfl⟩ := setData_form hP'
    cases e
    exact Or.inr ⟨h, rfl, _, M, g', hM, rfl, hg, rfl⟩
  · cases e
    exact Or.inl ⟨by omega, rfl, rfl⟩

theorem anchorFirstPoseWith_form {a a' : Agent} {P : PArr ℝ} {b : Bool}
    (e : a.anchorFirstPoseWith P = ok (b, a')) :
    b = true ∧ ∃ g', a.graph.step (.setPrior 0 P) = ok g' ∧ a' = { a with graph := g' } := by
  unfold anchorFirstPoseWith at e
  simp only [bind_eq_ok, check_eq_ok, exists_and_left, exists_const] at e
  obtain ⟨-, -, g', hg, e⟩ := e
  cases e
  exact ⟨rfl, g', hg, rfl⟩

/-! ### Iteration -/

/-- Calls made on the graph by `updateX`. -/
def updating : PGOp ℝ → Prop
  | .setNeighborPoses _ => True
  | .constructDataMatrices => True
  | .quadraticMatrix => True
  | .linearMatrix => True
  | .hasPreconditioner _ => True
  | _ => False

theorem updating_quiet (op : PGOp ℝ) (h : updating op) : quiet op := by
  cases op <;> simp [quiet, updating] at h ⊢

theorem solving_updating (op : PGOp ℝ) (h : solving op) : updating op := by
  cases op <;> simp [solving, updating] at h ⊢

theorem updateX_form {o : AgentOracles} {a a' : Agent} {doOpt accel b : Bool}
    (e : a.updateX o doOpt accel = ok (b, a')) :
    (doOpt = false ∧ b = true ∧ a' = if accel then { a with X := a.Y } else a) ∨
    (doOpt = true ∧ a.state = .INITIALIZED ∧ (accel = true → a.params.acceleration = true) ∧
      ∃ g1, (a.graph.setNeighborPoses (if accel then a.neighborAuxPoses else a.neighborPoses)
          ).constructDataMatrices = ok (b, g1) ∧ Steps updating a.graph g1 ∧
        ((b = false ∧ a' = { a with graph := g1 }) ∨
         (b = true ∧ ∃ Z res g2,
            optimize (o.opt a.calls) a.params.localOpt g1 (if accel then a.Y.X else a.X.X)
              = ok (Z, res, g2) ∧ Steps updating g1 g2 ∧
            Z.rows = a.X.r ∧ Z.cols = (a.X.d + 1) * a.X.n ∧
            a' = { a with X := { a.X with X := Z }, graph := g2, calls := a.calls + 1 }))) := by
  unfold updateX at e
  cases doOpt with
  | false => simp at e; exact Or.inl ⟨rfl, e.1, e.2.symm⟩
  | true =>
    right
    simp only [Bool.not_true, Bool.false_eq_true, ↓reduceIte, bind_eq_ok, check_eq_ok,
      exists_and_left, exists_const] at e
    obtain ⟨h1, h2, ⟨built, g1⟩, hc, e⟩ := e
    have hs1 : Steps updating a.graph g1 := by
      refine (Steps.one (op := .setNeighborPoses
        (if accel then a.neighborAuxPoses else a.neighborPoses)) trivial rfl).trans
        (Steps.one (op := .constructDataMatrices) trivial ?_)
      simp only [PoseGraph.step, hc, ok_bind]
    refine ⟨rfl, by simpa using h2, fun h => by simpa [h] using h1, g1, ?_⟩
    simp only at e
    cases built with
    | false =>
      simp only [Bool.false_eq_true, ↓reduceIte, Res.ok.injEq, Prod.mk.injEq] at e
      obtain ⟨rfl, rfl⟩ := e
      exact ⟨hc, hs1, Or.inl ⟨rfl, rfl⟩⟩
    | true =>
      simp only [↓reduceIte] at e
      unfold optimizeX at e
      simp only [bind_eq_ok, check_eq_ok, exists_and_left, exists_const] at e
      obtain ⟨-, -, ⟨Z, res, g2⟩, ho, X, hX, e⟩ := e
      simp only [Res.ok.injEq, Prod.mk.injEq] at e
      obtain ⟨rfl, rfl⟩ := e
      obtain ⟨z1, z2, rfl⟩ := setData_form hX
      exact ⟨hc, hs1, Or.inr ⟨rfl, Z, res, g2, ho, (optimize_steps ho).mono solving_updating, z1, z2,
        rfl⟩⟩

theorem updateGamma_form {a a' : Agent} (e : a.updateGamma = ok a') :
    a.params.acceleration = true ∧ a.state = .INITIALIZED ∧ u32 (2 * a.params.numRobots) ≠ 0 ∧
      a' = { a with gamma := (1 + Real.sqrt (1 + 4 * (a.params.numRobots : ℝ) ^ 2 * a.gamma ^ 2)) /
        (u32 (2 * a.params.numRobots) : ℝ) } := by
  unfold updateGamma at e
  simp only [bind_eq_ok, check_eq_ok, exists_and_left, exists_const, beq_iff_eq] at e
  obtain ⟨h1, h2, e⟩ := e
  split at e
  · cases e
  · rename_i h
    cases e; exact ⟨h1, h2, h, rfl⟩

theorem updateAlpha_form {a a' : Agent} (e : a.updateAlpha = ok a') :
    a.params.acceleration = true ∧ a.state = .INITIALIZED ∧ a.gamma * a.params.numRobots ≠ 0 ∧
      a' = { a with alpha := 1 / (a.gamma * a.params.numRobots) } := by
  unfold updateAlpha at e
  simp only [bind_eq_ok, check_eq_ok, exists_and_left, exists_const, beq_iff_eq] at e
  obtain ⟨h1, h2, e⟩ := e
  split at e
  · cases e
  · rename_i h
    cases e; exact ⟨h1, h2, h, rfl⟩

theorem updateY_form {o : AgentOracles} {a a' : Agent} (e : a.updateY o = ok a') :
    a.params.acceleration = true ∧ a.state = .INITIALIZED ∧ ∃ P,
      a.project o ((a.X.X.smul (1 - a.alpha)).add (a.V.X.smul a.alpha)) = ok P ∧
      P.rows = a.Y.r ∧ P.cols = (a.Y.d + 1) * a.Y.n ∧ a' = { a with Y := { a.Y with X := P } } := by
  unfold updateY at e
  simp only [bind_eq_ok, check_eq_ok, require_eq_ok, exists_and_left, exists_const, beq_iff_eq] at e
  obtain ⟨h1, h2, -, P, hP, Y, hY, e⟩ := e
  obtain ⟨y1, y2, rfl⟩ := setData_form hY
  cases e
  exact ⟨h1, h2, P, hP, y1, y2, rfl⟩

theorem updateV_form {o : AgentOracles} {a a' : Agent} (e : a.updateV o = ok a') :
    a.params.acceleration = true ∧ a.state = .INITIALIZED ∧ ∃ P,
      a.project o (a.V.X.add ((a.X.X.sub a.Y.X).smul a.gamma)) = ok P ∧
      P.rows = a.V.r ∧ P.cols = (a.V.d + 1) * a.V.n ∧ a' = { a with V := { a.V with X := P } } := by
  unfold updateV at e
  simp only [bind_eq_ok, check_eq_ok, require_eq_ok, exists_and_left, exists_const, beq_iff_eq] at e
  obtain ⟨h1, h2, -, -, P, hP, Y, hY, e⟩ := e
  obtain ⟨y1, y2, rfl⟩ := setData_form hY
  cases e
  exact ⟨h1, h2, P, hP, y1, y2, rfl⟩

theorem shouldRestart_form {a : Agent} {b : Bool} (e : a.shouldRestart = ok b) :
    (a.params.acceleration = false ∧ b = false) ∨
    (a.params.acceleration = true ∧ a.params.restartInterval ≠ 0 ∧
      b = decide (u32 (a.iterationNumber + 1) % a.params.restartInterval = 0)) := by
  unfold shouldRestart at e
  split at e
  · rename_i h
    split at e
    · cases e
    · rename_i h'
      cases e; exact Or.inr ⟨h, h', rfl⟩
  · rename_i h
    cases e; exact Or.inl ⟨by simpa using h, rfl⟩

theorem restart_form {o : AgentOracles} {a a' : Agent} {doOpt : Bool}
    (e : a.restartNesterovAcceleration o doOpt = ok a') :
    (¬ (a.params.acceleration = true ∧ a.state = .INITIALIZED) ∧ a' = a) ∨
    ((a.params.acceleration = true ∧ a.state = .INITIALIZED) ∧ ∃ b c,
      updateX o { a with X := a.XPrev } doOpt false = ok (b, c) ∧
      a' = { c with V := c.X, Y := c.X, gamma := 0, alpha := 0 }) := by
  unfold restartNesterovAcceleration at e
  split at e
  · rename_i h
    simp only [bind_eq_ok] at e
    obtain ⟨⟨b, c⟩, h1, e⟩ := e
    cases e
    exact Or.inr ⟨h, b, c, h1, rfl⟩
  · rename_i h
    cases e; exact Or.inl ⟨h, rfl⟩

theorem accelStep_form {o : AgentOracles} {a a' : Agent} {doOpt s : Bool}
    (e : a.accelStep o doOpt = ok (s, a')) :
    ∃ a1 a2 a3 a4 a5 b, a.updateGamma = ok a1 ∧ a1.updateAlpha = ok a2 ∧ a2.updateY o = ok a3 ∧
      a3.updateX o doOpt true = ok (s, a4) ∧ a4.updateV o = ok a5 ∧ a5.shouldRestart = ok b ∧
      ((b = false ∧ a' = a5) ∨ (b = true ∧ a5.restartNesterovAcceleration o doOpt = ok a')) := by
  unfold accelStep at e
  simp only [bind_eq_ok] at e
  obtain ⟨a1, h1, a2, h2, a3, h3, ⟨s', a4⟩, h4, a5, h5, b, h6, e⟩ := e
  simp only at h5 e
  cases b with
  | false =>
    simp only [Bool.false_eq_true, ↓reduceIte, Res.ok.injEq, Prod.mk.injEq] at e
    obtain ⟨rfl, rfl⟩ := e
    exact ⟨a1, a2, a3, a4, a5, false, h1, h2, h3, h4, h5, h6, Or.inl ⟨rfl, rfl⟩⟩
  | true =>
    simp only [↓reduceIte, bind_eq_ok] at e
    obtain ⟨c, hc, e⟩ := e
    simp only [Res.ok.injEq, Prod.mk.injEq] at e
    obtain ⟨rfl, rfl⟩ := e
    exact ⟨a1, a2, a3, a4, a5, true, h1, h2, h3, h4, h5, h6, Or.inr ⟨rfl, hc⟩⟩

theorem iterateStatus_form {a a' : Agent} {s : Bool} (e : a.iterateStatus s = ok a') :
    ∃ change stat, PArr.maxTranslationDistance a.X a.XPrev = ok change ∧
      a.graph.statistics = ok stat ∧ ∃ ready : Bool,
      (ready = true ↔ s = true ∧
        ¬ change > (if a.params.robust.costType ≠ .L2 ∧ a.weightUpdateCount = 0 then 5
          else a.params.relChangeTol) ∧
        ¬ (stat.total ≠ 0 ∧
          ((stat.accept : ℝ) + stat.reject) / stat.total < a.params.minConvergenceRatio)) ∧
      a' = { a with status := ⟨a.id, a.state, a.instanceNumber, a.iterationNumber, ready, change⟩ } := by
  unfold iterateStatus at e
  simp only [bind_eq_ok] at e
  obtain ⟨change, h1, stat, h2, e⟩ := e
  refine ⟨change, stat, h1, h2, ?_⟩
  cases e
  refine ⟨_, ?_, rfl⟩
  simp only [Bool.and_eq_true, decide_eq_true_eq, and_assoc]

theorem tick_form {a a' : Agent} (e : a.tick = ok a') :
    ∃ k, (a.params.robust.costType = .L2 → k = a.innerIter) ∧
      (a.params.robust.costType ≠ .L2 → k = a.innerIter + 1) ∧
      a' = { a with iterationNumber := u32 (a.iterationNumber + 1), innerIter := k } := by
  unfold tick at e
  by_cases h : a.params.robust.costType ≠ .L2
  · rw [if_pos h, bind_eq_ok] at e
    obtain ⟨k, hk, e⟩ := e
    obtain ⟨rfl, -⟩ := incInt_form hk
    cases e
    exact ⟨_, fun c => absurd c h, fun _ => rfl, rfl⟩
  · rw [if_neg h, ok_bind] at e
    cases e
    exact ⟨_, fun _ => rfl, fun c => absurd c h, rfl⟩

/-- Publishing flags set at the end of an iteration. -/
def publish (a : Agent) (doOpt : Bool) : Agent :=
  { a with
    publishPublicPoses := a.publishPublicPoses || doOpt || a.params.acceleration
    publishAsynchronous := true }

theorem iterateBody_form {o : AgentOracles} {a a' : Agent} {doOpt s : Bool}
    (e : a.iterateBody o doOpt = ok (s, a')) :
    ∃ b c, ((a.params.acceleration = true ∧ accelStep o { a with XPrev := a.X } doOpt = ok (s, b)) ∨
        (a.params.acceleration = false ∧ updateX o { a with XPrev := a.X } doOpt false = ok (s, b))) ∧
      ((doOpt = true ∧ b.iterateStatus s = ok c) ∨ (doOpt = false ∧ c = b)) ∧ a' = c.publish doOpt := by
  unfold iterateBody at e
  have key : ∀ (s' : Bool) (b : Agent), (do
      let a ← if doOpt = true then b.iterateStatus s' else ok b
      ok (s', ({ a with
        publishPublicPoses := a.publishPublicPoses || doOpt || a.params.acceleration
        publishAsynchronous := true } : Agent))) = ok (s, a') →
      s' = s ∧ ∃ c, ((doOpt = true ∧ b.iterateStatus s = ok c) ∨ (doOpt = false ∧ c = b)) ∧
        a' = c.publish doOpt := by
    intro s' b e
    cases doOpt with
    | true =>
      simp only [↓reduceIte, bind_eq_ok] at e
      obtain ⟨c, hc, e⟩ := e
      simp only [Res.ok.injEq, Prod.mk.injEq] at e
      obtain ⟨rfl, rfl⟩ := e
      exact ⟨rfl, c, Or.inl ⟨rfl, hc⟩, rfl⟩
    | false =>
      simp only [Bool.false_eq_true, ↓reduceIte, ok_bind, Res.ok.injEq, Prod.mk.injEq] at e
      obtain ⟨rfl, rfl⟩ := e
      exact ⟨rfl, b, Or.inr ⟨rfl, rfl⟩, rfl⟩
  by_cases h : a.params.acceleration = true
  · rw [if_pos h, bind_eq_ok] at e
    obtain ⟨⟨s', b⟩, hb, e⟩ := e
    obtain ⟨rfl, c, hc⟩ := key s' b e
    exact ⟨b, c, Or.inl ⟨h, hb⟩, hc⟩
  · rw [if_neg h, bind_eq_ok] at e
    obtain ⟨⟨s', b⟩, hb, e⟩ := e
    obtain ⟨rfl, c, hc⟩ := key s' b e
    exact ⟨b, c, Or.inr ⟨by simpa using h, hb⟩, hc⟩

theorem iterate_form {o : AgentOracles} {a a' : Agent} {doOpt s : Bool}
    (e : a.iterate o doOpt = ok (s, a')) :
    ∃ b, a.tick = ok b ∧ ((a.state = .INITIALIZED ∧ b.iterateBody o doOpt = ok (s, a')) ∨
      (a.state ≠ .INITIALIZED ∧ s = true ∧ a' = b)) := by
  unfold iterate at e
  rw [bind_eq_ok] at e
  obtain ⟨b, hb, e⟩ := e
  have hs : b.state = a.state := by
    obtain ⟨k, -, -, rfl⟩ := tick_form hb
    rfl
  refine ⟨b, hb, ?_⟩
  split at e
  · rename_i h
    exact Or.inl ⟨by rw [← hs]; exact h, e⟩
  · rename_i h
    simp only [Res.ok.injEq, Prod.mk.injEq] at e
    exact Or.inr ⟨by rw [← hs]; exact h, e.1.symm, e.2.symm⟩

/-! ### Initialisation -/

theorem initializeInGlobalFrame_form {ID r d : Nat} {a a' : Agent} {T : PArr ℝ}
    (hg : Reachable ID r d a.graph) (e : a.initializeInGlobalFrame T = ok a') :
    ∃ Y R X g' c, a.YLift = some Y ∧ T.d = a.graph.d ∧ T.rotationAt 0 = ok R ∧
      checkRotationMatrix R = ok () ∧ a.liftTrajectory Y T = ok X ∧ Steps weighting a.graph g' ∧
      ((a.params.robust.costType = .L2 ∧ g' = a.graph ∧ c = a.cost) ∨
       (a.params.robust.costType ≠ .L2 ∧ c = a.cost.reset ∧
          ∃ ps, a.graph.activeLoopClosures = ok ps ∧ weightsToOne a.graph ps = ok g')) ∧
      (a.running = true → a.params.acceleration = false) ∧
      a' = resync { a with
        neighborPoses := [], neighborAuxPoses := [], X := X, XInit := some X
        state := .INITIALIZED, graph := g', cost := c } := by
  unfold initializeInGlobalFrame at e
  split at e
  · cases e
  rename_i Y hY
  simp only [bind_eq_ok, check_eq_ok, exists_and_left, exists_const, beq_iff_eq] at e
  obtain ⟨h1, R, hR, _, hc, X, hX, e⟩ := e
  have hX' : a.liftTrajectory Y T = ok X := hX
  have fin : ∀ (b : Agent), (do
        let a ← b.resetAcceleration
        if a.running then a.startOptimizationLoop else ok a) = ok a' →
      b.running = a.running → b.params = a.params → (a.running = true → a.params.acceleration = false) ∧ a' = b.resync := by
    intro b e hb hp
    rw [resetAcceleration_eq, ok_bind] at e
    have hr : b.resync.running = b.running := by unfold resync; split <;> rfl
    have hpp : b.resync.params = b.params := resync_params b
    split at e
    · rename_i h
      obtain ⟨h1, e⟩ := startOptimizationLoop_form e
      refine ⟨fun _ => by rw [← hp, ← hpp]; exact h1, ?_⟩
      rw [e]
      rw [← h]
    · rename_i h
      simp only [Res.ok.injEq] at e
      exact ⟨fun c => absurd (by rw [hr, hb]; exact c) h, e.symm⟩
  by_cases hl : a.params.robust.costType ≠ .L2
  · rw [if_pos (show a.clearNeighborPoses.params.robust.costType ≠ .L2 from hl), bind_eq_ok] at e
    obtain ⟨b, hb, e⟩ := e
    obtain ⟨ps, g', hp, hw, hs, rfl⟩ := initializeRobustOptimization_form (ID := ID) (r := r) (d := d)
      (by exact hg) hb
    obtain ⟨hrun, rfl⟩ := fin _ e rfl rfl
    exact ⟨Y, R, X, g', _, hY, h1, hR, hc, hX', hs, Or.inr ⟨hl, rfl, ps, hp, hw⟩, hrun, rfl⟩
  · rw [if_neg (show ¬ a.clearNeighborPoses.params.robust.costType ≠ .L2 from hl), ok_bind] at e
    obtain ⟨hrun, rfl⟩ := fin _ e rfl rfl
    exact ⟨Y, R, X, a.graph, a.cost, hY, h1, hR, hc, hX', .refl _,
      Or.inl ⟨by simpa using hl, rfl, rfl⟩, hrun, rfl⟩

theorem rejectOutliers_form {ms : List (Meas ℝ)} : ∀ {a a' : Agent}, a.rejectOutliers ms = ok a' →
    ∃ g', Steps weighting a.graph g' ∧ a' = { a with graph := g' } := by
  induction ms with
  | nil => intro a a' e; cases e; exact ⟨a.graph, .refl _, rfl⟩
  | cons m ms ih =>
    intro a a' e
    unfold rejectOutliers at e
    rw [foldl_cons, bind_eq_ok'] at e
    obtain ⟨b, hb, e⟩ := e
    obtain ⟨g', h', rfl⟩ := ih (a := b) (a' := a') e
    split at hb
    · simp only [bind_eq_ok] at hb
      obtain ⟨⟨x, c⟩, hc, hb⟩ := hb
      obtain ⟨g1, h1, rfl⟩ := setMeasurementWeight_form hc
      cases hb
      exact ⟨g', (Steps.one (S := weighting) (by simp [weighting]) h1).trans h', rfl⟩
    · cases hb
      exact ⟨g', h', rfl⟩

theorem localInitialization_form {o : AgentOracles} {a a' : Agent} {T : PArr ℝ}
    (e : a.localInitialization o = ok (T, a')) :
    ∃ g' k, Steps weighting a.graph g' ∧ a' = { a with graph := g', calls := k } ∧
      (a.params.initMethod ≠ .GNC_TLS → g' = a.graph ∧ k = a.calls) := by
  unfold localInitialization at e
  split at e
  · simp only [bind_eq_ok] at e
    obtain ⟨T', -, e⟩ := e
    cases e
    exact ⟨a.graph, a.calls, .refl _, rfl, fun _ => ⟨rfl, rfl⟩⟩
  · simp only [bind_eq_ok] at e
    obtain ⟨T', -, e⟩ := e
    cases e
    exact ⟨a.graph, a.calls, .refl _, rfl, fun _ => ⟨rfl, rfl⟩⟩
  · rename_i hm
    simp only [bind_eq_ok] at e
    obtain ⟨T', -, ⟨T'', ms⟩, -, b, hb, e⟩ := e
    simp only [Res.ok.injEq, Prod.mk.injEq] at e
    obtain ⟨-, rfl⟩ := e
    obtain ⟨g', h', rfl⟩ := rejectOutliers_form hb
    exact ⟨g', _, h', rfl, fun c => absurd hm c⟩

theorem chooseTrajectory_form {o : AgentOracles} {a a' : Agent} {T : PArr ℝ} {TI : Option (PArr ℝ)}
    (e : a.chooseTrajectory o TI = ok (T, a')) :
    T.d = a.graph.d ∧ ∃ g' k, Steps weighting a.graph g' ∧ a' = { a with graph := g', calls := k } ∧
      ((∃ S, TI = some S ∧ S.d = a.dimension ∧ S.n = a.numPoses ∧ T = S ∧ a' = a) ∨
       ((∀ S, TI = some S → ¬ (S.d = a.dimension ∧ S.n = a.numPoses)) ∧
          a.localInitialization o = ok (T, a'))) := by
  have comp : (do
      let (T, a) ← a.localInitialization o
      check (T.d == a.dimension)
      ok (T, a)) = ok (T, a') → T.d = a.graph.d ∧ a.localInitialization o = ok (T, a') := by
    intro e
    simp only [bind_eq_ok, check_eq_ok, exists_and_left, exists_const, beq_iff_eq] at e
    obtain ⟨⟨T', b⟩, h, hd, e⟩ := e
    cases e
    obtain ⟨g', k, hs, rfl, -⟩ := localInitialization_form h
    exact ⟨hd.trans (hs.topology weighting_quiet).d, h⟩
  unfold chooseTrajectory at e
  cases TI with
  | none =>
    obtain ⟨hd, h⟩ := comp e
    obtain ⟨g', k, hs, rfl, -⟩ := localInitialization_form h
    exact ⟨hd, g', k, hs, rfl, Or.inr ⟨by simp, h⟩⟩
  | some S =>
    simp only at e
    split at e
    · rename_i hS
      simp only [Res.ok.injEq, Prod.mk.injEq] at e
      obtain ⟨rfl, rfl⟩ := e
      exact ⟨hS.1, a.graph, a.calls, .refl _, rfl, Or.inl ⟨S, rfl, hS.1, hS.2, rfl, rfl⟩⟩
    · rename_i hS
      obtain ⟨hd, h⟩ := comp e
      obtain ⟨g', k, hs, rfl, -⟩ := localInitialization_form h
      refine ⟨hd, g', k, hs, rfl, Or.inr ⟨?_, h⟩⟩
      rintro S' h'
      cases h'
      exact hS

theorem init_form {o : AgentOracles} {ID r d : Nat} {a a' : Agent} {TI : Option (PArr ℝ)}
    (hg : Reachable ID r d a.graph) (e : a.init o TI = ok a') :
    (a.state ≠ .WAIT_FOR_DATA ∧ a' = a) ∨
    (a.state = .WAIT_FOR_DATA ∧ a.numPoses = 0 ∧ a' = { a with running := false }) ∨
    (a.state = .WAIT_FOR_DATA ∧ 0 < a.numPoses ∧ ∃ T S X b c,
      chooseTrajectory o { a with running := false } TI = ok (T, b) ∧
      b.normalizeTrajectory T = ok S ∧
      PArr.make b.relaxationRank b.dimension b.numPoses = ok X ∧
      ((¬ (b.id = 0 ∨ ¬ b.params.multirobotInit = true) ∧
          c = { b with TLocalInit := some S, X := X, state := .WAIT_FOR_INITIALIZATION }) ∨
       ((b.id = 0 ∨ ¬ b.params.multirobotInit = true) ∧ ∃ I, PArr.identity b.d = ok I ∧
          initializeInGlobalFrame
            { b with TLocalInit := some S, X := X, state := .WAIT_FOR_INITIALIZATION } I = ok c)) ∧
      ((a.params.asynchronous = false ∧ a' = c) ∨
       (a.params.asynchronous = true ∧ c.startOptimizationLoop = ok a'))) := by
  unfold init at e
  split at e
  · rename_i h
    cases e; exact Or.inl ⟨h, rfl⟩
  rename_i h
  simp only [ne_eq, not_not] at h
  simp only at e
  split at e
  · rename_i hn
    cases e; exact Or.inr (Or.inl ⟨h, hn, rfl⟩)
  rename_i hn
  refine Or.inr (Or.inr ⟨h, Nat.pos_of_ne_zero hn, ?_⟩)
  simp only [bind_eq_ok] at e
  obtain ⟨⟨T, b⟩, hT, S, hS, X, hX, e⟩ := e
  obtain ⟨-, g', k, hs, hb, -⟩ := chooseTrajectory_form hT
  have hbp : b.params = a.params := by rw [hb]; rfl
  have fin : ∀ (c : Agent), c.params = a.params →
      (if c.params.asynchronous = true then c.startOptimizationLoop else ok c) = ok a' →
      ((a.params.asynchronous = false ∧ a' = c) ∨
       (a.params.asynchronous = true ∧ c.startOptimizationLoop = ok a')) := by
    intro c hc e
    rw [hc] at e
    split at e
    · rename_i h; exact Or.inr ⟨h, e⟩
    · rename_i h
      simp only [Res.ok.injEq] at e
      exact Or.inl ⟨by simpa using h, e.symm⟩
  simp only at hS hX e
  by_cases hc : b.id = 0 ∨ ¬ b.params.multirobotInit = true
  · rw [if_pos hc] at e
    simp only [bind_eq_ok] at e
    obtain ⟨I, hI, c, hc', e⟩ := e
    refine ⟨T, S, X, b, c, hT, hS, hX, Or.inr ⟨hc, I, hI, hc'⟩, fin c ?_ e⟩
    obtain ⟨_, _, _, _, _, -, -, -, -, -, -, -, -, rfl⟩ := initializeInGlobalFrame_form (ID := ID)
      (r := r) (d := d) (by
        rw [hb]
        exact hs.reach (fun op h => quiet_wf op (weighting_quiet op h)) hg) hc'
    rw [resync_params]
    exact hbp
  · rw [if_neg hc, ok_bind] at e
    exact ⟨T, S, X, b, _, hT, hS, hX, Or.inl ⟨hc, rfl⟩, fin _ hbp e⟩

/-! ### Messages and measurements -/

/-- What `storePoses` computes once its checks pass. -/
def stored (g : PoseGraph ℝ) (store dict : PoseDict ℝ) : PoseDict ℝ :=
  dict.foldl (fun s kv => if g.requireNeighborPose kv.1 then OMap.insert ltPoseID kv.1 kv.2 s else s)
    store

theorem storePoses_form {a : Agent} {nid : Nat} : ∀ {dict store s : PoseDict ℝ},
    a.storePoses nid store dict = ok s →
    (∀ kv ∈ dict, kv.1.robot = nid ∧ kv.2.r = a.r ∧ kv.2.d = a.d) ∧ s = stored a.graph store dict
  | [], store, s, e => by cases e; exact ⟨by simp, rfl⟩
  | kv :: dict, store, s, e => by
    unfold storePoses at e
    rw [foldl_cons, bind_eq_ok'] at e
    obtain ⟨s1, h1, e⟩ := e
    simp only [bind_eq_ok, check_eq_ok, exists_and_left, exists_const, beq_iff_eq, Res.ok.injEq] at h1
    obtain ⟨h1, h2, h3, rfl⟩ := h1
    obtain ⟨h4, rfl⟩ := storePoses_form (dict := dict) e
    refine ⟨?_, rfl⟩
    intro x hx
    rcases List.mem_cons.1 hx with rfl | hx
    · exact ⟨h1, h2, h3⟩
    · exact h4 x hx

theorem acceptsFrom_iff {a : Agent} {nid : Nat} : a.acceptsFrom nid = true ↔
    (∃ Y, a.YLift = some Y) ∧ ∃ s, OMap.find? ltNat nid a.teamStatus = some s ∧
      s.state = .INITIALIZED := by
  unfold acceptsFrom
  rw [Bool.and_eq_true, Option.isSome_iff_exists]
  refine and_congr Iff.rfl ?_
  cases h : OMap.find? ltNat nid a.teamStatus with
  | none => simp
  | some s => simp

theorem tryInitialize_form {o : AgentOracles} {a a' : Agent} {nid : Nat} {dict : PoseDict ℝ}
    (e : a.tryInitialize o nid dict = ok a') :
    (a.state ≠ .WAIT_FOR_INITIALIZATION ∧ a' = a) ∨
    (a.state = .WAIT_FOR_INITIALIZATION ∧
      a.computeRobustNeighborTransformTwoStage o nid dict = ok none ∧ a' = a) ∨
    (a.state = .WAIT_FOR_INITIALIZATION ∧ ∃ T,
      a.computeRobustNeighborTransformTwoStage o nid dict = ok (some T) ∧
      a.initializeInGlobalFrame T = ok a') := by
  unfold tryInitialize at e
  split at e
  · rename_i h
    rw [bind_eq_ok] at e
    obtain ⟨q, hq, e⟩ := e
    cases q with
    | none => cases e; exact Or.inr (Or.inl ⟨h, hq, rfl⟩)
    | some T => exact Or.inr (Or.inr ⟨h, T, hq, e⟩)
  · rename_i h
    cases e; exact Or.inl ⟨h, rfl⟩

theorem updateNeighborPoses_form {o : AgentOracles} {a a' : Agent} {nid : Nat} {dict : PoseDict ℝ}
    (e : a.updateNeighborPoses o nid dict = ok a') :
    nid ≠ a.id ∧ ((a.acceptsFrom nid = false ∧ a' = a) ∨
      (a.acceptsFrom nid = true ∧ ∃ b, a.tryInitialize o nid dict = ok b ∧
        ((b.state ≠ .INITIALIZED ∧ a' = b) ∨
         (b.state = .INITIALIZED ∧
            (∀ kv ∈ dict, kv.1.robot = nid ∧ kv.2.r = b.r ∧ kv.2.d = b.d) ∧
            a' = { b with neighborPoses := stored b.graph b.neighborPoses dict })))) := by
  unfold updateNeighborPoses at e
  simp only [bind_eq_ok, check_eq_ok, exists_and_left, exists_const, bne_iff_ne] at e
  obtain ⟨h1, e⟩ := e
  refine ⟨h1, ?_⟩
  split at e
  · rename_i h
    cases e; exact Or.inl ⟨by simpa using h, rfl⟩
  · rename_i h
    simp only [bind_eq_ok] at e
    obtain ⟨b, hb, e⟩ := e
    refine Or.inr ⟨by simpa using h, b, hb, ?_⟩
    split at e
    · rename_i hs
      cases e; exact Or.inl ⟨hs, rfl⟩
    · rename_i hs
      rw [bind_eq_ok] at e
      obtain ⟨s, h2, e⟩ := e
      obtain ⟨h3, rfl⟩ := storePoses_form h2
      cases e
      exact Or.inr ⟨by simpa using hs, h3, rfl⟩

theorem updateAuxNeighborPoses_form {a a' : Agent} {nid : Nat} {dict : PoseDict ℝ}
    (e : a.updateAuxNeighborPoses nid dict = ok a') :
    a.params.acceleration = true ∧ nid ≠ a.id ∧
    ((¬ (a.acceptsFrom nid = true ∧ a.state = .INITIALIZED) ∧ a' = a) ∨
      (a.acceptsFrom nid = true ∧ a.state = .INITIALIZED ∧
        (∀ kv ∈ dict, kv.1.robot = nid ∧ kv.2.r = a.r ∧ kv.2.d = a.d) ∧
        a' = { a with neighborAuxPoses := stored a.graph a.neighborAuxPoses dict })) := by
  unfold updateAuxNeighborPoses at e
  simp only [bind_eq_ok, check_eq_ok, exists_and_left, exists_const, bne_iff_ne] at e
  obtain ⟨h0, h1, e⟩ := e
  refine ⟨h0, h1, ?_⟩
  split at e
  · rename_i h
    cases e
    refine Or.inl ⟨fun c => ?_, rfl⟩
    rw [c.1] at h; simp at h
  · rename_i h
    split at e
    · rename_i hs
      cases e; exact Or.inl ⟨fun c => hs c.2, rfl⟩
    · rename_i hs
      rw [bind_eq_ok] at e
      obtain ⟨s, h2, e⟩ := e
      obtain ⟨h3, rfl⟩ := storePoses_form h2
      cases e
      exact Or.inr ⟨by simpa using h, by simpa using hs, h3, rfl⟩

theorem reset_form {o : AgentOracles} {a a' : Agent} (e : a.reset o = ok a') :
    a' = { a with
      running := false, neighborPoses := [], neighborAuxPoses := []
      instanceNumber := u32 (a.instanceNumber + 1), iterationNumber := 0, latestWeightUpdate := 0
      innerIter := 0, weightUpdateCount := 0, trajectoryResetCount := 0, state := .WAIT_FOR_DATA
      status := ⟨a.id, .WAIT_FOR_DATA, u32 (a.instanceNumber + 1), 0, false, 0⟩
      teamStatus := [], teamActive := List.replicate a.params.numRobots false
      globalAnchor := none, TLocalInit := none, XInit := none
      publishPublicPoses := false, publishAsynchronous := false
      graph := a.graph.reset } := by
  unfold reset at e
  simp only at e
  split at e
  · simp only [bind_eq_ok] at e
    obtain ⟨_, -, e⟩ := e
    cases e; rfl
  · simp only [ok_bind] at e
    cases e; rfl

theorem addMeasurement_form {a a' : Agent} {m : Meas ℝ} (e : a.addMeasurement m = ok a') :
    (a.state ≠ .WAIT_FOR_DATA ∧ a' = a) ∨
    (a.state = .WAIT_FOR_DATA ∧ ∃ g', a.graph.step (.addMeasurement m) = ok g' ∧
      a' = { a with graph := g' }) := by
  unfold addMeasurement at e
  split at e
  · rename_i h
    cases e; exact Or.inl ⟨h, rfl⟩
  · rename_i h
    rw [bind_eq_ok] at e
    obtain ⟨g', hg, e⟩ := e
    cases e
    exact Or.inr ⟨by simpa using h, g', hg, rfl⟩

theorem setMeasurements_form {a a' : Agent} {odo priv shared : List (Meas ℝ)}
    (e : a.setMeasurements odo priv shared = ok a') :
    a.state = .WAIT_FOR_DATA ∧ a.running = false ∧ ((odo = [] ∧ a' = a) ∨
    (odo ≠ [] ∧ ∃ g0 g', PoseGraph.new a.id a.r a.d = ok g0 ∧
      g0.step (.setMeasurements (odo ++ priv ++ shared)) = ok g' ∧ a' = { a with graph := g' })) := by
  unfold setMeasurements at e
  simp only [bind_eq_ok, check_eq_ok, exists_and_left, exists_const, beq_iff_eq] at e
  obtain ⟨h1, h2, e⟩ := e
  refine ⟨h2, by simpa using h1, ?_⟩
  split at e
  · rename_i h
    cases e; exact Or.inl ⟨by simpa using h, rfl⟩
  · rename_i h
    simp only [bind_eq_ok] at e
    obtain ⟨g0, h0, g', hg, e⟩ := e
    cases e
    exact Or.inr ⟨by simpa using h, g0, g', h0, hg, rfl⟩

theorem new_form {o : AgentOracles} {ID : Nat} {p : AgentParams} {a : Agent}
    (e : Agent.new o ID p = ok a) :
    ∃ X g YL, PArr.make p.r p.d 1 = ok X ∧ PoseGraph.new ID p.r p.d = ok g ∧
      (∀ Y, YL = some Y → Y.rows = p.r ∧ Y.cols = p.d) ∧
      (ID = 0 → YL = some (DMat.ofMat (o.stiefel p.d p.r))) ∧ (ID ≠ 0 → YL = none) ∧
      a = { id := ID, d := p.d, r := p.r, X := X, params := p, state := .WAIT_FOR_DATA
            status := ⟨ID, .WAIT_FOR_DATA, 0, 0, false, 0⟩
            cost := RobustCost.new p.robust, graph := g
            instanceNumber := 0, iterationNumber := 0, latestWeightUpdate := 0, innerIter := 0
            weightUpdateCount := 0, trajectoryResetCount := 0, teamStatus := []
            teamActive := List.replicate p.numRobots true
            publishPublicPoses := false, publishAsynchronous := false
            XInit := none, TLocalInit := none, YLift := YL, globalAnchor := none
            neighborPoses := [], running := false, neighborAuxPoses := []
            gamma := 0, alpha := 0, Y := X, V := X, XPrev := X, calls := 0 } := by
  unfold Agent.new at e
  simp only [bind_eq_ok] at e
  obtain ⟨X, hX, g, hg, e⟩ := e
  split at e
  · rename_i h
    obtain ⟨h1, h2, rfl⟩ := setLiftingMatrix_form e
    exact ⟨X, g, some _, hX, hg, fun Y hY => by cases hY; exact ⟨h1, h2⟩, fun _ => rfl,
      fun c => absurd h c, rfl⟩
  · rename_i h
    cases e
    exact ⟨X, g, none, hX, hg, by simp, fun c => absurd c h, fun _ => rfl, rfl⟩

end Agent

end

end Dpgo
