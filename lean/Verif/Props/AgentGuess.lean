import Verif.Lemmas.Guess
import Verif.Lemmas.AgentFrames
import Verif.Props.AgentWeights

/-!
# C77: the initial guess
-/

namespace Dpgo.Props

open Res Spec Matrix

variable {o : AgentOracles} {ID : Nat} {p : AgentParams} {a a' : Agent}

/-- **C77** (what is kept).  At any time the robot keeps exactly the estimate it had right after it was last
placed in the global frame, and none if it has not been placed since the last reset. -/
theorem C77_kept {t : List Ev} (h : Hist o ID p t a) (X : PArr ℝ) : a.XInit = some X ↔ LastPlaced X t :=
  guess_last h X

/-- **C77** (`setXToInitialGuess`).  It returns exactly if there is such an estimate, makes it the current one,
and changes nothing else. -/
theorem C77_restore {t : List Ev} (h : Hist o ID p t a) :
    ((∃ a', a.setXToInitialGuess = ok a') ↔ ∃ X, LastPlaced X t) ∧
    ∀ a', a.setXToInitialGuess = ok a' → LastPlaced a'.X t ∧ a' = { a with X := a'.X } := by
  have hi := agReach_inv h.reach
  have key : ∀ a', a.setXToInitialGuess = ok a' → LastPlaced a'.X t ∧ a' = { a with X := a'.X } := by
    intro a' e
    obtain ⟨-, X, hX, rfl⟩ := Agent.setXToInitialGuess_form e
    exact ⟨(guess_last h X).1 hX, rfl⟩
  refine ⟨⟨fun ⟨a', e⟩ => ⟨a'.X, (key a' e).1⟩, fun ⟨X, hX⟩ => ?_⟩, key⟩
  have hX := (guess_last h X).2 hX
  have hs : a.state = .INITIALIZED := by
    by_contra c
    rw [(hi.notInit c).1] at hX
    cases hX
  refine ⟨{ a with X := X }, ?_⟩
  unfold Agent.setXToInitialGuess
  rw [hs, hX]
  rfl

/-- **C77** (weight updates).  The first `numResets` weight updates since the last reset send the robot back to
where it was placed and drop all received poses; the later ones leave estimate and received poses alone. -/
theorem C77_updates {t : List Ev} (h : Hist o ID p t a) (hs : a.state = .INITIALIZED)
    (e : a.updateMeasurementWeights = ok a') :
    ((reweightsSinceReset t : Int) < p.numResets →
      LastPlaced a'.X t ∧ a'.neighborPoses = [] ∧ a'.neighborAuxPoses = []) ∧
    (p.numResets ≤ (reweightsSinceReset t : Int) →
      a'.X = a.X ∧ a'.neighborPoses = a.neighborPoses ∧ a'.neighborAuxPoses = a.neighborAuxPoses) := by
  obtain ⟨k1, k2, -⟩ := C44_rest h.reach hs e
  have hc := resetCount_spec h
  refine ⟨fun c => ?_, fun c => ?_⟩
  · obtain ⟨q1, q2, q3, -⟩ := k2 (by omega)
    exact ⟨(guess_last h _).1 q1, q2, q3⟩
  · obtain ⟨q1, q2, q3, -⟩ := k1 (by omega)
    exact ⟨q1, q2, q3⟩

/-- **C77** (nowhere to go back to).  A robot that was given an estimate by `setX` without having been placed
does not survive a weight update with a due trajectory reset. -/
theorem C77_unplaced {t : List Ev} (h : Hist o ID p t a) (hs : a.state = .INITIALIZED)
    (hr : (reweightsSinceReset t : Int) < p.numResets) (hn : ∀ X, ¬ LastPlaced X t) :
    ∀ a', a.updateMeasurementWeights ≠ ok a' :=
  fun _ e => hn _ ((C77_updates h hs e).1 hr).1

/-- **C77** (value).  Placing the robot with the transform `W` puts pose `i` to the lifted `W` times the pose
`i` of the local trajectory; this is also the estimate kept. -/
theorem C77_value (h : AgReach o ID p a) (hs : a.state ≠ .WAIT_FOR_DATA) {Y : DMat ℝ} {T W : PArr ℝ}
    (hY : a.YLift = some Y) (hT : a.TLocalInit = some T) (hW : ArrOk p.d p.d 1 W)
    (e : a.initializeInGlobalFrame W = ok a') :
    a'.XInit = some a'.X ∧ a'.state = .INITIALIZED ∧ ∀ i < a.graph.n,
      rotM p.r p.d a'.X i = Y.toMat p.r p.d * (rotM p.d p.d W 0 * rotM p.d p.d T i) ∧
      traV p.r p.d a'.X i = Y.toMat p.r p.d *ᵥ (rotM p.d p.d W 0 *ᵥ traV p.d p.d T i + traV p.d p.d W 0) := by
  obtain ⟨b, X, e', k1, rfl, k2, -, -, -, -, k3⟩ := Agent.initGlobal_ok (agReach_inv h).toAgCore hs hY hT hW
  rw [e] at e'
  cases e'
  exact ⟨k2, k1, k3⟩

/-- Parameters with one trajectory reset. -/
noncomputable def exReturn : AgentParams :=
  { AgentParams.default 2 3 with numRobots := 2, robust := RobustParams.default .GM, numResets := 1 }

/-- A robot with two poses, initialised with a given trajectory, whose estimate is then replaced: robot 0 has
been placed, robot 1 has not. -/
theorem exSent_away (ID : Nat) (hID : ID = 0 ∨ ID = 1) : ∃ (t : List Ev) (a : Agent), Hist exOracle ID exReturn t a ∧
    a.state = .INITIALIZED ∧ a.X.X.v 0 2 = 7 ∧ reweightsSinceReset t = 0 ∧
    (ID = 0 → ∃ X, a.XInit = some X) ∧ (ID = 1 → a.XInit = none) ∧ (∃ T, a.TLocalInit = some T) ∧
    (ID = 0 → ∃ Y, a.YLift = some Y) := by
  obtain ⟨g0, g1, e0, e1, g2, g3⟩ : ∃ g0 g1 : PoseGraph ℝ, PoseGraph.new ID 3 2 = ok g0 ∧
      g0.addMeasurement (exI ID ID 0 1) = ok g1 ∧ g1.n = 2 ∧ g1.d = 2 := by
    rcases hID with rfl | rfl <;> exact ⟨_, _, rfl, rfl, rfl, rfl⟩
  have hnew : ∃ a0, Agent.new exOracle ID exReturn = ok a0 ∧ a0.graph = g0 ∧ a0.state = .WAIT_FOR_DATA ∧
      (ID = 0 → ∃ Y, a0.YLift = some Y) := by
    obtain ⟨X, hX, -, -⟩ := PArr.make_ok (K := ℝ) (r := 3) (d := 2) (n := 1) (by omega)
    unfold Agent.new
    rw [show exReturn.r = 3 from rfl, show exReturn.d = 2 from rfl, hX, e0]
    rcases hID with rfl | rfl
    · simp only [ok_bind, if_pos, Agent.setLiftingMatrix, DMat.ofMat, beq_self_eq_true, check_true]
      exact ⟨_, rfl, rfl, rfl, fun _ => ⟨_, rfl⟩⟩
    · exact ⟨_, rfl, rfl, rfl, fun c => by cases c⟩
  obtain ⟨a0, n0, n1, n2, n3⟩ := hnew
  have r2 := Hist.call (op := .addMeasurement (exI ID ID 0 1)) (a' := { a0 with graph := g1 }) (.new n0)
    (by
      have : ID < 4294967295 := by omega
      simp [AgOpWF, exI, MeasWF, this])
    (by simp only [Agent.step, Agent.addMeasurement, n2, ne_eq, not_true_eq_false, if_false, n1, e1,
        ok_bind])
  generalize ha : ({ a0 with graph := g1 } : Agent) = a at r2
  have hg : a.graph = g1 := by rw [← ha]
  have hs : a.state = .WAIT_FOR_DATA := by rw [← ha]; exact n2
  have hY : ID = 0 → ∃ Y, a.YLift = some Y := by rw [← ha]; exact n3
  have hi := agReach_inv r2.reach
  obtain ⟨a1, S, e, k1, k2, k3, -, hst⟩ := Agent.init_chosen (o := exOracle) (TI := some exTwo) hi hs
    (Agent.choose_supplied (a := { a with running := false }) (by rw [hg]; exact g3.symm)
      (by rw [hg]; exact g2.symm))
    (by rw [hg, g2]; exact exTwo_ok) (by rw [hg, g2]; omega)
    (by show (rotM 2 2 exTwo 0).det ≠ 0; rw [exTwo_rot]; simp) (fun c => by cases c)
    (fun c => hY (c.resolve_right (by simp [exReturn, AgentParams.default])))
  have e' : a.step exOracle (.init (some exTwo)) = ok a1 := e
  have r3 := Hist.call (op := .init (some exTwo)) r2 (fun P hP => by cases hP; exact exTwo_ok) e'
  have hs1 : a1.state ≠ .WAIT_FOR_DATA := by
    rw [hst]; split <;> simp
  obtain ⟨a2, e2, q1, q2, q3, -⟩ := Agent.setX_ok (M := ⟨3, 6, fun _ _ => 7⟩) (agReach_inv r3.reach) hs1 rfl
    (by rw [k3, hg, g2]; rfl)
  have r4 := Hist.call (op := .setX ⟨3, 6, fun _ _ => 7⟩) r3 trivial (show a1.step exOracle _ = ok a2 from e2)
  have f := Agent.step_frame (o := exOracle) (op := .setX ⟨3, 6, fun _ _ => 7⟩) (agReach_inv r3.reach) e2
  have f1 : a2.XInit = a1.XInit := by rw [f]; rfl
  have f2 : a2.TLocalInit = a1.TLocalInit := by rw [f]; rfl
  have f3 : a2.YLift = a.YLift := by
    rw [f, show (Agent.frame a1 a2 (.setX ⟨3, 6, fun _ _ => 7⟩)).YLift = a1.YLift from rfl,
      Agent.step_frame hi e']
    rfl
  refine ⟨_, a2, r4, q1, by rw [q2], ?_, fun c => ?_, fun c => ?_, ⟨S, f2.trans k1⟩,
    fun c => by rw [f3]; exact hY c⟩
  · simp [reweightsSinceReset, Reweights]
  · rw [f1]
    refine ⟨_, (step_guess hi e').1 (Or.inr ⟨by rw [hs]; simp, ?_, fun M c => by cases c⟩)⟩
    show a1.state = .INITIALIZED
    rw [hst, if_pos (Or.inl c)]
  · rw [f1]
    refine ((agReach_inv r3.reach).notInit ?_).1
    rw [hst, if_neg (by simp [c, exReturn, AgentParams.default])]
    simp

/-- `C77_restore`, `C77_updates`: robot 0 has moved away and goes back. -/
example : ∃ (t : List Ev) (a a1 a2 : Agent), Hist exOracle 0 exReturn t a ∧ a.state = .INITIALIZED ∧
    (∃ X, LastPlaced X t) ∧ a.setXToInitialGuess = ok a1 ∧ a.updateMeasurementWeights = ok a2 ∧
    (reweightsSinceReset t : Int) < exReturn.numResets := by
  obtain ⟨t, a, h, hs, -, hr, h0, -⟩ := exSent_away 0 (Or.inl rfl)
  obtain ⟨X, hX⟩ := h0 rfl
  have hX' := (C77_kept h X).1 hX
  obtain ⟨a1, e1⟩ := (C77_restore h).1.2 ⟨X, hX'⟩
  have hw := weightUpdateCount_spec h
  have hc := resetCount_spec h
  rw [hr] at hw hc
  obtain ⟨a2, e2⟩ := C44_total h.reach ⟨by simp [exReturn, RobustParams.default],
      by simp [exReturn, RobustParams.default], by simp [exReturn, RobustParams.default],
      by norm_num [exReturn, RobustParams.default]⟩ (by simp [exReturn, RobustParams.default])
    (by rw [hw]; norm_num) (fun _ => ⟨by rw [hc]; simp [exReturn], X, hX⟩)
  exact ⟨t, a, a1, a2, h, hs, ⟨X, hX'⟩, e1, e2, by rw [hr]; simp [exReturn]⟩

/-- `C77_unplaced`: robot 1 was given an estimate but never placed. -/
example : ∃ (t : List Ev) (a : Agent), Hist exOracle 1 exReturn t a ∧ a.state = .INITIALIZED ∧
    (reweightsSinceReset t : Int) < exReturn.numResets ∧ ∀ X, ¬ LastPlaced X t := by
  obtain ⟨t, a, h, hs, -, hr, -, h1, -⟩ := exSent_away 1 (Or.inr rfl)
  refine ⟨t, a, h, hs, by rw [hr]; simp [exReturn], fun X hX => ?_⟩
  rw [(C77_kept h X).2 hX] at h1
  cases h1 rfl

/-- `C77_value`: robot 0 can be placed again. -/
example : ∃ (a a' : Agent) (Y : DMat ℝ) (T W : PArr ℝ), AgReach exOracle 0 exReturn a ∧
    a.state ≠ .WAIT_FOR_DATA ∧ a.YLift = some Y ∧ a.TLocalInit = some T ∧ ArrOk 2 2 1 W ∧
    a.initializeInGlobalFrame W = ok a' := by
  obtain ⟨t, a, h, hs, -, -, -, -, ⟨T, hT⟩, hY⟩ := exSent_away 0 (Or.inl rfl)
  obtain ⟨Y, hY⟩ := hY rfl
  obtain ⟨W, hW⟩ : ∃ W : PArr ℝ, ArrOk exReturn.d exReturn.d 1 W :=
    ⟨PArr.mk 2 2 1 (DMat.mk 2 3 fun i j => if i + j = 1 then 1 else 0), rfl, rfl, rfl, rfl, rfl⟩
  have hn : a.state ≠ .WAIT_FOR_DATA := by rw [hs]; simp
  obtain ⟨a', X, e, -⟩ := Agent.initGlobal_ok (agReach_inv h.reach).toAgCore hn hY hT hW
  exact ⟨a, a', Y, T, W, h.reach, hn, hY, hT, hW, e⟩

end Dpgo.Props
