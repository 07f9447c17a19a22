import Verif.Lemmas.AgentSequences
import Verif.Props.AgentAccel

/-!
# C72: the sequences of the accelerated method
-/

namespace Dpgo.Props

open Res Spec PoseGraph

variable {o : AgentOracles} {ID : Nat} {p : AgentParams} {a a' : Agent}

/-- **C72** (one iteration that does not restart).  The auxiliary sequences are the retractions of
`(1 - α) X + α V` and of `V + γ (X' - Y')`.  An idle robot moves its estimate to `Y'`; an optimising robot
that has all the auxiliary poses it needs starts its solver at `Y'`, on its own problem with the auxiliary
poses as neighbours, and takes the result; one that lacks a pose keeps its estimate. -/
theorem C72_step (hsvd : LawfulSvd o.svd) (hp : p.acceleration = true) (ha : AgReach o ID p a)
    (hs : a.state = .INITIALIZED) (hr : ¬ RestartsNext p a) {doOpt s : Bool}
    (e : a.iterate o doOpt = ok (s, a')) :
    AcceleratedStep p.r p.d a.graph.n a'.alpha a'.gamma a.X a.V a'.X a'.Y a'.V ∧
    (doOpt = false → s = true ∧ a'.X = a'.Y) ∧
    (doOpt = true → s = false → a'.X = a.X) ∧
    (doOpt = true → s = true → ∃ k g res g', SameProblem a.graph g ∧
      g.neighborPoses = a.neighborAuxPoses ∧
      optimize (o.opt k) p.localOpt g a'.Y.X = ok (a'.X.X, res, g')) := by
  obtain ⟨h1, h2, h3, h4⟩ := iterate_sequences hsvd (agReach_inv ha) hs hp hr e
  refine ⟨h1, h2, h3, fun c1 c2 => ?_⟩
  obtain ⟨k, g, res, g', h5, h6, h7⟩ := h4 c1 c2
  have hb := updating_book h5
  exact ⟨k, g, res, g', ⟨hb.n, hb.odometry, hb.privateLcs, hb.sharedLcs, hb.priors, hb.nbrActive⟩, h6, h7⟩

/-- **C72** (idle robots).  While a robot does not optimise and does not restart, its momentum sequence
stays where it is: only its estimate is drawn towards it. -/
theorem C72_idle (hsvd : LawfulSvd o.svd) (hp : p.acceleration = true) (ha : AgReach o ID p a)
    (hs : a.state = .INITIALIZED) (hr : ¬ RestartsNext p a)
    (hV : ∀ i < a.graph.n, OrthoCols (rotM p.r p.d a.V i)) {s : Bool}
    (e : a.iterate o false = ok (s, a')) : SamePoses p.r p.d a.graph.n a'.V a.V := by
  obtain ⟨⟨-, h⟩, h2, -⟩ := C72_step hsvd hp ha hs hr e
  obtain ⟨-, h2⟩ := h2 rfl
  rw [h2] at h
  refine h.stays (fun i hi => ?_) (fun i hi => ?_) hV
  · simp
  · simp

/-- **C72** (first iteration).  In the first iteration after the sequences were synchronised, `Y'` is the
estimate from which the iteration starts: the robot does what it would do without acceleration. -/
theorem C72_first (hsvd : LawfulSvd o.svd) (hp : p.acceleration = true)
    (ha : AgReach o ID p a) (hs : a.state = .INITIALIZED) (hr : ¬ RestartsNext p a)
    (hV : a.V = a.X) (hX : ∀ i < a.graph.n, OrthoCols (rotM p.r p.d a.X i))
    {doOpt s : Bool} (e : a.iterate o doOpt = ok (s, a')) :
    SamePoses p.r p.d a.graph.n a'.Y a.X ∧
    (doOpt = false → SamePoses p.r p.d a.graph.n a'.X a.X ∧ SamePoses p.r p.d a.graph.n a'.V a.X) := by
  obtain ⟨⟨h, h'⟩, h2, -⟩ := C72_step hsvd hp ha hs hr e
  have hY : SamePoses p.r p.d a.graph.n a'.Y a.X := by
    refine h.stays (fun i hi => ?_) (fun i hi => ?_) hX
    · rw [hV, ← add_smul]; simp
    · rw [hV, ← add_smul]; simp
  refine ⟨hY, ?_⟩
  rintro rfl
  rw [(h2 rfl).2] at *
  refine ⟨hY, ?_⟩
  have := C72_idle hsvd hp ha hs hr (by rw [hV]; exact hX) e
  rw [hV] at this
  exact this

/-- An estimate of two lifted poses at the origin. -/
def exFlat : DMat ℝ := ⟨3, 6, fun i j => if j % 3 = i then 1 else 0⟩

theorem exFlat_ortho {P : PArr ℝ} (h : P.X = exFlat) (i : Nat) :
    OrthoCols (rotM 3 2 P i) := by
  have hr : rotM 3 2 P i = Matrix.of fun (x : Fin 3) (y : Fin 2) => if (y : Nat) = x then (1 : ℝ) else 0 := by
    ext x y
    have : (y : Nat) % 3 = y := Nat.mod_eq_of_lt (by omega)
    simp [rotM, h, exFlat, this]
  rw [hr]
  unfold OrthoCols
  ext x y
  fin_cases x <;> fin_cases y <;> simp [Matrix.mul_apply, Fin.sum_univ_three]

/-- Non-vacuity of `C72_step`, `C72_idle` and `C72_first`: restart interval 3, the estimate set by the
caller, one iteration without and one with optimisation. -/
example : ∃ (p : AgentParams) (a a' b : Agent) (s s' : Bool), p.acceleration = true ∧
    LawfulSvd exOracle.svd ∧ AgReach exOracle 0 p a ∧ a.state = .INITIALIZED ∧ ¬ RestartsNext p a ∧
    a.V = a.X ∧ a.graph.n = 2 ∧ (∀ i < a.graph.n, OrthoCols (rotM p.r p.d a.X i)) ∧
    (∀ i < a.graph.n, OrthoCols (rotM p.r p.d a.V i)) ∧
    a.iterate exOracle false = ok (s, a') ∧ a.iterate exOracle true = ok (s', b) := by
  obtain ⟨a0, b, h1, h2, h3, -, -, h4, -⟩ :=
    exDeliver { exAccel with restartInterval := 3 } rfl rfl (by simp [exAccel, exParams, AgentParams.default])
  have hi := agReach_inv h1
  obtain ⟨-, -, hX⟩ := hi.data (by rw [h2]; simp)
  rw [h3.n] at hX
  have hX : ArrOk 3 2 2 a0.X := hX
  obtain ⟨x1, x2, x3, -, -⟩ := hX
  have e0 : a0.step exOracle (.setX exFlat) =
      ok (Agent.resync { a0 with state := .INITIALIZED, X := { a0.X with X := exFlat } }) := by
    unfold Agent.step Agent.setX
    have d1 : a0.relaxationRank = 3 := hi.dims.2.1
    have d2 : a0.dimension = 2 := hi.dims.2.2.1
    have d3 : a0.numPoses = 2 := h3.n
    simp [h2, PArr.setData, x1, x2, x3, d1, d2, d3, exFlat, Agent.resetAcceleration_eq]
    rfl
  have hp0 : a0.params = { exAccel with restartInterval := 3 } := hi.params
  have h1' := agReach_snoc h1 (op := .setX exFlat) trivial e0
  obtain ⟨a, ha⟩ : ∃ a, a = Agent.resync { a0 with state := .INITIALIZED, X := { a0.X with X := exFlat } } := ⟨_, rfl⟩
  rw [← ha] at h1'
  have k1 : a.state = .INITIALIZED := by rw [ha, Agent.resync_frame]
  have k2 : a.graph = a0.graph := by rw [ha, Agent.resync_frame]
  have k3 : a.iterationNumber = 0 := by rw [ha, Agent.resync_frame]; exact h4
  have k4 : a.X = { a0.X with X := exFlat } := by rw [ha, Agent.resync_frame]
  have k5 : a.V = a.X := by
    rw [ha]; unfold Agent.resync
    rw [if_pos ⟨by rw [hp0]; rfl, rfl⟩]
  clear ha e0
  have hr : ¬ RestartsNext { exAccel with restartInterval := 3 } a := by
    unfold RestartsNext
    rw [k3]
    decide
  have run := fun b => C66_iterate (by decide) h1' k1 (by rw [k2]; exact h3.noSelf)
    (by rw [k2]; exact h3.covered)
    (by simp [exAccel, exParams, AgentParams.default, RobustParams.default])
    (by intro; decide) b
  obtain ⟨s, a', e, -⟩ := run false
  obtain ⟨s', b, e', -⟩ := run true
  have hn : a.graph.n = 2 := by rw [k2]; exact h3.n
  have ho : ∀ i < a.graph.n, OrthoCols (rotM 3 2 a.X i) := fun i _ =>
    exFlat_ortho (by rw [k4]) i
  exact ⟨_, a, a', b, s, s', rfl, exists_lawfulSvd.choose_spec, h1', k1, hr, k5, hn, ho,
    by rw [k5]; exact ho, e, e'⟩

end Dpgo.Props
