import Verif.Lemmas.AgentFeasible
import Verif.Props.AgentSequences
import Verif.Props.AgentShared
import Verif.Lemmas.AlignExample
import Verif.Lemmas.AgentReject

/-! # C73: the estimates of an agent stay on the manifold -/

namespace Dpgo.Props

open Res Spec Matrix

variable {o : AgentOracles} {ID : Nat} {p : AgentParams} {a a' : Agent} {t : List Ev}

/-- **C73**  Over any history of calls in which the caller hands over rotations, whatever the other robots
send, the rotation block of every pose of the estimate has orthonormal columns; so have those of the
accelerated sequences, of the previous estimate, of the initial guess and of the local trajectory. -/
theorem C73_feasible (hsvd : LawfulSvd o.svd) (ho : FeasibleSolver o p)
    (hY : ID = 0 → OrthoCols (o.stiefel p.d p.r)) (h : Hist o ID p t a)
    (hc : ∀ e ∈ t, FeasibleCall p e.op) :
    (a.state = .INITIALIZED → Orthonormal p.r p.d a.graph.n a.X ∧
      (p.acceleration = true → Orthonormal p.r p.d a.graph.n a.Y ∧ Orthonormal p.r p.d a.graph.n a.V ∧
        Orthonormal p.r p.d a.graph.n a.XPrev)) ∧
    (∀ X, a.XInit = some X → Orthonormal p.r p.d a.graph.n X) ∧
    (∀ T, a.TLocalInit = some T → Orthonormal p.d p.d a.graph.n T) ∧
    (∀ Y, a.YLift = some Y → OrthoCols (Y.toMat p.r p.d)) := by
  have k := FeasInv.hist hsvd ho hY h hc
  exact ⟨fun c => ⟨k.est c, k.seq c⟩, k.guess, k.traj, k.lift⟩

/-- **C73** (published poses)  Every pose that the robot makes public has a rotation block with orthonormal
columns, for all neighbours together and for a single one, for the estimate and for the accelerated
sequence. -/
theorem C73_published (hsvd : LawfulSvd o.svd) (ho : FeasibleSolver o p)
    (hY : ID = 0 → OrthoCols (o.stiefel p.d p.r)) (h : Hist o ID p t a)
    (hc : ∀ e ∈ t, FeasibleCall p e.op) {m : PoseDict ℝ}
    (e : a.getSharedPoseDict = ok (some m) ∨ (∃ j, j ≠ ID ∧ a.getSharedPoseDictWithNeighbor j = ok (some m)) ∨
      p.acceleration = true ∧ (a.getAuxSharedPoseDict = ok (some m) ∨
        ∃ j, j ≠ ID ∧ a.getAuxSharedPoseDictWithNeighbor j = ok (some m))) :
    ∀ k P, (k, P) ∈ m → OrthoCols (rotM p.r p.d P 0) := by
  have hr := h.reach
  have hi := agReach_inv hr
  have hst : a.state = .INITIALIZED := by
    by_contra c
    obtain ⟨-, c1, c2, c3, c4⟩ := C36_not_initialized hr c
    rcases e with e | ⟨j, -, e⟩ | ⟨hp, e | ⟨j, -, e⟩⟩
    · rw [c1] at e; cases e
    · rw [c2 j] at e; cases e
    · rw [(c4 hp).2] at e; cases e
    · rw [c3 j] at e; cases e
  obtain ⟨⟨hX, hacc⟩, -⟩ := (C73_feasible hsvd ho hY h hc).imp_left (· hst)
  have key : ∀ {ids : PoseID → Prop} {B : PArr ℝ}, Orthonormal p.r p.d a.graph.n B →
      DictOf p.r p.d ids B m → (∀ k, ids k → k.frame < a.graph.n) →
      ∀ k P, (k, P) ∈ m → OrthoCols (rotM p.r p.d P 0) := by
    intro ids B hB hd hn k P hm
    rw [(hd.2.2 k P hm).2.1]
    exact hB _ (hn k ((hd.2.1 k).1 ⟨P, hm⟩))
  have pub : ∀ k, IsPublic ID a.graph k → k.frame < a.graph.n := by
    rintro k ⟨m, hm, rfl⟩
    exact (own_lt hi.reach hm).2.1
  have need : ∀ j k, NeededBy ID j a.graph k → k.frame < a.graph.n := by
    rintro j k ⟨m, hm, -, rfl⟩
    exact (own_lt hi.reach hm).2.1
  rcases e with e | ⟨j, hj, e⟩ | ⟨hp, e | ⟨j, hj, e⟩⟩
  · obtain ⟨⟨m', e', hd⟩, -⟩ := C37_dict hr hst
    rw [e] at e'; cases e'
    exact key hX hd pub
  · obtain ⟨⟨m', e', hd⟩, -⟩ := C37_neighbor hr hst hj
    rw [e] at e'; cases e'
    exact key hX hd (need j)
  · obtain ⟨m', e', hd⟩ := (C37_dict hr hst).2 hp
    rw [e] at e'; cases e'
    exact key (hacc hp).1 hd pub
  · obtain ⟨m', e', hd⟩ := (C37_neighbor hr hst hj).2 hp
    rw [e] at e'; cases e'
    exact key (hacc hp).1 hd (need j)

/-- **C73** (accelerated iterations)  The conditions of `C72_idle` and `C72_first` on the sequences hold in
every such history. -/
theorem C73_idle (hsvd : LawfulSvd o.svd) (ho : FeasibleSolver o p)
    (hY : ID = 0 → OrthoCols (o.stiefel p.d p.r)) (h : Hist o ID p t a)
    (hc : ∀ e ∈ t, FeasibleCall p e.op) (hp : p.acceleration = true) (hs : a.state = .INITIALIZED)
    (hr : ¬ RestartsNext p a) {s : Bool} (e : a.iterate o false = ok (s, a')) :
    SamePoses p.r p.d a.graph.n a'.V a.V :=
  C72_idle hsvd hp h.reach hs hr (((C73_feasible hsvd ho hY h hc).1 hs).2 hp).2.1 e

/-- A robot with two poses that is initialised and has iterated once. -/
theorem exFeasible : ∃ (t : List Ev) (a : Agent), Hist exOracle 0 exAccel t a ∧ a.state = .INITIALIZED ∧
    a.graph.n = 2 ∧ (∀ e ∈ t, FeasibleCall exAccel e.op) ∧ t.length = 4 ∧
    (∃ e ∈ t, e.op = .iterate true) ∧ IsPublic 0 a.graph ⟨0, 1⟩ := by
  obtain ⟨g0, g1, g2, e0, e1, e2, hG, -⟩ := exG
  have hnew : ∃ a0, Agent.new exOracle 0 exAccel = ok a0 ∧ a0.graph = g0 ∧ a0.state = .WAIT_FOR_DATA ∧
      a0.YLift = some (DMat.ofMat (exOracle.stiefel 2 3)) := by
    obtain ⟨X, hX, -, -⟩ := PArr.make_ok (K := ℝ) (r := 3) (d := 2) (n := 1) (by omega)
    unfold Agent.new
    rw [show exAccel.r = 3 from rfl, show exAccel.d = 2 from rfl, hX, e0]
    simp only [ok_bind, if_pos, Agent.setLiftingMatrix, DMat.ofMat, beq_self_eq_true, check_true]
    exact ⟨_, rfl, rfl, rfl, rfl⟩
  obtain ⟨a0, n0, n1, n2, n3⟩ := hnew
  have s1 : a0.step exOracle (.addMeasurement (exI 0 0 0 1)) = ok { a0 with graph := g1 } := by
    simp only [Agent.step, Agent.addMeasurement, n2, ne_eq, not_true_eq_false, if_false, n1, e1, ok_bind]
  have s2 : Agent.step exOracle { a0 with graph := g1 } (.addMeasurement (exI 0 1 1 0)) =
      ok { a0 with graph := g2 } := by
    simp only [Agent.step, Agent.addMeasurement, n2, ne_eq, not_true_eq_false, if_false, e2, ok_bind]
  have H := ((Hist.new n0).call (op := .addMeasurement (exI 0 0 0 1)) (exAgOps_wf _ (by simp [exAgOps]))
    s1).call (op := .addMeasurement (exI 0 1 1 0)) (exAgOps_wf _ (by simp [exAgOps])) s2
  have hinv := agReach_inv H.reach
  obtain ⟨b, S, e, -, -, -, -, hst⟩ := Agent.init_chosen (o := exOracle) (TI := some exTwo) hinv n2
    (Agent.choose_supplied (a := { a0 with graph := g2, running := false }) hG.d.symm hG.n.symm)
    (by rw [hG.n]; exact exTwo_ok) (by rw [hG.n]; omega)
    (by rw [show exAccel.d = 2 from rfl, exTwo_rot]; simp) (by simp [exAccel, exParams, AgentParams.default])
    (fun _ => ⟨_, n3⟩)
  rw [if_pos (Or.inl rfl)] at hst
  have H2 := H.call (op := .init (some exTwo)) (fun P hP => by cases hP; exact exTwo_ok) e
  have hb : ExGraph b.graph := hG.same
    ((Agent.step_quiet_of (op := .init (some exTwo)) hinv e fun _ => ⟨by simp, by simp⟩).topology fun _ h => h)
  obtain ⟨s, c, ec, -⟩ := C66_iterate (by decide) H2.reach hst hb.noSelf hb.covered
    (by simp [exAccel, exParams, AgentParams.default, RobustParams.default]) (by intro; decide) true
  have sc : b.step exOracle (.iterate true) = ok c := by simp only [Agent.step, ec, ok_bind]
  have H3 := H2.call (op := .iterate true) trivial sc
  have hcg : ExGraph c.graph := hb.same
    ((Agent.step_quiet_of (op := .iterate true) (agReach_inv H2.reach) sc fun _ =>
      ⟨by simp, by simp⟩).topology fun _ h => h)
  have hcs : c.state = .INITIALIZED := by
    rw [Agent.step_frame (agReach_inv H2.reach) sc]; exact hst
  refine ⟨_, c, H3, hcs, hcg.n, ?_, rfl, ⟨_, List.mem_append_right _ (List.mem_singleton.2 rfl), rfl⟩, ?_⟩
  · have hI : ∀ i j k l, OrthoCols ((exI i j k l).R.toMat 2 2) := by
      intro i j k l
      unfold OrthoCols
      ext x y
      fin_cases x <;> fin_cases y <;> simp [exI, DMat.toMat, DMat.one, Matrix.mul_apply]
    intro x hx
    simp only [List.nil_append, List.cons_append, List.mem_cons, List.not_mem_nil, or_false] at hx
    rcases hx with rfl | rfl | rfl | rfl
    · exact hI ..
    · exact hI ..
    · intro P hP
      cases hP
      intro i _
      have : rotM 2 2 exTwo i = 1 := by
        ext x y
        fin_cases x <;> fin_cases y <;> simp [rotM, exTwo]
      show (rotM 2 2 exTwo i)ᵀ * rotM 2 2 exTwo i = 1
      rw [this]; simp
    · trivial
  · have : (⟨0, 1⟩ : PoseID) ∈ c.graph.localShared := by rw [hcg.loc]; simp
    exact ((C05_public_ids 0 3 2 c.graph (agReach_inv H3.reach).reach).1 _).1 this

/-- Non-vacuity of C73: an accelerated robot, initialised and after one optimisation step; it has public
poses. -/
example : ∃ (t : List Ev) (a : Agent), LawfulSvd exOracle.svd ∧ FeasibleSolver exOracle exAccel ∧
    OrthoCols (exOracle.stiefel exAccel.d exAccel.r) ∧ Hist exOracle 0 exAccel t a ∧
    (∀ e ∈ t, FeasibleCall exAccel e.op) ∧ a.state = .INITIALIZED ∧ exAccel.acceleration = true ∧
    a.graph.n = 2 ∧ (∃ e ∈ t, e.op = .iterate true) ∧ IsPublic 0 a.graph ⟨0, 1⟩ := by
  obtain ⟨t, a, h1, h2, h3, h4, -, h5, h6⟩ := exFeasible
  exact ⟨t, a, exists_lawfulSvd.choose_spec, ⟨fun _ => exOracle_manifold, fun c => (by cases c)⟩, exStiefel,
    h1, h4, h2, rfl, h3, h5, h6⟩

end Dpgo.Props
