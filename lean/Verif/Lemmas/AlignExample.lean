import Verif.Lemmas.AgentTeamRun
import Verif.Lemmas.AgentMember

/-!
# A team of two in the alignment phase

Two poses each, joined by odometry, and two loop closures between the robots, one in each direction.  The true
poses are arbitrary.
-/

namespace Dpgo.Props

open Res Spec PoseGraph Matrix

noncomputable section

theorem exStiefel : OrthoCols (exOracle.stiefel 2 3) := by
  unfold OrthoCols
  ext i j
  fin_cases i <;> fin_cases j <;> simp [exOracle, Matrix.mul_apply, Fin.sum_univ_three]

/-- The exact measurement between two poses. -/
def exTrue (w : Truth 2) (r1 r2 p1 p2 : Nat) : Meas ℝ :=
  ⟨r1, r2, p1, p2, DMat.ofMat ((w.R r1 p1)ᵀ * w.R r2 p2),
    ⟨2, 1, fun i _ => ((w.R r1 p1)ᵀ *ᵥ (w.t r2 p2 - w.t r1 p1)) (Fin.ofNat 2 i)⟩, 1, 1, false, 1⟩

theorem exTrue_exact (w : Truth 2) (r1 r2 p1 p2 : Nat) : w.Exact (exTrue w r1 r2 p1 p2) := by
  refine ⟨toMat_ofMat _, ?_⟩
  funext i
  simp only [colV, exTrue]
  congr 1
  fin_cases i <;> rfl

/-- The true trajectory of robot `r`. -/
def exTraj (w : Truth 2) (r : Nat) : PArr ℝ :=
  ⟨2, 2, 2, ⟨2, 6, fun i j => if j % 3 = 2 then w.t r (j / 3) (Fin.ofNat 2 i)
    else w.R r (j / 3) (Fin.ofNat 2 i) (Fin.ofNat 2 (j % 3))⟩⟩

theorem exTraj_ok (w : Truth 2) (r : Nat) : ArrOk 2 2 2 (exTraj w r) := ⟨rfl, rfl, rfl, rfl, rfl⟩

theorem exTraj_local (w : Truth 2) (r : Nat) : w.Local r 2 1 0 (exTraj w r) := by
  refine ⟨⟨by simp, by simp⟩, fun i hi => ?_, fun i hi => ?_⟩
  · rw [Matrix.one_mul]
    ext a b
    have : i = 0 ∨ i = 1 := by omega
    rcases this with rfl | rfl <;> fin_cases a <;> fin_cases b <;> simp [rotM, exTraj]
  · rw [one_mulVec, add_zero]
    funext a
    have : i = 0 ∨ i = 1 := by omega
    rcases this with rfl | rfl <;> fin_cases a <;> simp [traV, exTraj]

/-- A lifted pose of rank 3 with given parts. -/
theorem exLifted (R : Matrix (Fin 3) (Fin 2) ℝ) (t : Fin 3 → ℝ) :
    ∃ N : PArr ℝ, ArrOk 3 2 1 N ∧ rotM 3 2 N 0 = R ∧ traV 3 2 N 0 = t := by
  refine ⟨⟨3, 2, 1, ⟨3, 3, fun i j => if j = 2 then t (Fin.ofNat 3 i) else R (Fin.ofNat 3 i) (Fin.ofNat 2 j)⟩⟩,
    ⟨rfl, rfl, rfl, rfl, rfl⟩, ?_, ?_⟩
  · ext a b
    fin_cases a <;> fin_cases b <;> simp [rotM]
  · funext a
    fin_cases a
    · simp [traV]
    · simp only [traV]; rfl
    · simp only [traV]; rfl

/-- The graph of robot `id` after its measurements. -/
structure ExPair (w : Truth 2) (id : Nat) (g : PoseGraph ℝ) : Prop where
  n : g.n = 2
  d : g.d = 2
  shared : g.sharedLcs.map strip = [strip (exTrue w 0 1 1 0), strip (exTrue w 1 0 1 0)]

theorem exPairG (w : Truth 2) {id : Nat} (h : id = 0 ∨ id = 1) : ∃ g0 g1 g2 g3 : PoseGraph ℝ,
    PoseGraph.new id 3 2 = ok g0 ∧ g0.addMeasurement (exTrue w id id 0 1) = ok g1 ∧
    g1.addMeasurement (exTrue w 0 1 1 0) = ok g2 ∧ g2.addMeasurement (exTrue w 1 0 1 0) = ok g3 ∧
    ExPair w id g3 := by
  rcases h with rfl | rfl
  · exact ⟨_, _, _, _, rfl, rfl, rfl, rfl, ⟨rfl, rfl, rfl⟩⟩
  · exact ⟨_, _, _, _, rfl, rfl, rfl, rfl, ⟨rfl, rfl, rfl⟩⟩

theorem exNew (o : AgentOracles) (id : Nat) : ∃ a, Agent.new o id exParams = ok a := by
  obtain ⟨X, hX, -, -⟩ := PArr.make_ok (K := ℝ) (r := 3) (d := 2) (n := 1) (by omega)
  unfold Agent.new
  rw [show PArr.make (K := ℝ) exParams.r exParams.d 1 = ok X from hX,
    show PoseGraph.new (K := ℝ) id exParams.r exParams.d = ok _ from rfl]
  by_cases c : id = 0
  · simp only [ok_bind, if_pos c]
    exact ⟨_, rfl⟩
  · simp only [ok_bind, if_neg c]
    exact ⟨_, rfl⟩

theorem SetupRun_calls {o : AgentOracles} {p : AgentParams} {w : Truth p.d} {resets : Prop} {id : Nat} :
    ∀ {ops : List AgOp} {A : Nat → Agent} {M : List Message} {a' : Agent}, SetupRun o p w resets A M →
      (∀ op ∈ ops, ∀ a, SetupCall o p w resets id a op) → (A id).run o ops = ok a' →
      SetupRun o p w resets (Function.update A id a') M
  | [], A, M, a', h, _, e => by
    cases e
    rw [Function.update_eq_self]; exact h
  | op :: ops, A, M, a', h, hs, e => by
    unfold Agent.run at e
    rw [foldl_cons, bind_eq_ok'] at e
    obtain ⟨b, hb, e⟩ := e
    have h1 := SetupRun.call h (hs op (by simp) _) hb
    have := SetupRun_calls (ops := ops) (a' := a') h1 (fun x hx => hs x (by simp [hx]))
      (by rw [Function.update_self]; exact e)
    rwa [Function.update_idem] at this

/-- One robot collects its measurements and initialises from its true trajectory. -/
theorem exOneReady (w : Truth 2) {id : Nat} (h : id = 0 ∨ id = 1) {A : Nat → Agent} {M : List Message}
    (hr : SetupRun exOracle exParams w False A M) (hn : Agent.new exOracle id exParams = ok (A id)) :
    ∃ a', SetupRun exOracle exParams w False (Function.update A id a') M ∧ ExPair w id a'.graph ∧
      a'.state = (if id = 0 then .INITIALIZED else .WAIT_FOR_INITIALIZATION) ∧
      a'.YLift = (A id).YLift := by
  obtain ⟨g0, g1, g2, g3, e0, e1, e2, e3, hG⟩ := exPairG w h
  obtain ⟨X, g, YL, -, hg, -, h0, h1, ha⟩ := Agent.new_form hn
  have hg0 : (A id).graph = g0 := by
    rw [ha]
    rw [show PoseGraph.new (K := ℝ) id exParams.r exParams.d = ok g0 from e0] at hg
    exact (Res.ok.inj hg).symm
  have hst : (A id).state = .WAIT_FOR_DATA := by rw [ha]
  have hY : id = 0 → ∃ Y, (A id).YLift = some Y := fun c => by rw [ha]; exact ⟨_, h0 c⟩
  have hrun : (A id).run exOracle [.addMeasurement (exTrue w id id 0 1), .addMeasurement (exTrue w 0 1 1 0),
      .addMeasurement (exTrue w 1 0 1 0)] = ok { A id with graph := g3 } := by
    unfold Agent.run
    simp only [foldl_cons, Agent.step, Agent.addMeasurement, hst, ne_eq, not_true_eq_false, if_false,
      hg0, e1, ok_bind, ok_bind', e2, e3, foldl_nil]
  have hid : id < 2 ^ 32 - 1 := by omega
  have hwf : ∀ r1 r2 p1 p2, r1 < 2 ^ 32 - 1 → r2 < 2 ^ 32 - 1 → p1 < 2 ^ 32 - 1 → p2 < 2 ^ 32 - 1 →
      MeasWF (exTrue w r1 r2 p1 p2) := fun _ _ _ _ h1 h2 h3 h4 => ⟨h1, h2, h3, h4⟩
  have r1 := SetupRun_calls hr (fun op hop a => by
    simp only [List.mem_cons, List.not_mem_nil, or_false] at hop
    rcases hop with rfl | rfl | rfl <;> exact ⟨hwf _ _ _ _ (by omega) (by omega) (by omega) (by omega), exTrue_exact w _ _ _ _⟩) hrun
  set b : Agent := { A id with graph := g3 } with hb
  have hreach : AgReach exOracle id exParams b := by
    refine ⟨A id, _, hn, ?_, hrun⟩
    intro op hop
    simp only [List.mem_cons, List.not_mem_nil, or_false] at hop
    rcases hop with rfl | rfl | rfl <;> exact hwf _ _ _ _ (by omega) (by omega) (by omega) (by omega)
  have hi := agReach_inv hreach
  have hdet : (rotM 2 2 (exTraj w id) 0).det ≠ 0 := local_det (by decide) (exTraj_local w id)
  obtain ⟨a', S, e, -, -, -, -, hs'⟩ := Agent.init_chosen (o := exOracle) (TI := some (exTraj w id)) hi hst
    (Agent.choose_supplied (a := { b with running := false }) hG.d.symm hG.n.symm)
    (by rw [show b.graph.n = 2 from hG.n]; exact exTraj_ok w id) (by rw [show b.graph.n = 2 from hG.n]; omega)
    hdet (by simp [exParams, AgentParams.default])
    (fun c => hY (by simpa [exParams, AgentParams.default] using c))
  have hf := Agent.init_frame hi.reach e
  have top : SameTopology g3 a'.graph := (hf.2.mono Agent.weighting_quiet).topology fun _ h => h
  refine ⟨a', ?_, ⟨top.n.trans hG.n, top.d.trans hG.d, top.sharedLcs.trans hG.shared⟩, ?_, ?_⟩
  · have := SetupRun.call r1 (id := id) (op := .init (some (exTraj w id))) (a' := a') (by
      rw [Function.update_self]
      exact ⟨fun P hP => by cases hP; exact exTraj_ok w id,
        Or.inl ⟨_, rfl, rfl, hG.n.symm, 1, 0, exTraj_local w id⟩⟩)
      (by rw [Function.update_self]; exact e)
    rwa [Function.update_idem] at this
  · rw [hs']; simp [exParams, AgentParams.default]
  · rw [hf.1]

/-- Robot 0 initialised, robot 1 waiting with the lifting matrix and the status of robot 0, and a message of
robot 0 on its way. -/
theorem exAlignRun (w : Truth 2) : ∃ (A : Nat → Agent) (M : List Message) (m : Message),
    SetupRun exOracle exParams w False A M ∧ m ∈ M ∧ m.src = 0 ∧ (A 0).state = .INITIALIZED ∧
    (A 1).state = .WAIT_FOR_INITIALIZATION ∧ (∃ Y, (A 1).YLift = some Y) ∧ ExPair w 0 (A 0).graph ∧
    ExPair w 1 (A 1).graph ∧
    (∃ s, OMap.find? ltNat 0 (A 1).teamStatus = some s ∧ s.state = .INITIALIZED) ∧
    numUsable 1 0 (A 1).graph m.dict = 2 := by
  choose A hA using exNew exOracle
  obtain ⟨a, r1, g1, s1, y1⟩ := exOneReady w (Or.inl rfl) (SetupRun.new (w := w) (resets := False) hA) (hA 0)
  obtain ⟨b, r2, g2, s2, y2⟩ := exOneReady w (Or.inr rfl) r1 (by
    rw [Function.update_of_ne (by decide)]; exact hA 1)
  obtain ⟨X, g, YL, -, hg, -, h0, -, ha⟩ := Agent.new_form (hA 0)
  set B := Function.update (Function.update A 0 a) 1 b with hB
  have B0 : B 0 = a := by rw [hB, Function.update_of_ne (by decide), Function.update_self]
  have B1 : B 1 = b := by rw [hB, Function.update_self]
  have hYa : a.YLift = some (DMat.ofMat (exOracle.stiefel 2 3)) := by rw [y1, ha]; exact h0 rfl
  have hsvd : LawfulSvd exOracle.svd := exists_lawfulSvd.choose_spec
  have hst : OrthoCols (exOracle.stiefel 2 3) := exStiefel
  have inv := setup_inv hsvd rfl hst (seen_zero w) (setupRun_seen r2)
  have i0 := agReach_inv (inv.robot 0).reach
  have i1 := agReach_inv (inv.robot 1).reach
  rw [B0] at i0
  rw [B1] at i1
  -- the lifting matrix
  obtain ⟨c, hc, c1, c2, c3, c4⟩ : ∃ c, b.setLiftingMatrix (DMat.ofMat (exOracle.stiefel 2 3)) = ok c ∧
      c.state = b.state ∧ c.graph = b.graph ∧ (∃ Y, c.YLift = some Y) ∧ c.teamStatus = b.teamStatus := by
    unfold Agent.setLiftingMatrix
    rw [i1.r, i1.d]
    exact ⟨_, rfl, rfl, rfl, ⟨_, rfl⟩, rfl⟩
  have r3 := SetupRun.lift r2 (j := 0) (id := 1) (by
    unfold Agent.getLiftingMatrix
    rw [B0]
    exact hYa) (by rw [B1]; exact hc)
  -- the status of robot 0
  set s : Status := ⟨0, .INITIALIZED, 0, 0, false, 0⟩
  have r4 := SetupRun.call r3 (id := 1) (op := .setNeighborStatus s) (a' := c.setNeighborStatus s) trivial (by
    rw [Function.update_self]; rfl)
  rw [Function.update_idem] at r4
  -- the message
  have s1' : a.state = .INITIALIZED := by rw [s1]; rfl
  obtain ⟨dict, e, hd⟩ := sharedDict_ok i0 s1' (i0.data (by rw [s1']; decide)).2.2
  have hC0 : Function.update B 1 (c.setNeighborStatus s) 0 = a := by
    rw [Function.update_of_ne (by decide)]; exact B0
  have r5 := SetupRun.send r4 (id := 0) (dict := dict) (Or.inl (by rw [hC0]; exact e))
  refine ⟨_, _, ⟨0, dict⟩, r5, by simp, rfl, ?_, ?_, ?_, ?_, ?_, ?_, ?_⟩
  · rw [hC0]; exact s1'
  · rw [Function.update_self]
    exact c1.trans s2
  · rw [Function.update_self]; exact c3
  · rw [hC0]; exact g1
  · rw [Function.update_self]
    show ExPair w 1 c.graph
    rw [c2]; exact g2
  · rw [Function.update_self]
    refine ⟨s, ?_, rfl⟩
    show OMap.find? ltNat 0 (OMap.insert ltNat 0 s c.teamStatus) = some s
    rw [OMap.find?_insert strictTotal_ltNat, if_pos rfl]
  · rw [Function.update_self]
    show numUsable 1 0 c.graph dict = 2
    rw [c2]
    have hk : ∀ m ∈ [exTrue w 0 1 1 0, exTrue w 1 0 1 0],
        (OMap.find? ltPoseID (ownPose 0 m) dict).isSome = true := by
      intro m hm
      have hx : strip m ∈ a.graph.sharedLcs.map strip := by
        rw [g1.shared]
        simp only [List.mem_cons, List.not_mem_nil, or_false] at hm ⊢
        rcases hm with rfl | rfl
        · exact Or.inl rfl
        · exact Or.inr rfl
      obtain ⟨x, hx, hxe⟩ := List.mem_map.1 hx
      have : ownPose 0 x = ownPose 0 m := by
        show ownPose 0 (strip x) = ownPose 0 (strip m)
        rw [hxe]
      obtain ⟨P, hP⟩ := (hd.dictOf.2.1 (ownPose 0 m)).2 ⟨x, hx, this⟩
      rw [OMap.find?_of_mem strictTotal_ltPoseID hd.dictOf.1 hP]
      rfl
    have h1 := hk (exTrue w 0 1 1 0) (by simp)
    have h2 := hk (exTrue w 1 0 1 0) (by simp)
    unfold numUsable
    have : ∀ l : List (Meas ℝ), (l.countP fun m => (foreignPose 1 m).robot == 0 &&
        (OMap.find? ltPoseID (foreignPose 1 m) dict).isSome) = (l.map strip).countP fun m =>
        (foreignPose 1 m).robot == 0 && (OMap.find? ltPoseID (foreignPose 1 m) dict).isSome := by
      intro l
      rw [List.countP_map]; rfl
    rw [this, g2.shared]
    have f1 : foreignPose 1 (strip (exTrue w 0 1 1 0)) = ownPose 0 (exTrue w 0 1 1 0) := rfl
    have f2 : foreignPose 1 (strip (exTrue w 1 0 1 0)) = ownPose 0 (exTrue w 1 0 1 0) := rfl
    rw [List.countP_cons_of_pos (by rw [f1, h1]; rfl), List.countP_cons_of_pos (by rw [f2, h2]; rfl)]
    rfl

end

end Dpgo.Props
