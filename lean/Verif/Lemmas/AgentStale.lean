import Verif.Lemmas.AgentFresh
import Verif.Lemmas.AgentMember
import Verif.Lemmas.AgentWeights

/-! # A stale matrix after a weight has been set -/

namespace Dpgo

open Res Spec PoseGraph

variable {o : AgentOracles} {ID : Nat} {p : AgentParams} {C : DMat ℝ → Bool} {a a' : Agent}

theorem updating_Q {g g' : PoseGraph ℝ} {Q : DMat ℝ} (h : Steps Agent.updating g g')
    (hQ : g.Q = some Q) : g'.Q = some Q := by
  refine h.induct (P := fun g => g.Q = some Q) ?_ hQ
  intro x op y hx hS e
  have k : ∀ {Q' : DMat ℝ} {y : PoseGraph ℝ}, x.quadraticMatrix = ok (Q', y) → y.Q = some Q := by
    intro Q' y e
    rcases quadraticMatrix_ok e with ⟨-, rfl⟩ | ⟨c, -⟩
    · exact hx
    · rw [hx] at c; cases c
  cases op with
  | setNeighborPoses s => cases e; exact hx
  | constructDataMatrices =>
    simp only [PoseGraph.step, bind_eq_ok] at e
    obtain ⟨⟨b, y'⟩, e1, e2⟩ := e
    cases e2
    obtain ⟨b1, g1, h1, h2⟩ := constructDataMatrices_ok e1
    have h3 : g1.Q = some Q := by
      rcases ensureQ_ok h1 with ⟨Q, -, rfl, -⟩ | ⟨Q', c, -⟩ | ⟨c, -⟩
      · exact hx
      · rw [hx] at c; cases c
      · rw [hx] at c; cases c
    rcases h2 with ⟨-, h2⟩ | ⟨-, -, rfl⟩
    · rcases ensureG_ok h2 with ⟨G, -, rfl, -⟩ | ⟨G, -, -, rfl, -⟩ | ⟨-, -, rfl, -⟩ <;> exact h3
    · exact h3
  | quadraticMatrix =>
    simp only [PoseGraph.step, bind_eq_ok] at e
    obtain ⟨⟨b, y'⟩, e1, e2⟩ := e
    cases e2
    exact k e1
  | linearMatrix =>
    simp only [PoseGraph.step, bind_eq_ok] at e
    obtain ⟨⟨b, y'⟩, e1, e2⟩ := e
    cases e2
    rw [linearMatrix_Q e1]; exact hx
  | hasPreconditioner f =>
    simp only [PoseGraph.step, bind_eq_ok] at e
    obtain ⟨⟨b, y'⟩, e1, e2⟩ := e
    cases e2
    rcases hasPreconditioner_ok e1 with ⟨P, -, rfl, -⟩ | ⟨Q1, g1, -, h1, -, rfl⟩
    · exact hx
    · have h3 := k h1
      split
      · exact h3
      · exact h3
  | _ => exact absurd hS (by simp [Agent.updating])

/-- After a successful step `Q` is cached. -/
theorem updateX_Q {accel : Bool} (e : a.updateX o true accel = ok (true, a')) :
    ∃ Q, a'.graph.Q = some Q := by
  rcases Agent.updateX_form e with ⟨c, -⟩ | ⟨-, -, -, g1, ec, -, ⟨c, -⟩ | ⟨-, Z, res, g2, -, hs, -, -, rfl⟩⟩
  · cases c
  · cases c
  · obtain ⟨b1, g0, h1, h2⟩ := constructDataMatrices_ok ec
    have h3 : ∃ Q, g0.Q = some Q := by
      rcases ensureQ_ok h1 with ⟨Q, c, rfl, -⟩ | ⟨Q', c, -, rfl, -⟩ | ⟨-, -, -, c⟩
      · exact ⟨Q, c⟩
      · exact ⟨Q', rfl⟩
      · rcases h2 with ⟨k, -⟩ | ⟨-, k, -⟩
        · rw [c] at k; cases k
        · cases k
    obtain ⟨Q, h3⟩ := h3
    refine ⟨Q, updating_Q hs ?_⟩
    rcases h2 with ⟨-, h2⟩ | ⟨-, c, -⟩
    · rcases ensureG_ok h2 with ⟨G, -, rfl, -⟩ | ⟨G, -, -, rfl, -⟩ | ⟨-, -, rfl, -⟩ <;> exact h3
    · cases c

/-- The data matrices of a graph that is ready. -/
theorem step_matrices (hd : 0 < p.d) (h : GReady ID p a.graph) {accel : Bool}
    (hs : StoreOk p.r p.d a.graph (if accel then a.neighborAuxPoses else a.neighborPoses))
    (hm : ¬ posesMissing (a.graph.setNeighborPoses
      (if accel then a.neighborAuxPoses else a.neighborPoses))) :
    ∃ Q G, StepMatrices a accel Q G ∧ (∀ Q', a.graph.Q = some Q' → Q = Q') ∧
      (a.graph.Q = none → (a.graph.setNeighborPoses
        (if accel then a.neighborAuxPoses else a.neighborPoses)).constructQ = ok (some Q)) := by
  obtain ⟨b, g1, e, hb, hq⟩ := data_total hd h hs
  have hb' := hb.2 hm
  subst hb'
  obtain ⟨Q, G, k1, k2, -⟩ := hq rfl
  refine ⟨Q, G, ⟨g1, e, k1, k2⟩, fun Q' hQ' => ?_, fun hn => ?_⟩
  · have hs : Steps Agent.updating (a.graph.setNeighborPoses
        (if accel then a.neighborAuxPoses else a.neighborPoses)) g1 :=
      Steps.one (op := .constructDataMatrices) trivial (by simp only [PoseGraph.step, e, ok_bind])
    have : g1.Q = some Q' := updating_Q hs hQ'
    rw [k1] at this
    exact Option.some.inj this
  · obtain ⟨b1, g0, h1, h2⟩ := constructDataMatrices_ok e
    rcases ensureQ_ok h1 with ⟨Q', c, -⟩ | ⟨Q', -, c, rfl, rfl⟩ | ⟨-, -, -, c⟩
    · have : a.graph.Q = some Q' := c
      rw [hn] at this; cases this
    · rw [c]
      rcases h2 with ⟨-, h2⟩ | ⟨c, -⟩
      · rcases ensureG_ok h2 with ⟨G, -, rfl, -⟩ | ⟨G, -, -, rfl, -⟩ | ⟨-, -, rfl, -⟩ <;>
          exact congrArg ok k1
      · cases c
    · rcases h2 with ⟨k, -⟩ | ⟨-, k, -⟩
      · rw [c] at k; cases k
      · cases k

theorem bare_inv (h : AgInv ID p a) : AgInv ID p (bare a) :=
  { h with
    reach := Reachable.snoc (op := .clearDataMatrices) h.reach trivial rfl
    nbr := ⟨h.nbr.sorted, h.nbr.mem⟩
    aux := ⟨h.aux.sorted, h.aux.mem⟩ }

theorem bare_cache (h : AgCache p a) : AgCache p (bare a) :=
  ⟨fun _ => ⟨rfl, rfl, rfl⟩, fun Q c => (by cases c), h.priors, h.unused⟩

/-- Two graphs that differ in the weight of their only shared loop closure have different matrices. -/
theorem weight_matters {g g' : PoseGraph ℝ} {l l' : List (Meas ℝ)} (h : Inv g l) (h' : Inv g' l')
    {Q Q' : DMat ℝ} (e : g.constructQ = ok (some Q)) (e' : g'.constructQ = ok (some Q'))
    (hd : g'.d = g.d) (hloc : g'.localMeasurements = g.localMeasurements)
    (hpr : g'.priors = g.priors) {m m' : Meas ℝ} (hs : g.sharedLcs = [m]) (hs' : g'.sharedLcs = [m'])
    {x : Nat → ℝ} (hx : g.shQ m x ≠ g'.shQ m' x) : Q ≠ Q' := by
  intro c
  subst c
  obtain ⟨-, -, k⟩ := h.constructQ_ok e
  obtain ⟨-, -, k'⟩ := h'.constructQ_ok e'
  have := (k x).symm.trans (k' x)
  rw [hs, hs', hd, hloc, hpr] at this
  simp only [List.map_cons, List.map_nil, List.sum_cons, List.sum_nil, add_zero] at this
  exact hx (add_left_cancel (add_right_cancel this))

namespace Props

/-- The graph of robot 2, weights of the shared loop closure aside. -/
theorem exSecond {g : PoseGraph ℝ} (g1 : g.odometry = [exI 2 2 0 1]) (g2 : g.privateLcs = [])
    (g3 : g.n = 2) : ¬ hasSelfLoop g ∧ posesCovered g := by
  constructor
  · rintro ⟨m, hm, e⟩
    unfold PoseGraph.localMeasurements at hm
    rw [g1, g2, List.append_nil, List.mem_singleton] at hm
    rw [hm] at e; cases e
  · intro i hi
    rw [g3] at hi
    refine ⟨exI 2 2 0 1, ?_, Or.inr (by show i ≤ 1; omega)⟩
    unfold PoseGraph.localMeasurements
    rw [g1, g2]; simp

theorem exSecond_poses (b : Agent) (b1 : b.graph.id = 2)
    (b2 : b.neighborPoses = [(exKey 1, exPoseOf 1)])
    (b3 : ∀ m ∈ b.graph.sharedLcs, strip m = strip (exI 1 2 1 0)) :
    ¬ posesMissing (b.graph.setNeighborPoses b.neighborPoses) := by
  rintro ⟨m, hm, -, k⟩
  have e := b3 m hm
  refine k (exPoseOf 1) ?_
  have e1 : m.r1 = 1 := congrArg Meas.r1 e
  have e2 : m.p1 = 1 := congrArg Meas.p1 e
  have : foreignID (b.graph.setNeighborPoses b.neighborPoses).id m = exKey 1 := by
    show foreignID b.graph.id m = exKey 1
    unfold foreignID
    rw [e1, e2, b1, if_neg (by decide)]
    rfl
  rw [this]
  show _ ∈ b.neighborPoses
  rw [b2]; simp

/-- Robot 2 after a step: the matrices are cached. -/
theorem exCached : ∃ (t : List Ev) (a : Agent) (Q : DMat ℝ), Hist exOracle 2 (exTrio .L2) t a ∧
    CarefulHist t ∧ a.graph.Q = some Q ∧ a.state = .INITIALIZED ∧
    a.neighborPoses = [(exKey 1, exPoseOf 1)] ∧ a.graph.sharedLcs = [exI 1 2 1 0] ∧
    a.graph.odometry = [exI 2 2 0 1] ∧ a.graph.privateLcs = [] ∧
    a.graph.isNeighborActive 1 = ok true ∧ a.graph.n = 2 := by
  obtain ⟨t, a, h, -, hs, -, hnp, h1, h2, h3, h4, h5, -, -, -, -, -, -, -, -, -, -, hk⟩ :=
    exMember .L2 2 1 (Or.inr ⟨rfl, rfl⟩)
  have hd : 0 < (exTrio .L2).d := by decide
  have hr := h.reach
  have hi := agReach_inv hr
  have hc := agReach_cache hd hr
  obtain ⟨hself, hcov⟩ := exSecond h3 h2 h5
  obtain ⟨hid, -⟩ := reach_dims hi.reach
  obtain ⟨s, a1, e1, hs1⟩ := iterate_total (o := exOracle) hd hi hc hs hself hcov
    (fun c => absurd rfl c) (fun c => by cases c) true
  have hst : s = true := (hs1 rfl).2 (exSecond_poses a hid hnp (by rw [h1]; simp))
  subst hst
  obtain ⟨f, sU, -⟩ := Agent.iterate_frame e1
  have book := updating_book sU
  have h1' : Hist exOracle 2 (exTrio .L2) _ a1 := Hist.call (op := .iterate true) h trivial (by
    simp only [Agent.step, e1, ok_bind])
  have np1 : a1.neighborPoses = [(exKey 1, exPoseOf 1)] := by rw [f]; exact hnp
  have sh1 : a1.graph.sharedLcs = [exI 1 2 1 0] := book.sharedLcs.trans h1
  have od1 : a1.graph.odometry = [exI 2 2 0 1] := book.odometry.trans h3
  have pr1 : a1.graph.privateLcs = [] := book.privateLcs.trans h2
  have ac1 : a1.graph.isNeighborActive 1 = ok true := by rw [updating_active sU]; exact h4
  have n1 : a1.graph.n = 2 := book.n.trans h5
  have st1 : a1.state = .INITIALIZED := by rw [f]; exact hs
  obtain ⟨Q, hQ⟩ : ∃ Q, a1.graph.Q = some Q := by
    obtain ⟨b, hb, ⟨-, hc⟩ | ⟨c, -⟩⟩ := Agent.iterate_form e1
    · obtain ⟨c, c', h1, h2, h3⟩ := Agent.iterateBody_form hc
      obtain ⟨k, -, -, hb'⟩ := Agent.tick_form hb
      rcases h1 with ⟨c, -⟩ | ⟨-, h1⟩
      · rw [hb'] at c
        have c : a.params.acceleration = true := c
        rw [hi.params] at c; cases c
      · obtain ⟨Q, hQ⟩ := updateX_Q h1
        refine ⟨Q, ?_⟩
        rw [h3]
        rcases h2 with ⟨-, h2⟩ | ⟨c, -⟩
        · obtain ⟨_, _, -, -, _, -, rfl⟩ := Agent.iterateStatus_form h2
          exact hQ
        · cases c
    · exact absurd hs c
  refine ⟨_, a1, Q, h1', ?_, hQ, st1, np1, sh1, od1, pr1, ac1, n1⟩
  intro x hx
  rcases List.mem_append.1 hx with c | c
  · exact hk x c
  · rw [List.mem_singleton.1 c]; trivial

/-- Robot 2 takes a step, which caches the matrices; then the weight of its loop closure is set to zero.
The next step uses a matrix in which the weight still is one. -/
theorem exStaleQ : ∃ (a : Agent) (Q G Q' G' : DMat ℝ), AgReach exOracle 2 (exTrio .L2) a ∧
    StepMatrices a false Q G ∧ StepMatrices (bare a) false Q' G' ∧ Q ≠ Q' := by
  obtain ⟨t, a1, Q, h, hk, hQ, -, np1, sh1, od1, pr1, ac1, n1⟩ := exCached
  have hd : 0 < (exTrio .L2).d := by decide
  have hr1 := h.reach
  have hi1 := agReach_inv hr1
  have hc1 := agReach_cache hd hr1
  have hf1 : Fresh a1.graph := (careful_current (C := exOpt.chol) hd (fun _ => rfl) h hk).1
  obtain ⟨hid1, hrk1, hd1, -⟩ := reach_dims hi1.reach
  -- the weight is set
  obtain ⟨⟨log, hinv⟩, -⟩ := Reachable.inv hi1.reach
  have hmem : exI 1 2 1 0 ∈ a1.graph.sharedLcs := by rw [sh1]; simp
  rcases hinv.find_spec ⟨1, 1⟩ ⟨2, 0⟩ with ⟨-, c⟩ | ⟨q, m, c1, c2, -, c4, c3⟩
  · exact absurd (c _ (by rw [hinv.shared] at hmem; exact (List.mem_filter.1 hmem).1)) (by decide)
  have hq : q = .shared 0 := by
    simp only [hasEnds, Bool.and_eq_true, beq_iff_eq] at c4
    rcases c3 with ⟨c, -⟩ | ⟨c, -⟩ | ⟨-, i, rfl⟩
    · simp only [isOdo, Bool.and_eq_true, beq_iff_eq] at c
      omega
    · simp only [isPriv, Bool.and_eq_true, beq_iff_eq] at c
      omega
    · have c2 : a1.graph.sharedLcs[i]? = some m := c2
      rw [sh1] at c2
      cases i with
      | zero => rfl
      | succ i => simp at c2
  subst hq
  have e2 : a1.step exOracle (.setMeasurementWeight ⟨1, 1⟩ ⟨2, 0⟩ 0 false) =
      ok { a1 with graph := a1.graph.writeWeight (.shared 0) 0 false } := by
    simp only [Agent.step, Agent.setMeasurementWeight, c1, ok_bind]
  have hr2 := agReach_snoc
    (op := .setMeasurementWeight ⟨1, 1⟩ ⟨2, 0⟩ 0 false) hr1 trivial e2
  generalize h2 : ({ a1 with graph := a1.graph.writeWeight (.shared 0) 0 false } : Agent) = a2 at hr2
  have hi2 := agReach_inv hr2
  have hc2 := agReach_cache hd hr2
  have g2 : a2.graph = { a1.graph with sharedLcs := [{ exI 1 2 1 0 with weight := 0 }] } := by
    rw [← h2]
    show a1.graph.writeWeight (.shared 0) 0 false = _
    unfold writeWeight
    simp only [sh1]
    rfl
  have np2 : a2.neighborPoses = [(exKey 1, exPoseOf 1)] := by rw [← h2]; exact np1
  obtain ⟨hself2, hcov2⟩ := exSecond (g := a2.graph) (by rw [g2]; exact od1) (by rw [g2]; exact pr1)
    (by rw [g2]; exact n1)
  have ready : GReady 2 (exTrio .L2) a2.graph :=
    ⟨hi2.reach, by rw [g2]; show 0 < a1.graph.n; omega, hc2.size, hc2.priors, hself2, hcov2⟩
  have hid2 : a2.graph.id = 2 := by rw [g2]; exact hid1
  have miss2 := exSecond_poses a2 hid2 np2 (by rw [g2]; simp [strip, exI])
  have readyB : GReady 2 (exTrio .L2) (bare a2).graph :=
    ⟨Reachable.snoc (op := .clearDataMatrices) hi2.reach trivial rfl, ready.pos,
      fun Q hQ => (by cases hQ), ready.priors, hself2, hcov2⟩
  obtain ⟨QA, GA, sA, kA, -⟩ := step_matrices (accel := false) hd ready hi2.nbr miss2
  have hA : QA = Q := kA Q (by rw [g2]; exact hQ)
  subst hA
  obtain ⟨QB, GB, sB, -, kB⟩ := step_matrices (a := bare a2) (accel := false) hd readyB
    ⟨hi2.nbr.sorted, hi2.nbr.mem⟩ miss2
  refine ⟨a2, QA, GA, QB, GB, hr2, sA, sB, ?_⟩
  have miss1 := exSecond_poses a1 hid1 np1 (by rw [sh1]; simp)
  have rA : Reachable 2 3 2 (a1.graph.setNeighborPoses a1.neighborPoses) :=
    Reachable.snoc (op := .setNeighborPoses a1.neighborPoses) hi1.reach trivial rfl
  have rB : Reachable 2 3 2 ((bare a2).graph.setNeighborPoses a2.neighborPoses) :=
    Reachable.snoc (op := .setNeighborPoses a2.neighborPoses) readyB.reach trivial rfl
  obtain ⟨⟨lA, iA⟩, -⟩ := Reachable.inv rA
  obtain ⟨⟨lB, iB⟩, -⟩ := Reachable.inv rB
  have fA : Fresh (a1.graph.setNeighborPoses a1.neighborPoses) :=
    hf1.step (op := .setNeighborPoses a1.neighborPoses) hi1.reach (Or.inl hc1.unused) rfl
  have hpr : ∀ q ∈ a1.graph.priors, q.1 < a1.graph.n := priors_lt hi1.reach
  have cA : (a1.graph.setNeighborPoses a1.neighborPoses).constructQ = ok (some QA) :=
    (fA.q QA hQ).construct iA (by show 0 < a1.graph.d; rw [hd1]; exact hd) hpr miss1
  have cB := kB rfl
  have uA : ∀ (g : PoseGraph ℝ) (m : Meas ℝ), g.id = 2 → g.d = 2 →
      g.neighborPoses = [(exKey 1, exPoseOf 1)] → g.isNeighborActive 1 = ok true →
      m.r1 = 1 → m.p1 = 1 → m.p2 = 0 → m.kappa = 1 →
      g.shQ m (fun k => if k = 0 then 1 else 0) = m.weight := by
    intro g m g1 g2 g3 g4 m1 m2 m3 m4
    have : usedPose g m = some (exPoseOf 1) := by
      have : foreignID g.id m = exKey 1 := by
        unfold foreignID
        rw [g1, m1, m2, if_neg (by decide)]
        rfl
      unfold usedPose
      rw [this, show (exKey 1).robot = 1 from rfl, if_pos (Or.inr g4), g3]
      exact OMap.find?_of_mem strictTotal_ltPoseID (by simp [OMap.Sorted, OMap.keys, OSet.Sorted])
        (by simp)
    unfold shQ
    rw [this, g1, m1, g2, m3]
    simp [blk, omM, om, m4]
  refine weight_matters iA iB cA cB ?_ ?_ ?_ (x := fun k => if k = 0 then 1 else 0) sh1
    (m' := { exI 1 2 1 0 with weight := 0 }) ?_ ?_
  · show a2.graph.d = a1.graph.d
    rw [g2]
  · show a2.graph.localMeasurements = a1.graph.localMeasurements
    rw [g2]; rfl
  · show a2.graph.priors = a1.graph.priors
    rw [g2]
  · show a2.graph.sharedLcs = _
    rw [g2]
  · rw [uA (a1.graph.setNeighborPoses a1.neighborPoses) _ hid1 hd1 np1 ac1 rfl rfl rfl rfl,
      uA ((bare a2).graph.setNeighborPoses a2.neighborPoses) _ hid2
        (by show a2.graph.d = 2; rw [g2]; exact hd1) np2
        (by show a2.graph.isNeighborActive 1 = _; rw [g2]; exact ac1) rfl rfl rfl rfl]
    simp [exI]

end Props

end Dpgo
