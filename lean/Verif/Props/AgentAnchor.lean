import Verif.Lemmas.Anchor
import Verif.Props.AgentDescent

/-!
# C76: what anchoring a robot does
-/

namespace Dpgo.Props

open Res Spec PoseGraph Finset

variable {o : AgentOracles} {ID : Nat} {p : AgentParams} {a a' : Agent}

/-- **C76** (`setPrior`, on any pose of any reachable graph).  It succeeds exactly if the pose exists and the
prior has the dimensions of the graph.  It adds to the cost half the weighted squared distance of that pose
from the prior, in place of the distance from an earlier prior on that pose, and changes nothing else. -/
theorem C76_prior {id r d : Nat} {g : PoseGraph ℝ} (hg : Reachable id r d g) (i : Nat) (P : PArr ℝ) :
    ((∃ g', g.setPrior i P = ok g') ↔ i < g.n ∧ P.d = d ∧ P.r = r) ∧
    ∀ g', g.setPrior i P = ok g' → (∀ X, graphCost g' X =
      graphCost (withoutPrior g i) X + 1 / 2 * priorCost r d X i P.X) ∧ withoutPrior g' i = withoutPrior g i := by
  obtain ⟨-, hr, hd, -⟩ := reach_dims hg
  refine ⟨?_, fun g' e => ?_⟩
  · simp only [setPrior, bind_eq_ok, check_eq_ok, decide_eq_true_eq, beq_iff_eq, exists_and_left,
      exists_const, hr, hd]
    constructor
    · rintro ⟨h1, h2, h3, -⟩
      exact ⟨h1, h2.symm, h3.symm⟩
    · rintro ⟨h1, h2, h3⟩
      exact ⟨h1, h2.symm, h3.symm, _, rfl⟩
  · refine ⟨fun X => ?_, (setPrior_cost hg e [] (DMat.zero 0 0)).2.1⟩
    have k := (setPrior_cost hg e g'.neighborPoses X).1
    have hn : g'.neighborPoses = g.neighborPoses := by
      rw [(setPrior_cost hg e [] X).2.2]
    rw [hr, hd] at k
    rw [hn] at k
    rw [show ({ g' with neighborPoses := g.neighborPoses } : PoseGraph ℝ) = g' by rw [← hn]] at k
    exact k

/-- **C76** (`anchorFirstPose(prior)`).  It adds to the cost half the weighted squared distance of the first
pose from the prior, in place of an earlier anchor.  Nothing but the priors changes. -/
theorem C76_anchor_with (h : AgReach o ID p a) {P : PArr ℝ} {b : Bool}
    (e : a.anchorFirstPoseWith P = ok (b, a')) :
    b = true ∧ (∀ X, seenCost a' X = freeCost a X + anchorCost p X P.X) ∧
    (∀ X, freeCost a' X = freeCost a X) ∧
    a' = { a with graph := { a.graph with priors := a'.graph.priors } } := by
  have hi := agReach_inv h
  obtain ⟨-, hr, hd, -⟩ := reach_dims hi.reach
  obtain ⟨rfl, g', hg, rfl⟩ := Agent.anchorFirstPoseWith_form e
  have hg : a.graph.setPrior 0 P = ok g' := hg
  refine ⟨rfl, fun X => ?_, fun X => ?_, ?_⟩
  · have k := (setPrior_cost hi.reach hg a.neighborPoses X).1
    rw [hr, hd] at k
    exact k
  · have k := (setPrior_cost hi.reach hg a.neighborPoses X).2.1
    unfold freeCost
    show graphCost { withoutPrior g' 0 with neighborPoses := a.neighborPoses } X = _
    rw [k]
  · have k := (setPrior_cost hi.reach hg a.neighborPoses a.X.X).2.2
    show ({ a with graph := g' } : Agent) = { a with graph := { a.graph with priors := g'.priors } }
    rw [k]

/-- **C76** (`anchorFirstPose()`).  A robot that has begun to work can always be anchored at its current first
pose; the anchor costs its current estimate nothing. -/
theorem C76_anchor (h : AgReach o ID p a) :
    (a.state ≠ .WAIT_FOR_DATA → ∃ a', a.anchorFirstPose = ok (true, a')) ∧
    ∀ a' b, a.anchorFirstPose = ok (b, a') → (b = true ↔ 0 < a.numPoses) ∧
      (b = false → a' = a) ∧
      (b = true → (∀ X, seenCost a' X = freeCost a X + anchorCost p X a.X.X) ∧
        (∀ X, freeCost a' X = freeCost a X) ∧
        seenCost a' a.X.X = freeCost a a.X.X ∧
        a' = { a with graph := { a.graph with priors := a'.graph.priors } }) := by
  have hi := agReach_inv h
  obtain ⟨-, hr, hd, hrd⟩ := reach_dims hi.reach
  refine ⟨fun hs => ?_, fun a' b e => ?_⟩
  · obtain ⟨hn, -, k1, k2, k3, k4, k5⟩ := hi.data hs
    obtain ⟨P, hP, q1, -⟩ := PArr.make_ok (K := ℝ) (n := 1) hrd
    obtain ⟨c1, c2, c3, c4, c5⟩ := q1
    have hin : a.X.X.inRange 0 0 p.r (p.d + 1) = true := by
      unfold DMat.inRange
      simp only [Nat.zero_add, k4, k5, Bool.and_eq_true, decide_eq_true_eq, le_refl, true_and]
      exact Nat.le_mul_of_pos_right _ hn
    refine ⟨{ a with graph := { a.graph with
      priors := OMap.insert ltNat 0 { P with X := a.X.X.block 0 0 p.r (p.d + 1) } a.graph.priors } }, ?_⟩
    unfold Agent.anchorFirstPose Agent.numPoses Agent.relaxationRank Agent.dimension PArr.poseAt
      PArr.setData setPrior
    rw [if_pos hn, hr, hd, hP]
    simp only [ok_bind, k1, k2, k3, hn, decide_true, check_true, Nat.zero_mul, hin, require_true, c1, c2,
      c3, DMat.block, beq_self_eq_true, Nat.mul_one, hr, hd]
  · rcases Agent.anchorFirstPose_form e with ⟨h0, rfl, rfl⟩ | ⟨h0, rfl, P, M, g', hM, hPM, hg, rfl⟩
    · exact ⟨⟨fun c => (by cases c), fun c => by omega⟩, fun _ => rfl, fun c => (by cases c)⟩
    refine ⟨⟨fun _ => h0, fun _ => rfl⟩, fun c => (by cases c), fun _ => ?_⟩
    have hg : a.graph.setPrior 0 P = ok g' := hg
    have hMv : ∀ ρ j, M.v ρ j = a.X.X.v ρ j := by
      unfold PArr.poseAt at hM
      simp only [bind_eq_ok] at hM
      obtain ⟨_, -, _, -, hM⟩ := hM
      cases hM
      intro ρ j
      simp [DMat.block]
    have hcost : ∀ X, priorCost p.r p.d X 0 P.X = priorCost p.r p.d X 0 a.X.X := by
      intro X
      rw [hPM]
      unfold priorCost rot tra
      simp only [hMv]
    have k1 : ∀ X, seenCost { a with graph := g' } X = freeCost a X + anchorCost p X a.X.X := by
      intro X
      have k := (setPrior_cost hi.reach hg a.neighborPoses X).1
      rw [hr, hd, hcost] at k
      exact k
    refine ⟨k1, fun X => ?_, ?_, ?_⟩
    · have k := (setPrior_cost hi.reach hg a.neighborPoses X).2.1
      unfold freeCost
      show graphCost { withoutPrior g' 0 with neighborPoses := a.neighborPoses } X = _
      rw [k]
    · rw [k1]
      simp [anchorCost, priorCost]
    · have k := (setPrior_cost hi.reach hg a.neighborPoses a.X.X).2.2
      show ({ a with graph := g' } : Agent) = { a with graph := { a.graph with priors := g'.priors } }
      rw [k]

/-- **C76** (last anchor).  Anchoring again replaces the anchor: the result is the same as if the first anchor
had never been set. -/
theorem C76_last {P P' : PArr ℝ} {a1 a2 : Agent} {b1 b2 : Bool}
    (e1 : a.anchorFirstPoseWith P = ok (b1, a1)) (e2 : a1.anchorFirstPoseWith P' = ok (b2, a2)) :
    a.anchorFirstPoseWith P' = ok (b2, a2) := by
  have h : ∀ (m : OMap Nat (PArr ℝ)),
      OMap.insert ltNat 0 P' (OMap.insert ltNat 0 P m) = OMap.insert ltNat 0 P' m := by
    intro m
    cases m with
    | nil => rfl
    | cons q t =>
      unfold OMap.insert
      by_cases h : ltNat 0 q.1 = true
      · have : 0 < q.1 := by simpa [ltNat] using h
        simp [this, OMap.insert, ltNat]
      · have : q.1 = 0 := by simpa [ltNat] using h
        simp [this, OMap.insert, ltNat]
  obtain ⟨-, g, hg, rfl⟩ := Agent.anchorFirstPoseWith_form e1
  have hg : g = { a.graph with priors := OMap.insert ltNat 0 P a.graph.priors } := by
    simp only [PoseGraph.step, setPrior, bind_eq_ok] at hg
    obtain ⟨_, -, _, -, _, -, hg⟩ := hg
    exact (Res.ok.inj hg).symm
  rw [← e2]
  unfold Agent.anchorFirstPoseWith setPrior Agent.dimension Agent.relaxationRank
  subst hg
  simp only [h]

/-- **C76** (holding), partial: the robot is anchored while nothing is cached.  After any number of iterations
the anchor term is still no larger than the cost of the estimate at the time of anchoring; if all measurements
were satisfied then, the first pose has not moved at all.  What is missing: robots that are anchored after
their first iteration, see `C76_violated`. -/
theorem C76_hold_partial (hd : 0 < p.d) (hC : ∀ k k', (o.opt k).chol = (o.opt k').chol)
    (hp : p.acceleration = false) (hm : p.localOpt.method = .RTR) (ho : ∀ k, LawfulRtr (o.opt k))
    {t : List Ev} (h : Hist o ID p t a) (hk : CarefulHist t) (hu : uncached a.graph)
    (hw : NonnegWeights a.graph) {a1 a2 : Agent} (e1 : a.anchorFirstPose = ok (true, a1)) {bs : List Bool}
    (e2 : iterations o a1 bs = ok a2) :
    anchorCost p a2.X.X a.X.X ≤ freeCost a a.X.X ∧
    (freeCost a a.X.X = 0 → ∀ ρ < p.r, ∀ j ≤ p.d, a2.X.X.v ρ j = a.X.X.v ρ j) := by
  obtain ⟨-, -, k⟩ := (C76_anchor h.reach).2 a1 true e1
  obtain ⟨k1, k2, k3, k4⟩ := k rfl
  have h1 : Hist o ID p _ a1 := Hist.call (op := .anchorFirstPose) h trivial
    (by simp only [Agent.step, e1, ok_bind])
  have hk1 : CarefulHist (t ++ [⟨a, .anchorFirstPose, a1⟩]) := by
    intro x hx
    rcases List.mem_append.1 hx with c | c
    · exact hk x c
    · rw [List.mem_singleton.1 c]; exact hu
  obtain ⟨q1, q2⟩ := C75_run hd hC hp hm ho h1 hk1 e2
  have hX : a1.X = a.X := by rw [k4]
  rw [q2, hX, k3, k1] at q1
  have h0 : 0 ≤ freeCost a a2.X.X := 
    graphCost_nonneg (g := { withoutPrior a.graph 0 with neighborPoses := a.neighborPoses }) hw _
  have hle : anchorCost p a2.X.X a.X.X ≤ freeCost a a.X.X := by linarith
  refine ⟨hle, fun hz ρ hρ j hj => ?_⟩
  rw [hz] at hle
  unfold anchorCost priorCost at hle
  have hA : ∀ ρ ∈ range p.r, 0 ≤ ∑ c ∈ range p.d, (rot p.d a2.X.X 0 ρ c - rot p.d a.X.X 0 ρ c) ^ 2 :=
    fun _ _ => Finset.sum_nonneg fun _ _ => sq_nonneg _
  have hB : ∀ ρ ∈ range p.r, 0 ≤ (tra p.d a2.X.X 0 ρ - tra p.d a.X.X 0 ρ) ^ 2 := fun _ _ => sq_nonneg _
  have hA' := Finset.sum_nonneg hA
  have hB' := Finset.sum_nonneg hB
  have zA := (Finset.sum_eq_zero_iff_of_nonneg hA).1 (by linarith) ρ (Finset.mem_range.2 hρ)
  have zB := (Finset.sum_eq_zero_iff_of_nonneg hB).1 (by linarith) ρ (Finset.mem_range.2 hρ)
  rcases Nat.lt_or_eq_of_le hj with c | rfl
  · have := (Finset.sum_eq_zero_iff_of_nonneg fun _ _ => sq_nonneg _).1 zA j (Finset.mem_range.2 c)
    have := pow_eq_zero_iff (two_ne_zero) |>.1 this
    simp only [rot, Nat.zero_mul, Nat.zero_add] at this
    linarith
  · have := pow_eq_zero_iff (two_ne_zero) |>.1 zB
    simp only [tra, Nat.zero_mul, Nat.zero_add] at this
    linarith

/-- **C76** (late anchoring).  A robot that has not been anchored and whose quadratic matrix is cached is
anchored.  Its next step works with the cost without the anchor, minus a term linear in the first pose: the
anchor's own quadratic term is missing. -/
theorem C76_late (hd : 0 < p.d) (hC : ∀ k k', (o.opt k).chol = (o.opt k').chol) {t : List Ev}
    (h : Hist o ID p t a) (hk : CarefulHist t) {Q : DMat ℝ} (hQ : a.graph.Q = some Q)
    (hn : a.graph.priors = []) {P : PArr ℝ} (hP : ArrOk P.r P.d 1 P) {b : Bool}
    (e : a.anchorFirstPoseWith P = ok (b, a')) {Q' G : DMat ℝ} (hm : StepMatrices a' false Q' G)
    {X : DMat ℝ} (hXr : X.rows = p.r) (hXc : X.cols = (p.d + 1) * a.graph.n) :
    objective Q' G X = seenCost a X - seenCost a (zeroEst a.graph) - anchorPull p X P.X :=
  late_step hd h.reach (careful_current (C := (o.opt 0).chol) hd (fun k => hC k 0) h hk).1 hQ hn hP e hm
    hXr hXc

/-- **C76** (runaway).  If moreover the robot shares no measurement with others and the anchor is not at the
origin, the objective of that step has no minimum: it falls below any bound by moving all poses along. -/
theorem C76_late_unbounded (hd : 0 < p.d) (hC : ∀ k k', (o.opt k).chol = (o.opt k').chol) {t : List Ev}
    (h : Hist o ID p t a) (hk : CarefulHist t) {Q : DMat ℝ} (hQ : a.graph.Q = some Q)
    (hn : a.graph.priors = []) (hsh : a.graph.sharedLcs = []) {P : PArr ℝ} (hP : ArrOk P.r P.d 1 P)
    (hP0 : ∃ ρ < p.r, tra p.d P.X 0 ρ ≠ 0) {b : Bool}
    (e : a.anchorFirstPoseWith P = ok (b, a')) {Q' G : DMat ℝ} (hm : StepMatrices a' false Q' G)
    {X : DMat ℝ} (hXr : X.rows = p.r) (hXc : X.cols = (p.d + 1) * a.graph.n) (B : ℝ) :
    ∃ Y : DMat ℝ, Y.rows = X.rows ∧ Y.cols = X.cols ∧
      (∀ i ρ c, c < p.d → rot p.d Y i ρ c = rot p.d X i ρ c) ∧ objective Q' G Y < B := by
  obtain ⟨-, hr, hdd, -⟩ := reach_dims (agReach_inv h.reach).reach
  obtain ⟨ρ, hρ, hne⟩ := hP0
  set S := 100 * ∑ ρ ∈ range p.r, tra p.d P.X 0 ρ ^ 2 with hS
  have hpos : 0 < S := by
    refine mul_pos (by norm_num) (Finset.sum_pos' (fun _ _ => sq_nonneg _) ⟨ρ, Finset.mem_range.2 hρ, ?_⟩)
    positivity
  have hcost : ∀ k, seenCost a (shifted p.d X P.X k) = seenCost a X := by
    intro k
    unfold seenCost graphCost
    simp only [hsh, hn, List.map_nil, List.sum_nil, hr, hdd]
    congr 3
    refine congrArg List.sum ?_
    refine List.map_congr_left fun m _ => ?_
    exact shifted_edge m X P.X k _ _
  set c0 := objective Q' G X with hc0
  refine ⟨shifted p.d X P.X ((c0 - B + 1) / S), rfl, rfl, fun i ρ c hc => shifted_rot X P.X _ i ρ hc, ?_⟩
  have e1 := C76_late hd hC h hk hQ hn hP e hm hXr hXc
  have e2 := C76_late hd hC h hk hQ hn hP e hm (X := shifted p.d X P.X ((c0 - B + 1) / S)) hXr hXc
  rw [hcost, shifted_pull, ← hS, div_mul_cancel₀ _ hpos.ne'] at e2
  rw [e2]
  linarith

/-- **C76** (anchoring again).  If the robot had an anchor when its quadratic matrix was built, a new anchor is
seen in full by the next step: it works with the cost with the new anchor in place of the old one. -/
theorem C76_again (hd : 0 < p.d) (hC : ∀ k k', (o.opt k).chol = (o.opt k').chol) {t : List Ev}
    (h : Hist o ID p t a) (hk : CarefulHist t) {Q : DMat ℝ} (hQ : a.graph.Q = some Q) {P0 P : PArr ℝ}
    (h0 : (0, P0) ∈ a.graph.priors) (hP : ArrOk P.r P.d 1 P) {b : Bool}
    (e : a.anchorFirstPoseWith P = ok (b, a')) {Q' G : DMat ℝ} (hm : StepMatrices a' false Q' G)
    {X : DMat ℝ} (hXr : X.rows = p.r) (hXc : X.cols = (p.d + 1) * a.graph.n) :
    objective Q' G X = freeCost a X + anchorCost p X P.X -
      (freeCost a (zeroEst a.graph) + anchorCost p (zeroEst a.graph) P.X) := by
  obtain ⟨-, k1, -, k4⟩ := C76_anchor_with h.reach e
  have hz : zeroEst a'.graph = zeroEst a.graph := by rw [k4]; rfl
  rw [← k1, ← k1, ← hz]
  exact again_step hd h.reach (careful_current (C := (o.opt 0).chol) hd (fun k => hC k 0) h hk).1 h0 hP e hQ hm
    hXr hXc

/-- A robot on its own with two poses, after an iteration. -/
theorem exLone : ∃ (t : List Ev) (a b : Agent) (Q : DMat ℝ), Hist exOracle 0 exParams t a ∧ CarefulHist t ∧
    a.state = .INITIALIZED ∧ a.iterate exOracle true = ok (true, b) ∧ b.graph.Q = some Q ∧
    b.graph.priors = [] ∧ b.graph.sharedLcs = [] ∧ b.graph.n = 2 ∧ uncached a.graph ∧
    NonnegWeights a.graph ∧ GReady 0 exParams b.graph ∧ GReady 0 exParams a.graph := by
  obtain ⟨g0, g1, e0, e1, g2, g3, g4, g5, g6, g7⟩ : ∃ g0 g1 : PoseGraph ℝ, PoseGraph.new 0 3 2 = ok g0 ∧
      g0.addMeasurement (exI 0 0 0 1) = ok g1 ∧ g1.odometry = [exI 0 0 0 1] ∧ g1.privateLcs = [] ∧
      g1.sharedLcs = [] ∧ g1.n = 2 ∧ g1.d = 2 ∧ uncached g1 ∧ g1.priors = [] :=
    ⟨_, _, rfl, rfl, rfl, rfl, rfl, rfl, rfl, ⟨rfl, rfl, rfl⟩, rfl⟩
  obtain ⟨g7, g8⟩ := g7
  have hnew : ∃ a0, Agent.new exOracle 0 exParams = ok a0 ∧ a0.graph = g0 ∧ a0.state = .WAIT_FOR_DATA ∧
      ∃ Y, a0.YLift = some Y := by
    obtain ⟨X, hX, -, -⟩ := PArr.make_ok (K := ℝ) (r := 3) (d := 2) (n := 1) (by omega)
    unfold Agent.new
    rw [show exParams.r = 3 from rfl, show exParams.d = 2 from rfl, hX, e0]
    simp only [ok_bind, if_pos, Agent.setLiftingMatrix, DMat.ofMat, beq_self_eq_true, check_true]
    exact ⟨_, rfl, rfl, rfl, _, rfl⟩
  obtain ⟨a0, n0, n1, n2, Y, n3⟩ := hnew
  have r2 := Hist.call (op := .addMeasurement (exI 0 0 0 1)) (a' := { a0 with graph := g1 }) (.new n0)
    (exAgOps_wf _ (by simp [exAgOps]))
    (by simp only [Agent.step, Agent.addMeasurement, n2, ne_eq, not_true_eq_false, if_false, n1, e1,
        ok_bind])
  generalize ha : ({ a0 with graph := g1 } : Agent) = a at r2
  have hg : a.graph = g1 := by rw [← ha]
  have hs : a.state = .WAIT_FOR_DATA := by rw [← ha]; exact n2
  have hY : a.YLift = some Y := by rw [← ha]; exact n3
  have hi := agReach_inv r2.reach
  have hch : Agent.chooseTrajectory exOracle { a with running := false } (some exTwo) = ok (exTwo, _) :=
    Agent.choose_supplied (a := { a with running := false }) (by rw [hg]; exact g6.symm)
      (by rw [hg]; exact g5.symm)
  obtain ⟨a', S, e, -, -, -, -, hst⟩ := Agent.init_chosen (o := exOracle) (TI := some exTwo) hi hs hch
    (by rw [hg, g5]; exact exTwo_ok) (by rw [hg, g5]; omega)
    (by show (rotM 2 2 exTwo 0).det ≠ 0; rw [exTwo_rot]; simp) (fun c => by cases c)
    (fun _ => ⟨Y, hY⟩)
  rw [if_pos (Or.inl rfl)] at hst
  have hga : a'.graph = g1 := by
    rw [← hg]
    rcases Agent.init_form hi.reach e with ⟨-, rfl⟩ | ⟨-, -, rfl⟩ | ⟨-, -, T, S, X, b, c, hT, -, -, hc, he⟩
    · rfl
    · rfl
    rw [hch] at hT
    cases hT
    have h1 : c.graph = a.graph := by
      rcases hc with ⟨-, rfl⟩ | ⟨-, I, -, hc⟩
      · rfl
      · obtain ⟨Y, R, X', g1, c1, -, -, -, -, -, -, h, -, rfl⟩ := Agent.initializeInGlobalFrame_form
          (by exact hi.reach) hc
        rcases h with ⟨-, rfl, -⟩ | ⟨h, -⟩
        · rw [Agent.resync_frame]
        · exact absurd (by show a.params.robust.costType = .L2; rw [hi.params]; rfl) h
    rcases he with ⟨-, rfl⟩ | ⟨-, he⟩
    · exact h1
    · obtain ⟨-, rfl⟩ := Agent.startOptimizationLoop_form he
      exact h1
  have e' : a.step exOracle (.init (some exTwo)) = ok a' := e
  have r3 := Hist.call (op := .init (some exTwo)) r2 (fun P hP => by cases hP; exact exTwo_ok) e'
  have hcare : CarefulHist ((([] : List Ev) ++
      [⟨a0, .addMeasurement (exI 0 0 0 1), a⟩]) ++ [⟨a, .init (some exTwo), a'⟩]) := by
    intro x hx
    simp only [List.nil_append, List.mem_append, List.mem_singleton] at hx
    rcases hx with rfl | rfl <;> trivial
  have hi' := agReach_inv r3.reach
  have hc' := agReach_cache (by decide) r3.reach
  have self : ∀ g : PoseGraph ℝ, g.odometry = [exI 0 0 0 1] → g.privateLcs = [] → ¬ hasSelfLoop g := by
    rintro g k1 k2 ⟨m, hm, em⟩
    unfold PoseGraph.localMeasurements at hm
    rw [k1, k2, List.append_nil, List.mem_singleton] at hm
    rw [hm] at em; cases em
  have cov : ∀ g : PoseGraph ℝ, g.odometry = [exI 0 0 0 1] → g.privateLcs = [] → g.n = 2 →
      posesCovered g := by
    intro g k1 k2 k3 i hi
    rw [k3] at hi
    refine ⟨exI 0 0 0 1, ?_, Or.inr (by show i ≤ 1; omega)⟩
    unfold PoseGraph.localMeasurements
    rw [k1, k2]; simp
  obtain ⟨s, b, eb, hsb⟩ := iterate_total (o := exOracle) (by decide) hi' hc' hst
    (self _ (by rw [hga]; exact g2) (by rw [hga]; exact g3))
    (cov _ (by rw [hga]; exact g2) (by rw [hga]; exact g3) (by rw [hga]; exact g5))
    (fun c => absurd rfl c) (fun c => by cases c) true
  have hst' : s = true := (hsb rfl).2 (by
    rintro ⟨m, hm, -⟩
    have hm : m ∈ a'.graph.sharedLcs := hm
    rw [hga, g4] at hm; cases hm)
  subst hst'
  obtain ⟨f, sU, -⟩ := Agent.iterate_frame eb
  have bk := updating_book sU
  have r4 : Hist exOracle 0 exParams _ b := Hist.call (op := .iterate true) r3 trivial
    (by simp only [Agent.step, eb, ok_bind])
  have hib := agReach_inv r4.reach
  have hcb := agReach_cache (by decide) r4.reach
  obtain ⟨Q, hQ⟩ := step_Q hi' rfl hst eb
  have od : b.graph.odometry = [exI 0 0 0 1] := bk.odometry.trans (by rw [hga]; exact g2)
  have pr : b.graph.privateLcs = [] := bk.privateLcs.trans (by rw [hga]; exact g3)
  have nn : b.graph.n = 2 := bk.n.trans (by rw [hga]; exact g5)
  refine ⟨_, a', b, Q, r3, hcare, hst, eb, hQ, bk.priors.trans (by rw [hga]; exact g8),
    bk.sharedLcs.trans (by rw [hga]; exact g4), nn, by rw [hga]; exact g7, ?_,
    ⟨hib.reach, by rw [nn]; omega, hcb.size, hcb.priors, self _ od pr, cov _ od pr nn⟩,
    ⟨hi'.reach, by rw [hga, g5]; omega, hc'.size, hc'.priors, self _ (by rw [hga]; exact g2)
      (by rw [hga]; exact g3), cov _ (by rw [hga]; exact g2) (by rw [hga]; exact g3) (by rw [hga]; exact g5)⟩⟩
  intro m hm
  rw [hga, g2, g3, g4, List.append_nil, List.append_nil, List.mem_singleton] at hm
  rw [hm]
  norm_num [exI]

/-- An anchor away from the origin. -/
def exBuoy : PArr ℝ := ⟨3, 2, 1, ⟨3, 3, fun i j => if i = j ∧ i < 2 then 1 else if i = 0 ∧ j = 2 then 1 else 0⟩⟩

/-- Anchoring a robot on its own. -/
theorem exMoor {a : Agent} (h : AgReach exOracle 0 exParams a) (hG : GReady 0 exParams a.graph)
    (hl : a.graph.sharedLcs = []) (hn : a.graph.n = 2) : ∃ (a' : Agent) (Q' G : DMat ℝ),
    a.anchorFirstPoseWith exBuoy = ok (true, a') ∧ StepMatrices a' false Q' G ∧
    a'.graph.odometry = a.graph.odometry ∧ a'.graph.privateLcs = a.graph.privateLcs ∧
    a'.graph.sharedLcs = a.graph.sharedLcs ∧ a'.graph.n = a.graph.n ∧ a'.state = a.state ∧
    (∃ P0, (0, P0) ∈ a'.graph.priors) := by
  have hi := agReach_inv h
  obtain ⟨-, hr, hd, -⟩ := reach_dims hi.reach
  have e1 : ∃ a', a.anchorFirstPoseWith exBuoy = ok (true, a') := by
    unfold Agent.anchorFirstPoseWith setPrior Agent.dimension Agent.relaxationRank
    rw [hn, hr, hd]
    exact ⟨_, rfl⟩
  obtain ⟨a', e1⟩ := e1
  have k4 := (C76_anchor_with h e1).2.2.2
  have hr' : AgReach exOracle 0 exParams a' := agReach_snoc (op := .anchorFirstPoseWith exBuoy) h
    ⟨rfl, rfl, rfl, rfl, rfl⟩ (by simp only [Agent.step, e1, ok_bind])
  have hi' := agReach_inv hr'
  have hc' := agReach_cache (by decide) hr'
  have q1 : a'.graph.odometry = a.graph.odometry := by rw [k4]
  have q2 : a'.graph.privateLcs = a.graph.privateLcs := by rw [k4]
  have q3 : a'.graph.sharedLcs = a.graph.sharedLcs := by rw [k4]
  have q4 : a'.graph.n = a.graph.n := by rw [k4]
  have hG' : GReady 0 exParams a'.graph := by
    refine ⟨hi'.reach, by rw [q4, hn]; omega, hc'.size, hc'.priors, ?_, ?_⟩
    · have := hG.noSelf
      unfold hasSelfLoop PoseGraph.localMeasurements at this ⊢
      rw [q1, q2]; exact this
    · have := hG.covered
      unfold posesCovered PoseGraph.localMeasurements at this ⊢
      rw [q1, q2, q4]; exact this
  obtain ⟨Q', G, hm, -⟩ := step_matrices (a := a') (accel := false) (by decide) hG' hi'.nbr (by
    rintro ⟨m, hm, -⟩
    have hm : m ∈ a'.graph.sharedLcs := hm
    rw [q3, hl] at hm; cases hm)
  refine ⟨a', Q', G, e1, hm, q1, q2, q3, q4, by rw [k4], exBuoy, ?_⟩
  obtain ⟨-, g', hg, e2⟩ := Agent.anchorFirstPoseWith_form e1
  obtain ⟨-, -, eg⟩ := setPrior_cost hi.reach hg [] a.X.X
  rw [show a'.graph.priors = g'.priors by rw [e2], eg]
  cases a.graph.priors with
  | nil => exact List.mem_singleton.2 rfl
  | cons q t =>
    unfold OMap.insert
    by_cases c : 0 < q.1
    · simp [ltNat, c]
    · have c : q.1 = 0 := by omega
      simp [ltNat, c]

/-- The robot on its own, anchored after an iteration. -/
theorem exMoored : ∃ (t : List Ev) (a a' : Agent) (Q Q' G : DMat ℝ), Hist exOracle 0 exParams t a ∧
    CarefulHist t ∧ a.graph.Q = some Q ∧ a.graph.priors = [] ∧ a.graph.sharedLcs = [] ∧ a.graph.n = 2 ∧
    a.anchorFirstPoseWith exBuoy = ok (true, a') ∧ StepMatrices a' false Q' G ∧ NonnegWeights a'.graph ∧
    a.state = .INITIALIZED := by
  obtain ⟨t, a0, a, Q, h, hk, hs, e, hQ, hp, hl, hn, -, hw, hG, -⟩ := exLone
  have h1 : Hist exOracle 0 exParams _ a := Hist.call (op := .iterate true) h trivial
    (by simp only [Agent.step, e, ok_bind])
  have hk1 : CarefulHist (t ++ [⟨a0, .iterate true, a⟩]) := by
    intro x hx
    rcases List.mem_append.1 hx with c | c
    · exact hk x c
    · rw [List.mem_singleton.1 c]; trivial
  obtain ⟨a', Q', G, e1, hm, q1, q2, q3, -⟩ := exMoor h1.reach hG hl hn
  obtain ⟨f, sU, -⟩ := Agent.iterate_frame e
  have bk := updating_book sU
  refine ⟨_, a, a', Q, Q', G, h1, hk1, hQ, hp, hl, hn, e1, hm, ?_, by rw [f]; exact hs⟩
  unfold NonnegWeights
  rw [q1, q2, q3, bk.odometry, bk.privateLcs, bk.sharedLcs]
  exact hw

/-- **C76** is violated by robots that are anchored after their first iteration: although the cost with the
anchor is never negative, the next optimisation step is given an objective that is unbounded below. -/
theorem C76_violated : ∃ (t : List Ev) (a a' : Agent) (Q G : DMat ℝ), Hist exOracle 0 exParams t a ∧
    CarefulHist t ∧ a.anchorFirstPoseWith exBuoy = ok (true, a') ∧ StepMatrices a' false Q G ∧
    (∀ X, 0 ≤ seenCost a' X) ∧
    ∀ B, ∃ X : DMat ℝ, X.rows = exParams.r ∧ X.cols = (exParams.d + 1) * a'.graph.n ∧ objective Q G X < B := by
  obtain ⟨t, a, a', Q, Q', G, h, hk, hQ, hp, hl, hn, e, hm, hw, -⟩ := exMoored
  refine ⟨t, a, a', Q', G, h, hk, e, hm, fun X =>
    graphCost_nonneg (g := { a'.graph with neighborPoses := a'.neighborPoses }) hw X, fun B => ?_⟩
  have q4 : a'.graph.n = a.graph.n := by rw [(C76_anchor_with h.reach e).2.2.2]
  obtain ⟨Y, y1, y2, -, y3⟩ := C76_late_unbounded (by decide) (fun _ _ => rfl) h hk hQ hp hl
    (P := exBuoy) ⟨rfl, rfl, rfl, rfl, rfl⟩ ⟨0, by decide, by simp [tra, exBuoy, exParams, AgentParams.default]⟩ e hm
    (X := zeroEst a.graph) (reach_dims (agReach_inv h.reach).reach).2.1 (by
      show (a.graph.d + 1) * a.graph.n = _
      rw [(reach_dims (agReach_inv h.reach).reach).2.2.1]) B
  refine ⟨Y, y1.trans (reach_dims (agReach_inv h.reach).reach).2.1, y2.trans ?_, y3⟩
  show (a.graph.d + 1) * a.graph.n = _
  rw [(reach_dims (agReach_inv h.reach).reach).2.2.1, q4]

/-- The anchors of `C76_prior`, `C76_anchor_with`, `C76_anchor`, `C76_last`. -/
example : ∃ (t : List Ev) (a a1 a2 a3 : Agent), Hist exOracle 0 exParams t a ∧ 0 < a.numPoses ∧
    a.state ≠ .WAIT_FOR_DATA ∧ a.anchorFirstPoseWith exBuoy = ok (true, a1) ∧
    a1.anchorFirstPose = ok (true, a2) ∧ a1.anchorFirstPoseWith exBuoy = ok (true, a3) := by
  obtain ⟨t, a, a1, -, -, -, h, -, -, -, -, hn, e, -, -, hs⟩ := exMoored
  have h1 : AgReach exOracle 0 exParams a1 := agReach_snoc (op := .anchorFirstPoseWith exBuoy) h.reach
    ⟨rfl, rfl, rfl, rfl, rfl⟩ (by simp only [Agent.step, e, ok_bind])
  have k4 := (C76_anchor_with h.reach e).2.2.2
  have q4 : a1.graph.n = a.graph.n := by rw [k4]
  have q5 : a1.state = a.state := by rw [k4]
  obtain ⟨a2, e2⟩ := (C76_anchor h1).1 (by rw [q5, hs]; decide)
  have e3 : ∃ a3, a1.anchorFirstPoseWith exBuoy = ok (true, a3) := by
    obtain ⟨-, hr, hd, -⟩ := reach_dims (agReach_inv h1).reach
    unfold Agent.anchorFirstPoseWith setPrior Agent.dimension Agent.relaxationRank
    rw [q4, hn, hr, hd]
    exact ⟨_, rfl⟩
  obtain ⟨a3, e3⟩ := e3
  exact ⟨t, a, a1, a2, a3, h, by rw [Agent.numPoses, hn]; omega, by rw [hs]; decide, e, e2, e3⟩

/-- `C76_hold_partial`. -/
example : ∃ (t : List Ev) (a a1 a2 : Agent), Hist exOracle 0 exParams t a ∧ CarefulHist t ∧
    uncached a.graph ∧ NonnegWeights a.graph ∧ a.anchorFirstPose = ok (true, a1) ∧
    iterations exOracle a1 [true] = ok a2 ∧ exParams.acceleration = false ∧ exParams.localOpt.method = .RTR ∧
    (∀ k, LawfulRtr (exOracle.opt k)) ∧ ∀ k k', (exOracle.opt k).chol = (exOracle.opt k').chol := by
  obtain ⟨t, a, -, -, h, hk, hs, -, -, -, hl, hn, hu, hw, -, hG⟩ := exLone
  obtain ⟨a1, e1⟩ := (C76_anchor h.reach).1 (by rw [hs]; decide)
  obtain ⟨-, -, -, k4⟩ := ((C76_anchor h.reach).2 a1 true e1).2.2 rfl
  have h1 : Hist exOracle 0 exParams _ a1 := Hist.call (op := .anchorFirstPose) h trivial
    (by simp only [Agent.step, e1, ok_bind])
  have q1 : a1.graph.odometry = a.graph.odometry := by rw [k4]
  have q2 : a1.graph.privateLcs = a.graph.privateLcs := by rw [k4]
  have q4 : a1.graph.n = a.graph.n := by rw [k4]
  have q5 : a1.state = a.state := by rw [k4]
  obtain ⟨s, a2, e2, -⟩ := iterate_total (o := exOracle) (by decide) (agReach_inv h1.reach)
    (agReach_cache (by decide) h1.reach) (q5.trans hs)
    (by
      have := hG.noSelf
      unfold hasSelfLoop PoseGraph.localMeasurements at this ⊢
      rw [q1, q2]; exact this)
    (by
      have := hG.covered
      unfold posesCovered PoseGraph.localMeasurements at this ⊢
      rw [q1, q2, q4]; exact this)
    (fun c => absurd rfl c) (fun c => by cases c) true
  refine ⟨t, a, a1, a2, h, hk, hu, hw, e1, ?_, rfl, rfl, fun _ => exOpt_lawful, fun _ _ => rfl⟩
  unfold iterations
  simp only [foldl_cons, foldl_nil, e2, ok_bind, ok_bind']

/-- `C76_again`. -/
example : ∃ (t : List Ev) (a a' : Agent) (Q Q' G : DMat ℝ) (P0 : PArr ℝ), Hist exOracle 0 exParams t a ∧
    CarefulHist t ∧ a.graph.Q = some Q ∧ (0, P0) ∈ a.graph.priors ∧
    a.anchorFirstPoseWith exBuoy = ok (true, a') ∧ StepMatrices a' false Q' G := by
  obtain ⟨t, a, b, -, h, hk, hs, eb, -, -, hl, hn, hu, -, -, hG⟩ := exLone
  obtain ⟨-, sB, -⟩ := Agent.iterate_frame eb
  have bB := updating_book sB
  have hl : a.graph.sharedLcs = [] := bB.sharedLcs.symm.trans hl
  have hn : a.graph.n = 2 := bB.n.symm.trans hn
  clear eb sB bB
  obtain ⟨a1, -, -, e1, -, q1, q2, q3, q4, q5, P0, hP0⟩ := exMoor h.reach hG hl hn
  have h1 : Hist exOracle 0 exParams _ a1 := Hist.call (op := .anchorFirstPoseWith exBuoy) h
    ⟨rfl, rfl, rfl, rfl, rfl⟩ (by simp only [Agent.step, e1, ok_bind])
  have n1 : ¬ hasSelfLoop a1.graph := by
    have := hG.noSelf
    unfold hasSelfLoop PoseGraph.localMeasurements at this ⊢
    rw [q1, q2]; exact this
  have n2 : posesCovered a1.graph := by
    have := hG.covered
    unfold posesCovered PoseGraph.localMeasurements at this ⊢
    rw [q1, q2, q4]; exact this
  obtain ⟨s, a2, e2, hs2⟩ := iterate_total (o := exOracle) (by decide) (agReach_inv h1.reach)
    (agReach_cache (by decide) h1.reach) (q5.trans hs) n1 n2 (fun c => absurd rfl c) (fun c => by cases c) true
  have hst' : s = true := (hs2 rfl).2 (by
    rintro ⟨m, hm, -⟩
    have hm : m ∈ a1.graph.sharedLcs := hm
    rw [q3, hl] at hm; cases hm)
  subst hst'
  obtain ⟨Q, hQ⟩ := step_Q (agReach_inv h1.reach) rfl (q5.trans hs) e2
  have h2 : Hist exOracle 0 exParams _ a2 := Hist.call (op := .iterate true) h1 trivial
    (by simp only [Agent.step, e2, ok_bind])
  obtain ⟨f, sU, -⟩ := Agent.iterate_frame e2
  have bk := updating_book sU
  have b1 : a2.graph.odometry = a1.graph.odometry := bk.odometry
  have b2 : a2.graph.privateLcs = a1.graph.privateLcs := bk.privateLcs
  have b3 : a2.graph.sharedLcs = a1.graph.sharedLcs := bk.sharedLcs
  have b4 : a2.graph.n = a1.graph.n := bk.n
  have b5 : a2.graph.priors = a1.graph.priors := bk.priors
  have hc2 := agReach_cache (by decide) h2.reach
  obtain ⟨a3, Q', G, e3, hm, -⟩ := exMoor h2.reach
    ⟨(agReach_inv h2.reach).reach, by rw [b4, q4, hn]; omega, hc2.size, hc2.priors, by
      unfold hasSelfLoop PoseGraph.localMeasurements at n1 ⊢
      rw [b1, b2]; exact n1, by
      unfold posesCovered PoseGraph.localMeasurements at n2 ⊢
      rw [b1, b2, b4]; exact n2⟩ (b3.trans (q3.trans hl)) (b4.trans (q4.trans hn))
  refine ⟨_, a2, a3, Q, Q', G, P0, h2, ?_, hQ, by rw [b5]; exact hP0, e3, hm⟩
  intro x hx
  rcases List.mem_append.1 hx with c | c
  · rcases List.mem_append.1 c with c | c
    · exact hk x c
    · rw [List.mem_singleton.1 c]; exact hu
  · rw [List.mem_singleton.1 c]; trivial

end Dpgo.Props
