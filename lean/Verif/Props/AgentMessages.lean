import Verif.Lemmas.AgentDeliver

/-!
# Messages between agents and iterations with missing messages (C38, C39)
-/

namespace Dpgo.Props

open Res Spec PoseGraph

variable {o : AgentOracles} {ID : Nat} {p : AgentParams} {a a' : Agent}

/-! ## C38 what is stored -/

/-- **C38** (public poses): the stored pose is the last delivered one that counts and has not been
cleared. -/
theorem C38_stored {t : List Ev} (h : Hist o ID p t a) (k : PoseID) (P : PArr ℝ) :
    OMap.find? ltPoseID k a.neighborPoses = some P ↔
      Last (Delivers ID k P) (fun e => (∃ P', Delivers ID k P' e) ∨ Clears k e) t := by
  refine hist_ind (P := fun t a => OMap.find? ltPoseID k a.neighborPoses = some P ↔
    Last (Delivers ID k P) (fun e => (∃ P', Delivers ID k P' e) ∨ Clears k e) t) ?_ ?_ h
  · intro a e
    obtain ⟨X, g, YL, -, -, -, -, -, rfl⟩ := Agent.new_form e
    exact ⟨fun h => by simp [OMap.find?] at h, fun h => absurd h last_nil⟩
  · intro t a op a' hi hw e ih
    rw [last_snoc, ← ih]
    exact step_store hi hw e k P

/-- **C38** (auxiliary poses of the accelerated algorithm). -/
theorem C38_stored_aux {t : List Ev} (h : Hist o ID p t a) (k : PoseID) (P : PArr ℝ) :
    OMap.find? ltPoseID k a.neighborAuxPoses = some P ↔
      Last (DeliversAux ID k P) (fun e => (∃ P', DeliversAux ID k P' e) ∨ Clears k e) t := by
  refine hist_ind (P := fun t a => OMap.find? ltPoseID k a.neighborAuxPoses = some P ↔
    Last (DeliversAux ID k P) (fun e => (∃ P', DeliversAux ID k P' e) ∨ Clears k e) t) ?_ ?_ h
  · intro a e
    obtain ⟨X, g, YL, -, -, -, -, -, rfl⟩ := Agent.new_form e
    exact ⟨fun h => by simp [OMap.find?] at h, fun h => absurd h last_nil⟩
  · intro t a op a' hi hw e ih
    rw [last_snoc, ← ih]
    exact step_auxStore hi hw e k P

/-- **C38** (nothing else): every stored pose is a required pose of another robot, of the right size, and
is stored once. -/
theorem C38_required (h : AgReach o ID p a) {s : PoseDict ℝ}
    (hs : s = a.neighborPoses ∨ s = a.neighborAuxPoses) :
    OMap.Sorted ltPoseID s ∧
    ∀ k P, (k, P) ∈ s → Required ID a k ∧ k.robot ≠ ID ∧ ArrOk p.r p.d 1 P := by
  have hi := agReach_inv h
  have hst : StoreOk p.r p.d a.graph s := by
    rcases hs with rfl | rfl
    exacts [hi.nbr, hi.aux]
  refine ⟨hst.sorted, fun k P hk => ?_⟩
  obtain ⟨h1, h2⟩ := hst.mem _ hk
  have hb := C05_public_ids ID p.r p.d a.graph hi.reach
  obtain ⟨m, hm, hk'⟩ := (hb.2.1 k).1 h1
  refine ⟨⟨m, hm, hk'⟩, ?_, h2⟩
  intro c
  exact hb.2.2.2.2.2.2.2.2 (c ▸ (hb.2.2.1 _).2 ⟨m, hm, congrArg PoseID.robot hk'⟩)

/-- **C38** (the sender): "known to be initialised" is what the last report of that robot says. -/
theorem C38_known {t : List Ev} (h : Hist o ID p t a) (j : Nat) :
    KnownInitialized a j ↔ ∃ s, LastReport j s t ∧ s.state = .INITIALIZED := by
  unfold KnownInitialized
  simp only [teamStatus_spec h]

/-- **C38** (used in optimisation): the optimiser runs on a graph whose neighbour poses are the stored
ones and whose linear term is assembled from them. -/
theorem C38_used {accel : Bool} (e : a.updateX o true accel = ok (true, a')) :
    ∃ g Z res g' G, optimize (o.opt a.calls) a.params.localOpt g (if accel then a.Y.X else a.X.X) =
        ok (Z, res, g') ∧ a'.X.X = Z ∧
      g.neighborPoses = (if accel then a.neighborAuxPoses else a.neighborPoses) ∧
      g.G = some G ∧ g.constructG = ok (some G) := by
  rcases Agent.updateX_form e with ⟨c, -⟩ | ⟨-, -, -, g1, e1, -, ⟨c, -⟩ | ⟨-, Z, res, g2, e2, -, -, -, rfl⟩⟩
  · cases c
  · cases c
  · have hb := constructDataMatrices_book e1
    obtain ⟨b1, g3, e3, ⟨-, e4⟩ | ⟨-, c, -⟩⟩ := constructDataMatrices_ok e1
    · have hG : g3.G = none := by
        rcases ensureQ_ok e3 with ⟨Q, -, rfl, -⟩ | ⟨Q, -, -, rfl, -⟩ | ⟨-, -, rfl, -⟩ <;> rfl
      rcases ensureG_ok e4 with ⟨G, c, -⟩ | ⟨G, -, h1, rfl, -⟩ | ⟨-, -, -, c⟩
      · rw [hG] at c; cases c
      · refine ⟨_, Z, res, g2, G, e2, rfl, hb.neighborPoses, rfl, ?_⟩
        have : SameData g3 { g3 with G := some G } := by constructor <;> rfl
        rw [this.constructG, h1]
      · cases c
    · cases c

/-- A delivered pose is stored, and cleared again on request. -/
example : ∃ (a b c : Agent) (t u : List Ev), Hist exOracle 0 exParams t b ∧ Hist exOracle 0 exParams u c ∧
    OMap.find? ltPoseID ⟨1, 0⟩ a.neighborPoses = none ∧
    OMap.find? ltPoseID ⟨1, 0⟩ b.neighborPoses = some exSent ∧
    b.step exOracle .clearNeighborPoses = ok c ∧ OMap.find? ltPoseID ⟨1, 0⟩ c.neighborPoses = none := by
  obtain ⟨a, b, h1, h2, h3, h4, h5, -, h6, h7, -⟩ :=
    exDeliver exParams rfl rfl (by simp [exParams, AgentParams.default])
  obtain ⟨t, ht⟩ := agReach_hist h1
  have hb := ht.call (op := .updateNeighborPoses 1 exDict) exDict_wf h7
  have hc := hb.call (op := .clearNeighborPoses) trivial rfl
  refine ⟨a, b, _, _, _, hb, hc, by rw [h5]; rfl, ?_, rfl, rfl⟩
  rw [C38_stored hb, last_snoc]
  exact Or.inl h6

/-! ## C39 iterations without the needed poses -/

/-- **C39** (without acceleration) -/
theorem C39_plain (hd : 0 < p.d) (h : AgReach o ID p a) (hs : a.state = .INITIALIZED)
    (hp : p.acceleration = false) (hm : Lacks ID a a.neighborPoses) {s : Bool}
    (e : a.iterate o true = ok (s, a')) :
    s = false ∧ a'.X = a.X ∧ a'.status.readyToTerminate = false :=
  iterate_missing hd h hs (fun _ => hm) (by simp [hp]) e

/-- **C66**: an iteration of an initialised agent always returns; it returns true exactly if no needed pose
of an active neighbour is missing from the store it uses. -/
theorem C66_iterate (hd : 0 < p.d) (h : AgReach o ID p a) (hs : a.state = .INITIALIZED)
    (h1 : ¬ hasSelfLoop a.graph) (h2 : posesCovered a.graph)
    (hk : p.robust.costType ≠ .L2 → a.innerIter + 1 < 2 ^ 31)
    (ho : p.acceleration = true → 2 * p.numRobots % 2 ^ 32 ≠ 0 ∧ p.restartInterval ≠ 0) (doOpt : Bool) :
    ∃ s a', a.iterate o doOpt = ok (s, a') ∧ (doOpt = true → (s = true ↔
      ¬ Lacks ID a (if p.acceleration then a.neighborAuxPoses else a.neighborPoses))) := by
  have hi := agReach_inv h
  obtain ⟨s, a', e, hh⟩ := iterate_total (o := o) hd hi (agReach_cache hd h) hs h1 h2 hk ho doOpt
  refine ⟨s, a', e, fun c => ?_⟩
  rw [hh c]
  unfold stepMissing
  rw [missing_iff hi.reach]

/-- **C66** (not yet initialised): only the counters move. -/
theorem C66_waiting (h : AgReach o ID p a) (hs : a.state ≠ .INITIALIZED)
    (hk : p.robust.costType ≠ .L2 → a.innerIter + 1 < 2 ^ 31) (doOpt : Bool) :
    ∃ a', a.iterate o doOpt = ok (true, a') ∧ a' = { a with
      iterationNumber := (a.iterationNumber + 1) % 2 ^ 32
      innerIter := if p.robust.costType ≠ .L2 then a.innerIter + 1 else a.innerIter } := by
  have hi := agReach_inv h
  unfold Agent.iterate Agent.tick
  rw [hi.params]
  by_cases c : p.robust.costType ≠ .L2
  · rw [if_pos c]
    unfold incInt
    rw [if_pos (hk c)]
    simp only [ok_bind, if_neg hs, if_pos c]
    exact ⟨_, rfl, rfl⟩
  · rw [if_neg c]
    simp only [ok_bind, if_neg hs, if_neg c]
    exact ⟨_, rfl, rfl⟩

/-- The example agent before and after the pose of robot 1 has arrived. -/
example : ∃ (a b a' b' : Agent), AgReach exOracle 0 exParams a ∧ AgReach exOracle 0 exParams b ∧
    a.state = .INITIALIZED ∧ Lacks 0 a a.neighborPoses ∧ a.iterate exOracle true = ok (false, a') ∧
    b.state = .INITIALIZED ∧ ¬ Lacks 0 b b.neighborPoses ∧ b.iterate exOracle true = ok (true, b') := by
  obtain ⟨a, b, h1, h2, h3, h4, h5, -, h6, h7, -⟩ :=
    exDeliver exParams rfl rfl (by simp [exParams, AgentParams.default])
  have hb := agReach_snoc (op := .updateNeighborPoses 1 exDict) h1 exDict_wf h7
  have hG : ExGraph b.graph := h3.same
    ((Agent.step_quiet (agReach_inv h1) h7 (by rw [h2]; simp)).topology fun _ h => h)
  have hbs : b.state = .INITIALIZED := by obtain ⟨_, -, -, -, -, -, h⟩ := h6; exact h
  have hl : Lacks 0 a a.neighborPoses := exLacks h1 h3 h4 h5
  have hnl : ¬ Lacks 0 b b.neighborPoses := by
    rintro ⟨k, hk, -, hP⟩
    rw [← required_iff (agReach_inv hb)] at hk
    unfold PoseGraph.requireNeighborPose at hk
    rw [hG.nbr, OSet.contains_iff strictTotal_ltPoseID, List.mem_singleton] at hk
    subst hk
    have := (step_store (agReach_inv h1) (op := .updateNeighborPoses 1 exDict) exDict_wf h7 ⟨1, 0⟩
      exSent).2 (Or.inl h6)
    exact hP _ (OMap.mem_of_find? strictTotal_ltPoseID this)
  obtain ⟨s, a', e, hs⟩ := C66_iterate (by decide) h1 h2 h3.noSelf h3.covered
    (by simp [exParams, AgentParams.default, RobustParams.default]) (by simp [exParams, AgentParams.default]) true
  obtain ⟨s', b', e', hs'⟩ := C66_iterate (by decide) hb hbs hG.noSelf hG.covered
    (by simp [exParams, AgentParams.default, RobustParams.default]) (by simp [exParams, AgentParams.default]) true
  have hs : s = true ↔ ¬ Lacks 0 a a.neighborPoses := hs rfl
  have hs' : s' = true ↔ ¬ Lacks 0 b b.neighborPoses := hs' rfl
  refine ⟨a, b, a', b', h1, hb, h2, hl, ?_, hbs, hnl, ?_⟩
  · cases s with
    | false => exact e
    | true => exact absurd hl (hs.1 rfl)
  · rw [hs'.2 hnl] at e'; exact e'

/-- **C39** (with acceleration, partial): holds if an auxiliary pose is missing and, in an iteration that
restarts the acceleration, a public pose is missing as well.  Missing from the full claim: restarting
iterations in which only one of the two stores is incomplete (see `C39_violated`). -/
theorem C39_accelerated_partial (hd : 0 < p.d) (h : AgReach o ID p a) (hs : a.state = .INITIALIZED)
    (hp : p.acceleration = true) (hm : Lacks ID a a.neighborAuxPoses)
    (hr : RestartsNext p a → Lacks ID a a.neighborPoses) {s : Bool}
    (e : a.iterate o true = ok (s, a')) :
    s = false ∧ a'.X = a.X ∧ a'.status.readyToTerminate = false :=
  iterate_missing hd h hs (by rintro (c | c); · { rw [hp] at c; cases c }; exact hr c) (fun _ => hm) e

/-- **C39** (the estimate in a restarting iteration): if a public pose is missing, the estimate is left
unchanged even if no auxiliary pose is missing. -/
theorem C39_restart (hd : 0 < p.d) (h : AgReach o ID p a) (hs : a.state = .INITIALIZED)
    (hp : p.acceleration = true) (hr : RestartsNext p a) (hm : Lacks ID a a.neighborPoses) {s : Bool}
    (e : a.iterate o true = ok (s, a')) : a'.X = a.X ∧ a'.XPrev = a.X :=
  iterate_reverts hd h hs hp hr hm e

/-- An accelerated agent that restarts at every iteration. -/
noncomputable def exAccel : AgentParams :=
  { exParams with acceleration := true, restartInterval := 1, minConvergenceRatio := 0 }

/-- The accelerated agent with nothing delivered. -/
example : ∃ (a a' : Agent), AgReach exOracle 0 exAccel a ∧ a.state = .INITIALIZED ∧ RestartsNext exAccel a ∧
    Lacks 0 a a.neighborAuxPoses ∧ Lacks 0 a a.neighborPoses ∧
    a.iterate exOracle true = ok (false, a') := by
  obtain ⟨a, b, h1, h2, h3, h4, -⟩ :=
    exDeliver exAccel rfl rfl (by simp [exAccel, exParams, AgentParams.default])
  have hr := agReach_snoc (op := .clearNeighborPoses) h1 trivial rfl
  have hl := exLacks hr h3 h4 rfl
  obtain ⟨s, a', e', hs⟩ := C66_iterate (by decide) hr h2 h3.noSelf h3.covered
    (by simp [exAccel, exParams, AgentParams.default, RobustParams.default])
    (by intro; decide) true
  refine ⟨_, a', hr, h2, show u32 _ % 1 = 0 from Nat.mod_one _, hl, hl, ?_⟩
  cases s with
  | false => exact e'
  | true => exact absurd hl ((hs rfl).1 rfl)

/-- **C39 fails** with acceleration: in an iteration that restarts the acceleration, the auxiliary poses
have arrived but a needed public pose has not.  The iteration does nothing, yet it returns true and the
agent reports itself ready to terminate. -/
theorem C39_violated : ∃ (a a' : Agent), AgReach exOracle 0 exAccel a ∧ a.state = .INITIALIZED ∧
    Lacks 0 a a.neighborPoses ∧ a.iterate exOracle true = ok (true, a') ∧ a'.X = a.X ∧
    a'.status.readyToTerminate = true := by
  obtain ⟨a, b, h1, h2, h3, h4, h5, -, -, -, h6⟩ :=
    exDeliver exAccel rfl rfl (by simp [exAccel, exParams, AgentParams.default])
  obtain ⟨c, e, hdel, hc⟩ := h6 rfl
  have hr := agReach_snoc (op := .updateAuxNeighborPoses 1 exDict) h1 exDict_wf e
  have hi := agReach_inv hr
  have g1 : c.state = .INITIALIZED := by rw [hc]; exact h2
  have g2 : c.graph = a.graph := by rw [hc]
  have g3 : c.neighborPoses = [] := by rw [hc]; exact h5
  have hG : ExGraph c.graph := by rw [g2]; exact h3
  have hact : c.graph.isNeighborActive 1 = ok true := by rw [g2]; exact h4
  have hl := exLacks hr hG hact g3
  have hnl : ¬ Lacks 0 c c.neighborAuxPoses := by
    rintro ⟨k, hk, -, hP⟩
    rw [← required_iff hi] at hk
    unfold PoseGraph.requireNeighborPose at hk
    rw [hG.nbr, OSet.contains_iff strictTotal_ltPoseID, List.mem_singleton] at hk
    subst hk
    have := (step_auxStore (agReach_inv h1) (op := .updateAuxNeighborPoses 1 exDict) exDict_wf e ⟨1, 0⟩
      exSent).2 (Or.inl hdel)
    exact hP _ (OMap.mem_of_find? strictTotal_ltPoseID this)
  obtain ⟨s, a', e', hs⟩ := C66_iterate (by decide) hr g1 hG.noSelf hG.covered
    (by simp [exAccel, exParams, AgentParams.default, RobustParams.default])
    (by intro; decide) true
  have hs : s = true ↔ ¬ Lacks 0 c c.neighborAuxPoses := hs rfl
  rw [hs.2 hnl] at e'
  obtain ⟨k1, k2⟩ := C39_restart (by decide) hr g1 rfl
    (show u32 _ % 1 = 0 from Nat.mod_one _) hl e'
  refine ⟨c, a', hr, g1, hl, e', k1, ?_⟩
  exact ready_of_still hr g1 e' (k1.trans k2.symm) rfl (by norm_num [exAccel, exParams, AgentParams.default])
    (by simp [exAccel])

end Dpgo.Props
