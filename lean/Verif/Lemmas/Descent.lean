import Verif.Lemmas.AgentAccel
import Verif.Lemmas.AgentFresh
import Verif.Spec.Descent

/-! # Steps do not increase the cost -/

namespace Dpgo

open Res Spec PoseGraph

variable {o : AgentOracles} {ID : Nat} {p : AgentParams} {C : DMat ℝ → Bool} {a a' : Agent}

/-- What a step needs of the pose graph and the stored poses. -/
structure StepReady (ID : Nat) (p : AgentParams) (a : Agent) : Prop where
  reach : Reachable ID p.r p.d a.graph
  unused : a.graph.useInactive = false
  priors : ∀ q ∈ a.graph.priors, PoseOk p.r p.d q.2
  nbr : StoreOk p.r p.d a.graph a.neighborPoses
  fresh : Fresh a.graph

theorem stepReady (hd : 0 < p.d) (h : AgReach o ID p a) (hf : Fresh a.graph) : StepReady ID p a :=
  have hi := agReach_inv h
  have hc := agReach_cache hd h
  ⟨hi.reach, hc.unused, hc.priors, hi.nbr, hf⟩

theorem updating_sameData {g g' : PoseGraph ℝ} (d : PoseDict ℝ) (h : Steps Agent.updating g g') :
    SameData { g with neighborPoses := d } { g' with neighborPoses := d } := by
  have k := updating_book h
  exact ⟨k.id, k.r, k.d, k.n, k.odometry, k.privateLcs, k.sharedLcs, k.nbrRobots, k.nbrActive, rfl,
    k.useInactive, k.priors⟩

/-- The step of `updateX` without acceleration. -/
theorem updateX_descent (hd : 0 < p.d) (h : StepReady ID p a) (ho : LawfulRtr (o.opt a.calls))
    (hm : a.params.localOpt.method = .RTR) {doOpt s : Bool} (e : a.updateX o doOpt false = ok (s, a')) :
    seenCost a a'.X.X ≤ seenCost a a.X.X := by
  rcases Agent.updateX_form e with ⟨-, -, rfl⟩ | ⟨-, -, -, g1, hg, st, hr⟩
  · exact le_rfl
  simp only [Bool.false_eq_true, if_false] at hg hr
  rcases hr with ⟨-, rfl⟩ | ⟨rfl, Z, res, g2, ho', -, -, -, rfl⟩
  · exact le_rfl
  have hr : Reachable ID p.r p.d (a.graph.setNeighborPoses a.neighborPoses) :=
    Reachable.snoc (op := .setNeighborPoses a.neighborPoses) h.reach trivial rfl
  have hP : PosesOk (a.graph.setNeighborPoses a.neighborPoses) := by
    obtain ⟨-, dr, dd, -⟩ := reach_dims hr
    refine ⟨fun q hq => ?_, fun q hq => ?_⟩
    · rw [dr, dd]; exact PriorOk (h.nbr.mem q hq).2
    · rw [dr, dd]; exact h.priors q hq
  obtain ⟨hb, hfg, hg1⟩ := Fresh.data hd hr hP (SameData.refl _)
    (h.fresh.neighborPoses h.unused a.neighborPoses) rfl hg
  have hsame : SameData { a.graph with neighborPoses := a.neighborPoses } g1 := by
    generalize g1.Q = q, g1.G = l at hg1
    rw [hg1]; constructor <;> rfl
  have hrg : Reachable ID p.r p.d g1 := Reachable.snoc (op := .constructDataMatrices) hr trivial
    (by simp only [PoseGraph.step, hg, ok_bind])
  have hmg : ¬ posesMissing g1 := by
    generalize g1.Q = q, g1.G = l at hg1
    rw [hg1]; exact hb.1 rfl
  obtain ⟨-, -, hgd, -⟩ := reach_dims hrg
  have hd1 : 0 < g1.d := by rw [hgd]; exact hd
  obtain ⟨Q, G, g3, e0, eg, cQ, cG, -, -, -, -, -, -, -, -, -, -, ⟨g4, e1⟩, -⟩ := optimize_ok ho'
  have hle := optimize_rtr ho hm ho'
  have f0 := objective_fresh two_ne_zero hrg hd1 hfg hmg e0
  obtain ⟨s3, -, f3, r3⟩ := problemF_keeps hrg hfg e0
  have hm3 : ¬ posesMissing g3 := by rw [eg]; exact hmg
  have f1 := objective_fresh two_ne_zero r3 (by rw [s3.d]; exact hd1) f3 hm3 e1
  have z3 : zeroEst g3 = zeroEst g1 := by unfold zeroEst; rw [s3.r, s3.d, s3.n]
  rw [z3, s3.graphCost, s3.graphCost] at f1
  have k0 := hsame.graphCost a.X.X
  have k1 := hsame.graphCost Z
  show graphCost { a.graph with neighborPoses := a.neighborPoses } Z ≤
    graphCost { a.graph with neighborPoses := a.neighborPoses } a.X.X
  linarith

/-- The cost as seen after an iteration is the cost as seen before it. -/
theorem iterate_seen {doOpt s : Bool} (e : a.iterate o doOpt = ok (s, a')) (X : DMat ℝ) :
    seenCost a' X = seenCost a X := by
  obtain ⟨f, st, -, -⟩ := Agent.iterate_frame e
  have hn : a'.neighborPoses = a.neighborPoses := by rw [f]
  unfold seenCost
  rw [hn]
  exact (updating_sameData a.neighborPoses st).graphCost X

/-- An iteration without acceleration. -/
theorem iterate_descent (hd : 0 < p.d) (h : StepReady ID p a) (hp : a.params.acceleration = false)
    (ho : ∀ c, LawfulRtr (o.opt c)) (hm : a.params.localOpt.method = .RTR) {doOpt s : Bool}
    (e : a.iterate o doOpt = ok (s, a')) : seenCost a a'.X.X ≤ seenCost a a.X.X := by
  obtain ⟨b, hb, hc⟩ := Agent.iterate_form e
  obtain ⟨c, -, -, rfl⟩ := Agent.tick_form hb
  rcases hc with ⟨-, hc⟩ | ⟨-, -, rfl⟩
  swap
  · exact le_rfl
  obtain ⟨b', c', hu, hst, rfl⟩ := Agent.iterateBody_form hc
  have hX' : (c'.publish doOpt).X = b'.X := by
    rcases hst with ⟨-, hst⟩ | ⟨-, rfl⟩
    · obtain ⟨_, _, -, -, _, -, rfl⟩ := Agent.iterateStatus_form hst
      rfl
    · rfl
  rw [hX']
  rcases hu with ⟨c, -⟩ | ⟨-, hu⟩
  · have c : a.params.acceleration = true := c
    rw [hp] at c; cases c
  · exact updateX_descent (a := { a with
      iterationNumber := u32 (a.iterationNumber + 1), innerIter := c, XPrev := a.X }) hd
      ⟨h.reach, h.unused, h.priors, ⟨h.nbr.sorted, h.nbr.mem⟩, h.fresh⟩ (ho _) hm hu

theorem updating_fresh {g g' : PoseGraph ℝ} (hr : Reachable ID p.r p.d g) (hu : g.useInactive = false)
    (hf : Fresh g) (h : Steps Agent.updating g g') : Fresh g' ∧ Reachable ID p.r p.d g' := by
  have := h.induct (P := fun g => Fresh g ∧ Reachable ID p.r p.d g ∧ g.useInactive = false) ?_ ⟨hf, hr, hu⟩
  · exact ⟨this.1, this.2.1⟩
  rintro x op y ⟨h1, h2, h3⟩ hS e
  have k : coherentOp x op := by
    cases op <;> simp [Agent.updating] at hS <;> simp [coherentOp, h3]
  have w : OpWF op := by cases op <;> simp [Agent.updating] at hS <;> trivial
  refine ⟨h1.step h2 k e, Reachable.snoc h2 w e, ?_⟩
  have := (updating_book (Steps.one (S := Agent.updating) hS e)).useInactive
  exact this.trans h3

/-- An iteration that restarts the acceleration. -/
theorem iterate_restart_descent (hd : 0 < p.d) (h : StepReady ID p a) (hs : a.state = .INITIALIZED)
    (hp : a.params.acceleration = true) (hr : RestartsNext a.params a)
    (ho : ∀ c, LawfulRtr (o.opt c)) (hm : a.params.localOpt.method = .RTR) {doOpt s : Bool}
    (e : a.iterate o doOpt = ok (s, a')) : seenCost a a'.X.X ≤ seenCost a a.X.X := by
  obtain ⟨g, k, s', b, e', hX, st⟩ := iterate_restart_plain hs hp hr e
  obtain ⟨hf, hg⟩ := updating_fresh h.reach h.unused h.fresh st
  have bk := updating_book st
  have := iterate_descent (a := { a with params := plain a.params, graph := g, calls := k }) hd
    ⟨hg, bk.useInactive.trans h.unused, by
      intro q hq
      rw [show g.priors = a.graph.priors from bk.priors] at hq
      exact h.priors q hq, ⟨h.nbr.sorted, by
      intro q hq
      have := h.nbr.mem q hq
      refine ⟨?_, this.2⟩
      show q.1 ∈ g.nbrShared
      rw [show g.nbrShared = a.graph.nbrShared from bk.nbrShared]
      exact this.1⟩, hf⟩ rfl ho hm e'
  rw [← hX]
  have k := fun X => (updating_sameData a.neighborPoses st).graphCost X
  unfold seenCost at this ⊢
  rw [k, k] at this
  exact this

end Dpgo
