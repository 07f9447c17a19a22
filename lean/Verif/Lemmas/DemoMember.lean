import Verif.Model.Demo
import Verif.Lemmas.TeamInv
import Verif.Lemmas.AgentFrame
import Verif.Lemmas.AgentIterate
import Verif.Lemmas.AgentMessages
import Verif.Spec.Optimizer
import Verif.Props.AgentShared

/-! # An agent of the demo -/

namespace Dpgo

open Res Spec PoseGraph

theorem TeamInv.updating {r d i : Nat} {E : List (Meas ℝ)} {g g' : PoseGraph ℝ}
    (h : TeamInv r d E i g) (hs : Steps Agent.updating g g') : TeamInv r d E i g' := by
  have b := updating_book hs
  have key : Fresh g' ∧ Reachable i r d g' ∧ g'.useInactive = false := by
    refine hs.induct (P := fun x => Fresh x ∧ Reachable i r d x ∧ x.useInactive = false) ?_
      ⟨h.fresh, h.reach, h.use⟩
    rintro x op y ⟨hf, hr, hu⟩ hS e
    have bk := updating_book (Steps.one hS e)
    refine ⟨hf.step hr ?_ e, Reachable.snoc hr ?_ e, bk.useInactive.trans hu⟩
    · cases op <;> simp only [Agent.updating] at hS <;> simp [coherentOp, hu]
    · cases op <;> simp only [Agent.updating] at hS <;> exact trivial
  refine ⟨key.2.1, b.id.trans h.id_eq, b.r.trans h.r_eq, b.d.trans h.d_eq, key.1, b.priors.trans h.priors,
    key.2.2, ?_, ?_⟩
  · intro j hj
    have := h.active j (by rw [← show g'.nbrRobots = g.nbrRobots from b.nbrRobots]; exact hj)
    rw [← this]
    unfold PoseGraph.isNeighborActive PoseGraph.hasNeighbor
    rw [b.nbrRobots, b.nbrActive]
  · rw [← h.edges]
    unfold PoseGraph.measurements
    rw [b.odometry, b.privateLcs, b.sharedLcs]

/-- What holds of agent number `i` once the optimisation has begun; `k` is its iteration number. -/
structure Member (o : AgentOracles) (p : AgentParams) (E : List (Meas ℝ)) (sh : Nat → Nat) (i k : Nat)
    (a : Agent) : Prop where
  reach : AgReach o i p a
  team : TeamInv p.r p.d E i a.graph
  state : a.state = .INITIALIZED
  inst : a.instanceNumber = 0
  iter : a.iterationNumber = k
  lift : ∃ Y, a.YLift = some Y
  noSelf : ¬ hasSelfLoop a.graph
  covered : posesCovered a.graph
  size : a.graph.n = sh i

section
variable {o : AgentOracles} {p : AgentParams} {E : List (Meas ℝ)} {sh : Nat → Nat} {i k : Nat} {a a' : Agent}

theorem Member.id (h : Member o p E sh i k a) : a.id = i := (agReach_inv h.reach).id

theorem Member.params (h : Member o p E sh i k a) : a.params = p := (agReach_inv h.reach).params

theorem Member.arr (h : Member o p E sh i k a) : ArrOk p.r p.d (sh i) a.X := by
  rw [← h.size]; exact (Props.C36_sizes h.reach h.state).1

theorem Member.iterate_any (hd : 0 < p.d) (hl : p.robust.costType ≠ .L2 → a.innerIter + 1 < 2 ^ 31)
    (ho : p.acceleration = true → AccelOk p) (h : Member o p E sh i k a) (doOpt : Bool) :
    ∃ s a', a.iterate o doOpt = ok (s, a') ∧ Member o p E sh i (u32 (k + 1)) a' ∧
      a'.neighborPoses = a.neighborPoses ∧ (p.acceleration = false → doOpt = false → a'.X = a.X) := by
  obtain ⟨s, a', e, -⟩ := iterate_total (o := o) hd (agReach_inv h.reach) (agReach_cache hd h.reach) h.state
    h.noSelf h.covered hl ho doOpt
  obtain ⟨f, st, -, -⟩ := Agent.iterate_frame e
  have t := st.topology Agent.updating_quiet
  refine ⟨s, a', e, ⟨agReach_snoc (op := .iterate doOpt) h.reach trivial ?_, h.team.updating st, ?_, ?_, ?_,
    ?_, self_topo t h.noSelf, covered_topo t h.covered, t.n.trans h.size⟩, ?_, ?_⟩
  · simp only [Agent.step, e, ok_bind]
  · rw [f]; exact h.state
  · rw [f]; exact h.inst
  · rw [f, ← h.iter]
  · rw [f]; exact h.lift
  · rw [f]
  · intro hp hdo
    subst hdo
    obtain ⟨b, hb, hc⟩ := Agent.iterate_form e
    obtain ⟨c, -, -, rfl⟩ := Agent.tick_form hb
    rcases hc with ⟨-, hc⟩ | ⟨c, -⟩
    · obtain ⟨b', c', hu, hst, rfl⟩ := Agent.iterateBody_form hc
      rcases hst with ⟨c, -⟩ | ⟨-, rfl⟩
      · cases c
      rcases hu with ⟨c, -⟩ | ⟨-, hu⟩
      · rw [show a.params.acceleration = p.acceleration by rw [h.params], hp] at c
        cases c
      · rcases Agent.updateX_form hu with ⟨-, -, rfl⟩ | ⟨c, -⟩
        · rfl
        · cases c
    · exact absurd h.state c

theorem Member.iterate (hd : 0 < p.d) (hl : p.robust.costType = .L2)
    (ho : p.acceleration = true → AccelOk p) (h : Member o p E sh i k a) (doOpt : Bool) :
    ∃ s a', a.iterate o doOpt = ok (s, a') ∧ Member o p E sh i (u32 (k + 1)) a' ∧
      a'.neighborPoses = a.neighborPoses ∧ (p.acceleration = false → doOpt = false → a'.X = a.X) :=
  h.iterate_any hd (fun c => absurd hl c) ho doOpt

/-- An iteration of the selected agent does not increase the cost of the team. -/
theorem Member.descent (hd : 0 < p.d) (hp : p.acceleration = false) (hm : p.localOpt.method = .RTR)
    (ho : ∀ c, LawfulRtr (o.opt c)) (h : Member o p E sh i k a) {X : Joint ℝ} (hX : X i = a.X.X)
    (hup : upToDate p.r p.d X a.graph a.neighborPoses) {s : Bool} (e : a.iterate o true = ok (s, a')) :
    teamCost p.r p.d E (Function.update X i a'.X.X) ≤ teamCost p.r p.d E X := by
  have stay : ∀ M : DMat ℝ, M = a.X.X → 
      teamCost p.r p.d E (Function.update X i M) ≤ teamCost p.r p.d E X := by
    intro M hM
    rw [hM, ← hX, Function.update_eq_self]
  obtain ⟨b, hb, hc⟩ := Agent.iterate_form e
  obtain ⟨c, -, -, rfl⟩ := Agent.tick_form hb
  rcases hc with ⟨-, hc⟩ | ⟨-, -, rfl⟩
  swap
  · exact stay _ rfl
  obtain ⟨b', c', hu, hst, rfl⟩ := Agent.iterateBody_form hc
  have hX' : (c'.publish true).X = b'.X := by
    rcases hst with ⟨-, hst⟩ | ⟨c, -⟩
    · obtain ⟨_, _, -, -, _, -, rfl⟩ := Agent.iterateStatus_form hst
      rfl
    · cases c
  rw [hX']
  rcases hu with ⟨c, -⟩ | ⟨-, hu⟩
  · rw [show a.params.acceleration = p.acceleration by rw [h.params], hp] at c
    cases c
  rcases Agent.updateX_form hu with ⟨c, -⟩ | ⟨-, -, -, g1, hg, st, hr⟩
  · cases c
  simp only [Bool.false_eq_true, if_false] at hg hr st
  rcases hr with ⟨-, rfl⟩ | ⟨rfl, Z, res, g2, ho', -, -, -, rfl⟩
  · exact stay _ rfl
  have t1 : TeamInv p.r p.d E i g1 := h.team.updating st
  have bk := PoseGraph.constructDataMatrices_book hg
  have hnp : g1.neighborPoses = a.neighborPoses := bk.neighborPoses
  rw [show a.params.localOpt = p.localOpt by rw [h.params]] at ho'
  obtain ⟨Q, G, g3, e0, -, -, -, -, -, -, -, -, -, -, -, -, -, ⟨g4, e1⟩, -⟩ := optimize_ok ho'
  have hle := optimize_rtr (ho _) hm ho'
  rw [← hX] at e0
  have key := t1.change (two_ne_zero) hd X Z (by
    intro q hq
    rw [show g1.nbrShared = a.graph.nbrShared from bk.nbrShared] at hq
    rw [hnp]; exact hup q hq) e0 e1
  show teamCost p.r p.d E (Function.update X i Z) ≤ _
  linarith

end

end Dpgo
