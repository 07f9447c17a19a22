import Verif.Lemmas.AgentHist
import Verif.Lemmas.Solver

/-! # The cached matrices of an agent's pose graph -/

namespace Dpgo

open Res Spec PoseGraph

/-- Calls an agent makes on its pose graph; `A`: being initialised. -/
def agentCalls (r d : Nat) (A : Prop) : PGOp ℝ → Prop
  | .addMeasurement m => ¬ A ∧ MeasWF m
  | .setMeasurements ms => ¬ A ∧ ∀ m ∈ ms, MeasWF m
  | .reset => True
  | .setPrior _ X => PoseOk r d X
  | .setNeighborActive _ _ => True
  | .writeWeight _ _ _ _ => True
  | .clearDataMatrices => A
  | .quadraticMatrix => A
  | .linearMatrix => A
  | .constructDataMatrices => A
  | .hasPreconditioner _ => A
  | .setNeighborPoses _ => A
  | _ => False

theorem weighting_calls {r d : Nat} {A : Prop} (op : PGOp ℝ) (h : Agent.weighting op) :
    agentCalls r d A op := by
  cases op <;> simp [Agent.weighting, agentCalls] at h ⊢

theorem updating_calls {r d : Nat} {A : Prop} (hA : A) (op : PGOp ℝ) (h : Agent.updating op) :
    agentCalls r d A op := by
  cases op <;> simp [Agent.updating, agentCalls] at h ⊢ <;> exact hA

variable {o : AgentOracles} {ID : Nat} {p : AgentParams} {a a' : Agent}

theorem PriorOk {r d : Nat} {P : PArr ℝ} (h : ArrOk r d 1 P) : PoseOk r d P :=
  ⟨h.2.2.2.1, by rw [h.2.2.2.2, Nat.mul_one]⟩

/-- The calls one agent call makes on the pose graph (of a new graph, for `setMeasurements`). -/
theorem Agent.step_calls (h : AgInv ID p a) {op : AgOp} (hw : AgOpWF op) (e : a.step o op = ok a') :
    ∃ g0, (g0 = a.graph ∨ (a.state = .WAIT_FOR_DATA ∧ PoseGraph.new ID p.r p.d = ok g0)) ∧
      Steps (agentCalls p.r p.d (a.state = .INITIALIZED)) g0 a'.graph := by
  cases op with
  | addMeasurement m =>
    rcases addMeasurement_form e with ⟨-, rfl⟩ | ⟨c, g, hg, rfl⟩
    · exact ⟨_, Or.inl rfl, .refl _⟩
    · exact ⟨_, Or.inl rfl, Steps.one (op := .addMeasurement m)
        ⟨by rw [c]; decide, hw⟩ hg⟩
  | setMeasurements x y z =>
    obtain ⟨c, -, ⟨-, rfl⟩ | ⟨-, g0, g', hg0, hg, rfl⟩⟩ := setMeasurements_form e
    · exact ⟨_, Or.inl rfl, .refl _⟩
    · rw [h.id, h.r, h.d] at hg0
      exact ⟨g0, Or.inr ⟨c, hg0⟩, Steps.one (op := .setMeasurements (x ++ y ++ z))
        ⟨by rw [c]; decide, hw⟩ hg⟩
  | reset =>
    refine ⟨_, Or.inl rfl, ?_⟩
    rw [reset_form e]
    exact Steps.one (op := .reset) trivial rfl
  | iterate b =>
    refine ⟨_, Or.inl rfl, ?_⟩
    simp only [Agent.step, bind_eq_ok] at e
    obtain ⟨⟨s, c⟩, hc, e⟩ := e
    cases e
    by_cases hi : a.state = .INITIALIZED
    · exact (iterate_frame hc).2.1.mono (updating_calls hi)
    · obtain ⟨b, hb, ⟨c, -⟩ | ⟨-, -, rfl⟩⟩ := iterate_form hc
      · exact absurd c hi
      · obtain ⟨k, -, -, rfl⟩ := tick_form hb
        exact .refl _
  | updateMeasurementWeights =>
    refine ⟨_, Or.inl rfl, ?_⟩
    rcases updateMeasurementWeights_form h.reach e with ⟨-, rfl⟩ | ⟨hi, ps, g, b, -, -, hs, -, hb, rfl⟩
    · exact .refl _
    · have h1 : Steps (agentCalls p.r p.d (a.state = .INITIALIZED)) a.graph g.clearDataMatrices :=
        (hs.mono weighting_calls).trans (Steps.one (op := .clearDataMatrices) hi rfl)
      rw [resync_frame]
      rcases resetTrajectory_form hb with ⟨-, rfl⟩ | ⟨-, -, X, -, rfl⟩ <;> exact h1
  | init T => exact ⟨_, Or.inl rfl, (init_frame h.reach e).2.mono weighting_calls⟩
  | initializeInGlobalFrame T =>
    exact ⟨_, Or.inl rfl, (initGlobal_frame h.reach e).2.mono weighting_calls⟩
  | updateNeighborPoses n dict =>
    exact ⟨_, Or.inl rfl, (updateNeighborPoses_frame h.reach e).2.mono weighting_calls⟩
  | initializeRobustOptimization =>
    obtain ⟨ps, g', -, -, hg, rfl⟩ := initializeRobustOptimization_form h.reach e
    exact ⟨_, Or.inl rfl, hg.mono weighting_calls⟩
  | setMeasurementWeight s d w f =>
    simp only [Agent.step, bind_eq_ok] at e
    obtain ⟨⟨b, c⟩, hc, e⟩ := e
    cases e
    obtain ⟨g', hg, rfl⟩ := setMeasurementWeight_form hc
    exact ⟨_, Or.inl rfl, Steps.one (op := .writeWeight s d w f) trivial hg⟩
  | setRobotActive rid b =>
    rcases setRobotActive_form e with ⟨-, rfl⟩ | ⟨-, -, g, hg, rfl⟩
    · exact ⟨_, Or.inl rfl, .refl _⟩
    · exact ⟨_, Or.inl rfl, Steps.one (op := .setNeighborActive rid b) trivial hg⟩
  | anchorFirstPose =>
    simp only [Agent.step, bind_eq_ok] at e
    obtain ⟨⟨b, c⟩, hc, e⟩ := e
    cases e
    unfold Agent.anchorFirstPose at hc
    split at hc
    · simp only [bind_eq_ok] at hc
      obtain ⟨P, hP, M, hM, P', hP', g', hg, hc⟩ := hc
      cases hc
      obtain ⟨-, hr, hd, hrd⟩ := h.dims
      unfold Agent.relaxationRank Agent.dimension at hP
      rw [hr, hd] at hP
      have hok := make_arr hrd hP
      obtain ⟨m1, m2, rfl⟩ := setData_form hP'
      have := data_arr hok m1 m2
      exact ⟨_, Or.inl rfl, Steps.one (op := .setPrior 0 _) (PriorOk this) hg⟩
    · cases hc
      exact ⟨_, Or.inl rfl, .refl _⟩
  | anchorFirstPoseWith P =>
    simp only [Agent.step, bind_eq_ok] at e
    obtain ⟨⟨b, c⟩, hc, e⟩ := e
    cases e
    obtain ⟨-, g', hg, rfl⟩ := anchorFirstPoseWith_form hc
    refine ⟨_, Or.inl rfl, Steps.one (op := .setPrior 0 P) ?_ hg⟩
    obtain ⟨-, hr, hd, -⟩ := h.dims
    have hP : ArrOk P.r P.d 1 P := hw
    have hg' := hg
    simp only [PoseGraph.step, setPrior, bind_eq_ok, check_eq_ok, exists_and_left, exists_const,
      beq_iff_eq, hr, hd] at hg'
    obtain ⟨-, e1, e2, -⟩ := hg'
    rw [← e1, ← e2] at hP
    exact PriorOk hP
  | _ =>
    refine ⟨_, Or.inl rfl, ?_⟩
    have f := congrArg Agent.graph (Agent.step_frame h e)
    rw [f]
    exact .refl _

/-- Invariant of the caches of an agent's pose graph. -/
structure AgCache (p : AgentParams) (a : Agent) : Prop where
  idle : a.state ≠ .INITIALIZED → uncached a.graph
  size : ∀ Q, a.graph.Q = some Q → Q.rows = (p.d + 1) * a.graph.n ∧ Q.cols = (p.d + 1) * a.graph.n
  priors : ∀ q ∈ a.graph.priors, PoseOk p.r p.d q.2
  unused : a.graph.useInactive = false

theorem reset_parts (g : PoseGraph ℝ) : uncached g.reset ∧ g.reset.priors = [] ∧
    g.reset.useInactive = g.useInactive := by
  refine ⟨⟨?_, ?_, ?_⟩, ?_, ?_⟩ <;>
  simp only [PoseGraph.reset, PoseGraph.clearNeighborPoses, clearDataMatrices, clearPriors,
    clearQuadraticMatrix, clearLinearMatrix]

theorem setNeighborActive_parts {g g' : PoseGraph ℝ} {nid : Nat} {b : Bool}
    (e : g.setNeighborActive nid b = ok g') :
    (uncached g → uncached g') ∧ g'.priors = g.priors ∧ g'.useInactive = g.useInactive := by
  unfold setNeighborActive at e
  split at e
  · cases e; exact ⟨fun h => h, rfl, rfl⟩
  · split at e
    · cases e
    · simp only at e
      split at e <;> cases e
      · exact ⟨fun _ => ⟨rfl, rfl, rfl⟩, rfl, rfl⟩
      · exact ⟨fun h => h, rfl, rfl⟩

/-- Priors and the use of inactive neighbours. -/
theorem calls_parts {r d : Nat} {A : Prop} {g g' : PoseGraph ℝ} {op : PGOp ℝ}
    (hc : agentCalls r d A op) (e : g.step op = ok g') :
    ((∀ q ∈ g.priors, PoseOk r d q.2) → ∀ q ∈ g'.priors, PoseOk r d q.2) ∧
    (g.useInactive = false → g'.useInactive = false) ∧ (¬ A → uncached g → uncached g') := by
  cases op with
  | addMeasurement m =>
    obtain ⟨k1, k2, k3, -, k4, -, k5, -⟩ := addMeasurement_caches e
    rw [k4, k5]
    exact ⟨fun h => h, fun h => h, fun _ h => ⟨k1.trans h.1, k2.trans h.2.1, k3.trans h.2.2⟩⟩
  | setMeasurements ms =>
    obtain ⟨k1, k2, k3, k4, -, -, -, k5⟩ := setMeasurements_caches e
    rw [k4, k5]
    exact ⟨fun _ => by simp, fun h => h, fun _ _ => ⟨k1, k2, k3⟩⟩
  | reset =>
    cases e
    obtain ⟨k1, k2, k3⟩ := reset_parts g
    rw [k2, k3]
    exact ⟨fun _ => by simp, fun h => h, fun _ _ => k1⟩
  | setPrior i X =>
    simp only [PoseGraph.step, setPrior, bind_eq_ok, check_eq_ok, exists_and_left, exists_const] at e
    obtain ⟨-, -, -, e⟩ := e
    cases e
    refine ⟨fun h q hq => ?_, fun h => h, fun _ h => h⟩
    rcases OMap.mem_insert _ _ _ _ hq with rfl | hq
    · exact hc
    · exact h q hq
  | setNeighborActive nid b =>
    obtain ⟨k1, k2, k3⟩ := setNeighborActive_parts e
    rw [k2, k3]
    exact ⟨fun h => h, fun h => h, fun _ => k1⟩
  | writeWeight src dst w f =>
    simp only [PoseGraph.step, bind_eq_ok] at e
    obtain ⟨q, -, e⟩ := e
    cases q with
    | none => cases e; exact ⟨fun h => h, fun h => h, fun _ h => h⟩
    | some q =>
      cases e
      obtain ⟨k1, k2, k3, k4, -⟩ := writeWeight_caches g q w f
      rw [k4]
      refine ⟨fun h => h, fun h => ?_, fun _ h => ⟨k1.trans h.1, k2.trans h.2.1, k3.trans h.2.2⟩⟩
      cases q <;> exact h
  | clearDataMatrices => cases e; exact ⟨fun h => h, fun h => h, fun hA => absurd hc hA⟩
  | setNeighborPoses dict => cases e; exact ⟨fun h => h, fun h => h, fun hA => absurd hc hA⟩
  | quadraticMatrix =>
    simp only [PoseGraph.step, bind_eq_ok] at e
    obtain ⟨⟨Q, g1⟩, e1, e⟩ := e
    cases e
    have b := quadraticMatrix_book e1
    rw [b.priors, b.useInactive]
    exact ⟨fun h => h, fun h => h, fun hA => absurd hc hA⟩
  | linearMatrix =>
    simp only [PoseGraph.step, bind_eq_ok] at e
    obtain ⟨⟨Q, g1⟩, e1, e⟩ := e
    cases e
    have b := linearMatrix_book e1
    rw [b.priors, b.useInactive]
    exact ⟨fun h => h, fun h => h, fun hA => absurd hc hA⟩
  | constructDataMatrices =>
    simp only [PoseGraph.step, bind_eq_ok] at e
    obtain ⟨⟨Q, g1⟩, e1, e⟩ := e
    cases e
    have b := constructDataMatrices_book e1
    rw [b.priors, b.useInactive]
    exact ⟨fun h => h, fun h => h, fun hA => absurd hc hA⟩
  | hasPreconditioner chol =>
    simp only [PoseGraph.step, bind_eq_ok] at e
    obtain ⟨⟨Q, g1⟩, e1, e⟩ := e
    cases e
    have b := hasPreconditioner_book e1
    rw [b.priors, b.useInactive]
    exact ⟨fun h => h, fun h => h, fun hA => absurd hc hA⟩
  | _ => exact hc.elim

theorem calls_quiet {r d : Nat} {A : Prop} (hA : A) (op : PGOp ℝ) (h : agentCalls r d A op) :
    quiet op := by
  cases op <;> simp [agentCalls, quiet, hA] at h ⊢

theorem new_parts {id r d : Nat} {g : PoseGraph ℝ} (e : PoseGraph.new id r d = ok g) :
    uncached g ∧ g.priors = [] ∧ g.useInactive = false := by
  simp only [PoseGraph.new, bind_eq_ok, check_eq_ok, exists_and_left, exists_const] at e
  obtain ⟨-, e⟩ := e
  cases e
  exact ⟨⟨rfl, rfl, rfl⟩, rfl, rfl⟩

/-- Size of an assembled `Q` of a graph with poses. -/
theorem constructQ_full {id r d : Nat} {g : PoseGraph ℝ} (hg : Reachable id r d g) (hd : 0 < d)
    (hn : 0 < g.n) {Q : DMat ℝ} (e : g.constructQ = ok (some Q)) :
    Q.rows = (d + 1) * g.n ∧ Q.cols = (d + 1) * g.n := by
  obtain ⟨⟨log, h⟩, -⟩ := Reachable.inv hg
  obtain ⟨-, -, h3, -⟩ := reach_dims hg
  have hd' : 0 < g.d := by rw [h3]; exact hd
  rcases h.constructQ_cases hd' (priors_lt hg) with ⟨-, c⟩ | ⟨-, -, c⟩ | ⟨-, -, -, c⟩ | ⟨-, -, hcov, -⟩
  · rw [c] at e; cases e
  · rw [c] at e; cases e
  · rw [c] at e; cases e
  · have hne : g.localMeasurements ≠ [] := by
      obtain ⟨m, hm, -⟩ := hcov 0 hn
      exact List.ne_nil_of_mem hm
    have h1 := h.constructQ_size hd' hne e
    obtain ⟨h2, -⟩ := h.constructQ_ok e
    rw [h3] at h1
    exact ⟨h1, h2.trans h1⟩

theorem agCache_step (hd : 0 < p.d) (h : AgInv ID p a) (hc : AgCache p a) {op : AgOp} (hw : AgOpWF op)
    (e : a.step o op = ok a') : AgCache p a' := by
  obtain ⟨g0, hg0, hs⟩ := Agent.step_calls h hw e
  have base : (∀ q ∈ g0.priors, PoseOk p.r p.d q.2) ∧ g0.useInactive = false := by
    rcases hg0 with rfl | ⟨-, hg0⟩
    · exact ⟨hc.priors, hc.unused⟩
    · obtain ⟨-, h1, h2⟩ := new_parts hg0
      rw [h1]; exact ⟨by simp, h2⟩
  have fin : (∀ q ∈ a'.graph.priors, PoseOk p.r p.d q.2) ∧ a'.graph.useInactive = false :=
    hs.induct (P := fun g => (∀ q ∈ g.priors, PoseOk p.r p.d q.2) ∧ g.useInactive = false)
      (fun g op g' hP hS e => ⟨(calls_parts hS e).1 hP.1, (calls_parts hS e).2.1 hP.2⟩) base
  have not : a.state ≠ .INITIALIZED → uncached a'.graph := fun hA => by
    refine hs.induct (P := uncached) (fun g op g' hP hS e => (calls_parts hS e).2.2 hA hP) ?_
    rcases hg0 with rfl | ⟨-, hg0⟩
    · exact hc.idle hA
    · exact (new_parts hg0).1
  have size : ∀ Q, a'.graph.Q = some Q →
      Q.rows = (p.d + 1) * a'.graph.n ∧ Q.cols = (p.d + 1) * a'.graph.n := by
    by_cases hA : a.state = .INITIALIZED
    · have hg0 : g0 = a.graph := by
        rcases hg0 with h | ⟨h, -⟩
        · exact h
        · rw [hA] at h; cases h
      subst hg0
      obtain ⟨hn, -⟩ := h.data (by rw [hA]; decide)
      have key := hs.induct (P := fun g => Reachable ID p.r p.d g ∧ g.n = a.graph.n ∧
        ∀ Q, g.Q = some Q → Q.rows = (p.d + 1) * a.graph.n ∧ Q.cols = (p.d + 1) * a.graph.n) ?_
        ⟨h.reach, rfl, hc.size⟩
      · obtain ⟨-, k2, k3⟩ := key
        rw [k2]; exact k3
      · rintro g op g' ⟨k1, k2, k3⟩ hS e
        have hq := calls_quiet hA op hS
        refine ⟨Reachable.snoc k1 (quiet_wf _ hq) e, (quiet_topology hq e).n.trans k2, fun Q hQ => ?_⟩
        rcases step_Q e with c | c | c
        · rw [c] at hQ; cases hQ
        · exact k3 Q (c ▸ hQ)
        · rw [hQ] at c
          rw [← k2]
          exact constructQ_full k1 hd (by rw [k2]; exact hn) c
    · intro Q hQ
      rw [(not hA).1] at hQ; cases hQ
  refine ⟨fun hA => ?_, size, fin.1, fin.2⟩
  by_cases hA' : a.state = .INITIALIZED
  · have f := congrArg Agent.graph (Agent.step_frame h e)
    have fs := congrArg Agent.state (Agent.step_frame h e)
    cases op with
    | reset => rw [f]; exact (reset_parts _).1
    | init T =>
      rcases Agent.init_form h.reach e with ⟨-, rfl⟩ | ⟨c, -⟩ | ⟨c, -⟩
      · exact absurd hA' hA
      · rw [hA'] at c; cases c
      · rw [hA'] at c; cases c
    | updateNeighborPoses n dict =>
      refine absurd ?_ hA
      obtain ⟨-, ⟨-, rfl⟩ | ⟨-, b, hb, he⟩⟩ := Agent.updateNeighborPoses_form e
      · exact hA'
      · have h1 : b.state = .INITIALIZED := by
          rcases Agent.tryInitialize_form hb with ⟨-, rfl⟩ | ⟨c, -⟩ | ⟨c, -⟩
          · exact hA'
          · rw [hA'] at c; cases c
          · rw [hA'] at c; cases c
        rcases he with ⟨-, rfl⟩ | ⟨-, -, rfl⟩ <;> exact h1
    | initializeInGlobalFrame T => exact absurd fs hA
    | setX M => exact absurd fs hA
    | _ => exact absurd (fs.trans hA') hA
  · exact not hA'

theorem agReach_cache (hd : 0 < p.d) (h : AgReach o ID p a) : AgCache p a := by
  obtain ⟨t, ht⟩ := agReach_hist h
  refine hist_ind (P := fun _ a => AgCache p a) ?_ (fun t a op a' hi hw e ih =>
    agCache_step hd hi ih hw e) ht
  intro a e
  obtain ⟨X, g, YL, -, hg, -, -, -, rfl⟩ := Agent.new_form e
  obtain ⟨h1, h2, h3⟩ := new_parts hg
  exact ⟨fun _ => h1, fun Q hQ => (by rw [h1.1] at hQ; cases hQ), (by rw [h2]; simp), h3⟩

end Dpgo
