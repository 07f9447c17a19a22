import Verif.Lemmas.AgentTwin
import Verif.Spec.Careful

/-! # Careful histories keep the cached matrices current -/

namespace Dpgo

open Res Spec PoseGraph

variable {o : AgentOracles} {ID : Nat} {p : AgentParams} {C : DMat ℝ → Bool} {a a' : Agent}

/-- The cached matrices are current and the cached preconditioner was accepted. -/
def Current (C : DMat ℝ → Bool) (g : PoseGraph ℝ) : Prop :=
  Fresh g ∧ ∀ P, g.precon = some P → C P = true

theorem Current.of_uncached {g : PoseGraph ℝ} (h : uncached g) : Current C g :=
  ⟨Fresh.of_uncached h, fun P hP => by rw [h.2.2] at hP; cases hP⟩

theorem pair_self (h : AgInv ID p a) (hc : AgCache p a) (hf : Current C a.graph) :
    Pair ID p C a a :=
  ⟨rfl, ⟨rfl, hc.unused, hf.1, hf.1, hf.2, hf.2⟩, h.reach, hc.priors, h.nbr, h.aux⟩

theorem weighting_uncached {g g' : PoseGraph ℝ} (hs : Steps Agent.weighting g g') (h : uncached g) :
    uncached g' :=
  hs.induct (P := uncached) (fun _ op _ hP hS e =>
    (calls_parts (r := 0) (d := 0) (A := False) (weighting_calls op hS) e).2.2 (fun h => h) hP) h

theorem setPrior_uncached {g g' : PoseGraph ℝ} {i : Nat} {P : PArr ℝ} (h : uncached g)
    (e : g.step (.setPrior i P) = ok g') : uncached g' := by
  simp only [PoseGraph.step, setPrior, bind_eq_ok, check_eq_ok, exists_and_left, exists_const] at e
  obtain ⟨-, -, -, e⟩ := e
  cases e
  exact h

theorem current_step (hd : 0 < p.d) (hC : ∀ k, (o.opt k).chol = C) (h : AgInv ID p a)
    (hc : AgCache p a) (hf : Current C a.graph) {op : AgOp} (hw : AgOpWF op) (hk : CarefulCall a op)
    (e : a.step o op = ok a') : Current C a'.graph := by
  by_cases hA : a.state = .INITIALIZED
  · have f := congrArg Agent.graph (Agent.step_frame h e)
    cases op with
    | addMeasurement m =>
      rcases Agent.addMeasurement_form e with ⟨-, rfl⟩ | ⟨c, -⟩
      · exact hf
      · rw [hA] at c; cases c
    | setMeasurements x y z =>
      obtain ⟨c, -⟩ := Agent.setMeasurements_form e
      rw [hA] at c; cases c
    | reset => rw [f]; exact .of_uncached (reset_parts _).1
    | iterate b =>
      simp only [Agent.step, bind_eq_ok] at e
      obtain ⟨⟨s, c⟩, ec, e⟩ := e
      obtain rfl := Res.ok.inj e
      obtain ⟨-, k⟩ := (pair_self h hc hf).iterate hd hC ec ec
      exact ⟨k.twin.fx, k.twin.cx⟩
    | updateMeasurementWeights =>
      rcases Agent.updateMeasurementWeights_form h.reach e with ⟨c, -⟩ |
        ⟨-, ps, g, b, -, -, -, -, hb, hb'⟩
      · exact absurd hA c
      · have hg : a'.graph = g.clearDataMatrices := by
          rw [hb', Agent.resync_frame]
          rcases Agent.resetTrajectory_form hb with ⟨-, k⟩ | ⟨-, -, X, -, k⟩ <;> rw [k] <;> rfl
        rw [hg]
        exact .of_uncached ⟨rfl, rfl, rfl⟩
    | init T =>
      rcases Agent.init_form h.reach e with ⟨-, rfl⟩ | ⟨c, -⟩ | ⟨c, -⟩
      · exact hf
      · rw [hA] at c; cases c
      · rw [hA] at c; cases c
    | initializeInGlobalFrame T =>
      obtain ⟨Y, R, X, g', c, -, -, -, -, -, hs, hg, -, ha⟩ :=
        Agent.initializeInGlobalFrame_form h.reach e
      have hgr : a'.graph = g' := by rw [ha, Agent.resync_frame]
      rw [hgr]
      rcases hk with hk | hk
      · exact .of_uncached (weighting_uncached hs hk)
      · rcases hg with ⟨-, rfl, -⟩ | ⟨k, -⟩
        · exact hf
        · exact absurd hk k
    | updateNeighborPoses n dict =>
      obtain ⟨-, ⟨-, rfl⟩ | ⟨-, b, hb, he⟩⟩ := Agent.updateNeighborPoses_form e
      · exact hf
      · have h1 : b = a := by
          rcases Agent.tryInitialize_form hb with ⟨-, rfl⟩ | ⟨c, -⟩ | ⟨c, -⟩
          · rfl
          · rw [hA] at c; cases c
          · rw [hA] at c; cases c
        subst h1
        rcases he with ⟨-, rfl⟩ | ⟨-, -, rfl⟩ <;> exact hf
    | initializeRobustOptimization =>
      obtain ⟨ps, g', -, -, hs, rfl⟩ := Agent.initializeRobustOptimization_form h.reach e
      exact .of_uncached (weighting_uncached hs hk)
    | setMeasurementWeight s d w fx =>
      simp only [Agent.step, bind_eq_ok] at e
      obtain ⟨⟨b, c⟩, ec, e⟩ := e
      cases e
      obtain ⟨g', hg, rfl⟩ := Agent.setMeasurementWeight_form ec
      exact .of_uncached (weighting_uncached
        (Steps.one (op := .writeWeight s d w fx) trivial hg) hk)
    | setRobotActive rid b =>
      rcases Agent.setRobotActive_form e with ⟨-, rfl⟩ | ⟨-, -, g, hg, rfl⟩
      · exact hf
      · refine ⟨hf.1.step (op := .setNeighborActive rid b) h.reach trivial hg, ?_⟩
        simp only [PoseGraph.step, PoseGraph.setNeighborActive] at hg
        split at hg
        · cases hg; exact hf.2
        · split at hg
          · cases hg
          · split at hg
            · cases hg; intro P hP; cases hP
            · cases hg; exact hf.2
    | anchorFirstPose =>
      simp only [Agent.step, bind_eq_ok] at e
      obtain ⟨⟨b, c⟩, ec, e⟩ := e
      cases e
      rcases Agent.anchorFirstPose_form ec with ⟨-, -, rfl⟩ | ⟨-, -, P, M, g', -, -, hg, rfl⟩
      · exact hf
      · exact .of_uncached (setPrior_uncached hk hg)
    | anchorFirstPoseWith P =>
      simp only [Agent.step, bind_eq_ok] at e
      obtain ⟨⟨b, c⟩, ec, e⟩ := e
      cases e
      obtain ⟨-, g', hg, rfl⟩ := Agent.anchorFirstPoseWith_form ec
      exact .of_uncached (setPrior_uncached hk hg)
    | _ => rw [f]; exact hf
  · obtain ⟨g0, hg0, hs⟩ := Agent.step_calls h hw e
    refine .of_uncached (hs.induct (P := uncached)
      (fun g op g' hP hS e => (calls_parts hS e).2.2 hA hP) ?_)
    rcases hg0 with rfl | ⟨-, hg0⟩
    · exact hc.idle hA
    · exact (new_parts hg0).1

theorem careful_current (hd : 0 < p.d) (hC : ∀ k, (o.opt k).chol = C) {t : List Ev}
    (h : Hist o ID p t a) (hk : CarefulHist t) : Current C a.graph := by
  refine hist_ind (P := fun t a => CarefulHist t → AgCache p a ∧ Current C a.graph) ?_ ?_ h hk |>.2
  · intro a e hk
    refine ⟨agReach_cache hd ⟨a, [], e, by simp, rfl⟩, ?_⟩
    obtain ⟨X, g, YL, -, hg, -, -, -, rfl⟩ := Agent.new_form e
    exact .of_uncached (new_parts hg).1
  · intro t a op a' hi hw e ih hk
    obtain ⟨k1, k2⟩ := ih (fun x hx => hk x (List.mem_append_left _ hx))
    exact ⟨agCache_step hd hi k1 hw e, current_step hd hC hi k1 k2 hw
      (hk ⟨a, op, a'⟩ (by simp)) e⟩

end Dpgo
