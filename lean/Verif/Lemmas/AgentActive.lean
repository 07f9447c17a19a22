import Verif.Lemmas.AgentHist
import Verif.Lemmas.AgentWeights

/-! # Which calls change the activity of neighbours -/

namespace Dpgo

open Res Spec PoseGraph

/-- Pose-graph calls that change neither measurements nor activity. -/
def calm : PGOp ℝ → Prop
  | .addMeasurement _ => False
  | .setMeasurements _ => False
  | .empty => False
  | .reset => False
  | .setNeighborActive _ _ => False
  | _ => True

theorem calm_quiet (op : PGOp ℝ) (h : calm op) : quiet op := by cases op <;> first | exact h.elim | trivial
theorem weighting_calm (op : PGOp ℝ) (h : Agent.weighting op) : calm op := by
  cases op <;> first | exact h.elim | trivial
theorem updating_calm (op : PGOp ℝ) (h : Agent.updating op) : calm op := by
  cases op <;> first | exact h.elim | trivial

theorem calm_active {g g' : PoseGraph ℝ} {op : PGOp ℝ} (hq : calm op) (e : g.step op = ok g') :
    g'.nbrActive = g.nbrActive := by
  cases op with
  | addMeasurement m => exact hq.elim
  | setMeasurements ms => exact hq.elim
  | empty => exact hq.elim
  | reset => exact hq.elim
  | setNeighborActive nid b => exact hq.elim
  | setPrior i X =>
    simp only [PoseGraph.step, setPrior, bind_eq_ok, check_eq_ok, exists_and_left, exists_const] at e
    obtain ⟨-, -, -, e⟩ := e
    cases e; rfl
  | writeWeight src dst w f =>
    simp only [PoseGraph.step, bind_eq_ok] at e
    obtain ⟨q, e1, e⟩ := e
    cases q with
    | none => cases e; rfl
    | some p => cases e; rw [(sameButWeights_write g p w f).eq]
  | quadraticMatrix =>
    simp only [PoseGraph.step, bind_eq_ok] at e
    obtain ⟨⟨Q, g1⟩, e1, e⟩ := e
    cases e; exact (quadraticMatrix_book e1).nbrActive
  | linearMatrix =>
    simp only [PoseGraph.step, bind_eq_ok] at e
    obtain ⟨⟨Q, g1⟩, e1, e⟩ := e
    cases e; exact (linearMatrix_book e1).nbrActive
  | constructDataMatrices =>
    simp only [PoseGraph.step, bind_eq_ok] at e
    obtain ⟨⟨Q, g1⟩, e1, e⟩ := e
    cases e; exact (constructDataMatrices_book e1).nbrActive
  | hasPreconditioner chol =>
    simp only [PoseGraph.step, bind_eq_ok] at e
    obtain ⟨⟨Q, g1⟩, e1, e⟩ := e
    cases e; exact (hasPreconditioner_book e1).nbrActive
  | _ => cases e; rfl

theorem Steps.active {g g' : PoseGraph ℝ} (h : Steps calm g g') :
    g'.nbrActive = g.nbrActive ∧ g'.nbrRobots = g.nbrRobots :=
  ⟨Steps.induct (P := fun x => x.nbrActive = g.nbrActive)
    (fun _ _ _ hp ho e => (calm_active ho e).trans hp) h rfl, (h.topology calm_quiet).nbrRobots⟩

variable {o : AgentOracles} {a a' : Agent}

/-- All but five calls leave measurements and activity alone. -/
theorem step_calm {ID : Nat} {p : AgentParams} (h : AgInv ID p a) {op : AgOp}
    (e : a.step o op = ok a') :
    (∃ m, op = .addMeasurement m) ∨ (∃ x y z, op = .setMeasurements x y z) ∨ op = .reset ∨
      (∃ rid b, op = .setRobotActive rid b) ∨ Steps calm a.graph a'.graph := by
  have f := congrArg Agent.graph (Agent.step_frame h e)
  cases op with
  | addMeasurement m => exact Or.inl ⟨m, rfl⟩
  | setMeasurements x y z => exact Or.inr (Or.inl ⟨x, y, z, rfl⟩)
  | reset => exact Or.inr (Or.inr (Or.inl rfl))
  | setRobotActive rid b => exact Or.inr (Or.inr (Or.inr (Or.inl ⟨rid, b, rfl⟩)))
  | init T =>
    exact Or.inr (Or.inr (Or.inr (Or.inr ((Agent.init_frame h.reach e).2.mono weighting_calm))))
  | initializeInGlobalFrame T =>
    exact Or.inr (Or.inr (Or.inr (Or.inr ((Agent.initGlobal_frame h.reach e).2.mono weighting_calm))))
  | iterate b =>
    simp only [Agent.step, bind_eq_ok] at e
    obtain ⟨⟨s, c⟩, hc, e⟩ := e
    cases e
    exact Or.inr (Or.inr (Or.inr (Or.inr ((Agent.iterate_frame hc).2.1.mono updating_calm))))
  | updateNeighborPoses n dict =>
    exact Or.inr (Or.inr (Or.inr (Or.inr
      ((Agent.updateNeighborPoses_frame h.reach e).2.mono weighting_calm))))
  | initializeRobustOptimization =>
    obtain ⟨ps, g', -, -, hg, rfl⟩ := Agent.initializeRobustOptimization_form h.reach e
    exact Or.inr (Or.inr (Or.inr (Or.inr (hg.mono weighting_calm))))
  | updateMeasurementWeights =>
    rcases Agent.updateMeasurementWeights_form h.reach e with
      ⟨-, rfl⟩ | ⟨-, ps, g, b, -, -, hsg, -, hb, rfl⟩
    · exact Or.inr (Or.inr (Or.inr (Or.inr (.refl _))))
    · have s1 : Steps calm a.graph g.clearDataMatrices :=
        (hsg.mono weighting_calm).snoc (op := .clearDataMatrices) trivial rfl
      have : b.graph = g.clearDataMatrices := by
        rcases Agent.resetTrajectory_form hb with ⟨-, rfl⟩ | ⟨-, -, X, -, rfl⟩ <;> rfl
      have : b.resync.graph = g.clearDataMatrices := by
        rw [Agent.resync_frame]; exact this
      rw [this]
      exact Or.inr (Or.inr (Or.inr (Or.inr s1)))
  | setMeasurementWeight s d w fx =>
    simp only [Agent.step, bind_eq_ok] at e
    obtain ⟨⟨b, c⟩, hc, e⟩ := e
    cases e
    obtain ⟨g', hg, rfl⟩ := Agent.setMeasurementWeight_form hc
    exact Or.inr (Or.inr (Or.inr (Or.inr (Steps.one (op := .writeWeight s d w fx) trivial hg))))
  | anchorFirstPose =>
    simp only [Agent.step, bind_eq_ok] at e
    obtain ⟨⟨b, c⟩, hc, e⟩ := e
    cases e
    rcases Agent.anchorFirstPose_form hc with ⟨-, -, rfl⟩ | ⟨-, -, P, M, g', -, -, hg, rfl⟩
    · exact Or.inr (Or.inr (Or.inr (Or.inr (.refl _))))
    · exact Or.inr (Or.inr (Or.inr (Or.inr (Steps.one (op := .setPrior 0 P) trivial hg))))
  | anchorFirstPoseWith P =>
    simp only [Agent.step, bind_eq_ok] at e
    obtain ⟨⟨b, c⟩, hc, e⟩ := e
    cases e
    obtain ⟨-, g', hg, rfl⟩ := Agent.anchorFirstPoseWith_form hc
    exact Or.inr (Or.inr (Or.inr (Or.inr (Steps.one (op := .setPrior 0 P) trivial hg))))
  | _ => rw [f]; exact Or.inr (Or.inr (Or.inr (Or.inr (.refl _))))

/-- Every neighbour is active. -/
def AllActive (g : PoseGraph ℝ) : Prop :=
  ∀ j ∈ g.nbrRobots, OMap.find? ltNat j g.nbrActive = some true

theorem AllActive.add {g g' : PoseGraph ℝ} (h : AllActive g) {m : Meas ℝ} (hm : MeasWF m)
    (e : g.addMeasurement m = ok g') : AllActive g' := by
  rcases addMeasurement_active hm e with ⟨h1, h2⟩ | ⟨-, h1, h2⟩
  · intro j hj
    rw [h2] at hj
    rw [h1]; exact h j hj
  · intro j hj
    rw [h2, OSet.mem_insert strictTotal_ltNat] at hj
    rw [h1, OMap.find?_insert strictTotal_ltNat]
    split
    · rfl
    · rename_i c
      exact h j (hj.resolve_left c)

theorem AllActive.addAll : ∀ {ms : List (Meas ℝ)} {g g' : PoseGraph ℝ}, AllActive g →
    (∀ m ∈ ms, MeasWF m) → Res.foldl addMeasurement g ms = ok g' → AllActive g'
  | [], g, g', h, _, e => by cases e; exact h
  | m :: ms, g, g', h, hm, e => by
    rw [foldl_cons, bind_eq_ok'] at e
    obtain ⟨g1, e1, e⟩ := e
    exact (h.add (hm m (by simp)) e1).addAll (fun x hx => hm x (by simp [hx])) e

theorem foreign_named (id : Nat) (m : Meas ℝ) :
    (foreignPose id m).robot = m.r1 ∨ (foreignPose id m).robot = m.r2 := by
  unfold foreignPose
  split
  · exact Or.inr rfl
  · exact Or.inl rfl

/-- Neighbours are robots named by measurements. -/
theorem addAll_robots : ∀ {ms : List (Meas ℝ)} {g g' : PoseGraph ℝ}, (∀ m ∈ ms, MeasWF m) →
    Res.foldl addMeasurement g ms = ok g' → ∀ j ∈ g'.nbrRobots,
      j ∈ g.nbrRobots ∨ ∃ m ∈ ms, j = m.r1 ∨ j = m.r2
  | [], g, g', _, e, j, hj => by cases e; exact Or.inl hj
  | m :: ms, g, g', hm, e, j, hj => by
    rw [foldl_cons, bind_eq_ok'] at e
    obtain ⟨g1, e1, e⟩ := e
    rcases addAll_robots (fun x hx => hm x (by simp [hx])) e j hj with h | ⟨x, hx, h⟩
    · rcases addMeasurement_active (hm m (by simp)) e1 with ⟨-, h2⟩ | ⟨-, -, h2⟩
      · rw [h2] at h; exact Or.inl h
      · rw [h2, OSet.mem_insert strictTotal_ltNat] at h
        rcases h with h | h
        · refine Or.inr ⟨m, by simp, ?_⟩
          rw [h]; exact foreign_named _ _
        · exact Or.inl h
    · exact Or.inr ⟨x, by simp [hx], h⟩

theorem AllActive.isActive {g : PoseGraph ℝ} (h : AllActive g) {j : Nat}
    (hj : g.hasNeighbor j = true) : g.isNeighborActive j = ok true := by
  unfold isNeighborActive
  rw [hj, h j ((hasNeighbor_iff g j).1 hj)]
  rfl

end Dpgo
