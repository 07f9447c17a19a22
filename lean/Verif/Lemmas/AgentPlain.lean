import Verif.Lemmas.AgentShared
import Verif.Lemmas.AgentAccel

/-! # The sequences of the accelerated method when acceleration is off -/

namespace Dpgo

open Res Spec PoseGraph

variable {o : AgentOracles} {ID : Nat} {p : AgentParams} {a a' : Agent}

theorem resync_plain (hp : a.params.acceleration = false) : a.resync = a := by
  unfold Agent.resync
  rw [if_neg (fun c => by rw [hp] at c; cases c.1)]

theorem initGlobal_plain {r d : Nat} {T : PArr ℝ} (hg : Reachable ID r d a.graph)
    (hp : a.params.acceleration = false) (e : a.initializeInGlobalFrame T = ok a') : a'.Y = a.Y ∧ a'.V = a.V := by
  obtain ⟨Y, R, X, g', c, -, -, -, -, -, -, -, -, rfl⟩ := Agent.initializeInGlobalFrame_form hg e
  rw [resync_plain (by exact hp)]
  exact ⟨rfl, rfl⟩

/-- No call touches them. -/
theorem step_plain (h : AgInv ID p a) (hp : p.acceleration = false) {op : AgOp} (e : a.step o op = ok a') :
    a'.Y = a.Y ∧ a'.V = a.V := by
  have hpa : a.params.acceleration = false := by rw [h.params]; exact hp
  have hf := Agent.step_frame h e
  have f1 := congrArg Agent.Y hf
  have f2 := congrArg Agent.V hf
  clear hf
  cases op with
  | init T =>
    rcases Agent.init_form h.reach e with ⟨-, rfl⟩ | ⟨x, -, rfl⟩ | ⟨x, -, T', S, X, b, c, hT, hS, hX, hc, he⟩
    · exact ⟨rfl, rfl⟩
    · exact ⟨rfl, rfl⟩
    · obtain ⟨-, g', k, hg1, rfl, -⟩ := Agent.chooseTrajectory_form hT
      have hg2 : Reachable ID p.r p.d g' := (hg1.mono Agent.weighting_quiet).reach quiet_wf h.reach
      have key : c.Y = a.Y ∧ c.V = a.V := by
        rcases hc with ⟨-, rfl⟩ | ⟨-, I, -, hc⟩
        · exact ⟨rfl, rfl⟩
        · have := initGlobal_plain (ID := ID) (r := p.r) (d := p.d) (by exact hg2) (by exact hpa) hc
          exact this
      rcases he with ⟨-, rfl⟩ | ⟨-, he⟩
      · exact key
      · obtain ⟨-, rfl⟩ := Agent.startOptimizationLoop_form he
        exact key
  | initializeInGlobalFrame T => exact initGlobal_plain h.reach hpa e
  | iterate b =>
    simp only [Agent.step, bind_eq_ok] at e
    obtain ⟨⟨s, c⟩, hc, e⟩ := e
    cases e
    obtain ⟨b', hb, hc⟩ := Agent.iterate_form hc
    obtain ⟨k, -, -, rfl⟩ := Agent.tick_form hb
    rcases hc with ⟨-, hc⟩ | ⟨-, -, rfl⟩
    swap
    · exact ⟨rfl, rfl⟩
    obtain ⟨b', c', hu, hst, rfl⟩ := Agent.iterateBody_form hc
    have key : c'.Y = b'.Y ∧ c'.V = b'.V := by
      rcases hst with ⟨-, hst⟩ | ⟨-, rfl⟩
      · obtain ⟨_, _, -, -, _, -, rfl⟩ := Agent.iterateStatus_form hst
        exact ⟨rfl, rfl⟩
      · exact ⟨rfl, rfl⟩
    rcases hu with ⟨c, -⟩ | ⟨-, hu⟩
    · rw [show a.params.acceleration = false from hpa] at c
      cases c
    rcases Agent.updateX_form hu with ⟨-, -, rfl⟩ | ⟨-, -, -, g1, -, -, hr⟩
    · exact key
    · rcases hr with ⟨-, rfl⟩ | ⟨-, Z, res, g2, -, -, -, -, rfl⟩ <;> exact key
  | setX M =>
    obtain ⟨-, -, -, rfl⟩ := Agent.setX_form e
    rw [resync_plain (by exact hpa)]
    exact ⟨rfl, rfl⟩
  | updateNeighborPoses n dict =>
    obtain ⟨-, ⟨-, rfl⟩ | ⟨-, b, hb, he⟩⟩ := Agent.updateNeighborPoses_form e
    · exact ⟨rfl, rfl⟩
    have key : b.Y = a.Y ∧ b.V = a.V := by
      rcases Agent.tryInitialize_form hb with ⟨-, rfl⟩ | ⟨-, -, rfl⟩ | ⟨x, T, -, hb⟩
      · exact ⟨rfl, rfl⟩
      · exact ⟨rfl, rfl⟩
      · exact initGlobal_plain h.reach hpa hb
    rcases he with ⟨-, rfl⟩ | ⟨-, -, rfl⟩ <;> exact key
  | initializeAcceleration =>
    obtain ⟨c, -⟩ := Agent.initializeAcceleration_form e
    rw [hpa] at c
    cases c
  | updateMeasurementWeights =>
    rcases Agent.updateMeasurementWeights_form h.reach e with ⟨x, rfl⟩ | ⟨x, ps, g, b, -, -, -, -, hb, rfl⟩
    · exact ⟨rfl, rfl⟩
    · rcases Agent.resetTrajectory_form hb with ⟨-, rfl⟩ | ⟨-, -, X, -, rfl⟩
      · rw [resync_plain (by exact hpa)]; exact ⟨rfl, rfl⟩
      · rw [resync_plain (by exact hpa)]; exact ⟨rfl, rfl⟩
  | _ => exact ⟨f1, f2⟩

theorem reach_plain (h : AgReach o ID p a) (hp : p.acceleration = false) :
    PArr.make p.r p.d 1 = ok a.Y ∧ PArr.make p.r p.d 1 = ok a.V := by
  obtain ⟨t, ht⟩ := agReach_hist h
  refine hist_ind (P := fun _ a => PArr.make p.r p.d 1 = ok a.Y ∧ PArr.make p.r p.d 1 = ok a.V) ?_ ?_ ht
  · intro a e
    obtain ⟨X, g, YL, hX, -, -, -, -, rfl⟩ := Agent.new_form e
    exact ⟨hX, hX⟩
  · intro t a op a' hi _ e ih
    obtain ⟨h1, h2⟩ := step_plain hi hp e
    rw [h1, h2]
    exact ih

/-- What is collected per neighbour from an array of `n` poses, if all own poses concerned are among them. -/
theorem neighborDict_within (h : AgInv ID p a) (hs : a.state = .INITIALIZED) {n : Nat} {B : PArr ℝ}
    (hB : ArrOk p.r p.d n B) {j : Nat} (hj : j ≠ ID) (hk : ∀ k, NeededBy ID j a.graph k → k.frame < n) :
    ∃ m, a.neighborDictOf B j = ok (some m) ∧ DictOf p.r p.d (NeededBy ID j a.graph) B m := by
  have hf := Props.C63_shared_with ID p.r p.d a.graph h.reach j hj
  obtain ⟨m', e, h'⟩ := collect_loop (B := B) (key := ownPose ID) (f := a.neighborDictStep B)
    (l := a.graph.sharedLoopClosuresWithRobot j) (fun e he m => by
    rw [hf, List.mem_filter] at he
    obtain ⟨h1, -, ⟨w1, w2, w3, w4⟩, h3⟩ := own_lt h.reach he.1
    have h2 := hk _ ⟨e, he.1, by simpa using he.2, rfl⟩
    have := single_step hB h2 h.dims.2.2.2
    rw [bind_eq_ok] at this
    obtain ⟨M, hM, hL⟩ := this
    unfold Agent.neighborDictStep
    have hu : ∀ x, x < 2 ^ 32 - 1 → u32 x = x := fun x hx => Nat.mod_eq_of_lt (by omega)
    rw [h.id]
    unfold ownPose at hM hL ⊢
    split
    · rename_i c
      rw [if_pos c] at hM hL
      rw [hu _ w3]
      simp only at hM hL ⊢
      rw [hM, ok_bind, hL, ok_bind]
      unfold PoseID.make
      rw [hu _ w1, hu _ w3]
    · rename_i c
      rw [if_neg c] at hM hL
      rw [if_pos (h3.resolve_left c), hu _ w4]
      simp only at hM hL ⊢
      rw [hM, ok_bind, hL, ok_bind]
      unfold PoseID.make
      rw [hu _ w2, hu _ w4]) (.nil p.r p.d B)
  refine ⟨m', ?_, (h'.congr fun k => ?_).dictOf⟩
  · unfold Agent.neighborDictOf
    rw [if_neg (by simp [hs]), e, ok_bind]
  · rw [hf]
    simp only [false_or, List.mem_filter, decide_eq_true_eq, NeededBy, and_assoc]

theorem foldl_abort {α ι : Type} {f : α → ι → Res α} : ∀ {l : List ι} {b : α},
    (∀ x ∈ l, (∀ b, ∃ b', f b x = ok b') ∨ ∀ b, f b x = abort) → (∃ x ∈ l, ∀ b, f b x = abort) →
    Res.foldl f b l = abort
  | [], _, _, h => by obtain ⟨x, hx, -⟩ := h; cases hx
  | x :: l, b, h1, h2 => by
    rw [foldl_cons]
    rcases h1 x (by simp) with h | h
    · obtain ⟨b', e⟩ := h b
      rw [e, ok_bind']
      refine foldl_abort (fun y hy => h1 y (by simp [hy])) ?_
      obtain ⟨y, hy, hh⟩ := h2
      rcases List.mem_cons.1 hy with rfl | hy
      · rw [hh b] at e; cases e
      · exact ⟨y, hy, hh⟩
    · rw [h b]; rfl

/-- If some own pose concerned lies outside the array, the query fails a check. -/
theorem neighborDict_outside (h : AgInv ID p a) (hs : a.state = .INITIALIZED) {n : Nat} {B : PArr ℝ}
    (hB : ArrOk p.r p.d n B) {j : Nat} (hj : j ≠ ID) (hk : ∃ k, NeededBy ID j a.graph k ∧ n ≤ k.frame) :
    a.neighborDictOf B j = abort := by
  have hf := Props.C63_shared_with ID p.r p.d a.graph h.reach j hj
  have hu : ∀ x, x < 2 ^ 32 - 1 → u32 x = x := fun x hx => Nat.mod_eq_of_lt (by omega)
  have out : ∀ i, n ≤ i → B.poseAt i = abort := by
    intro i hi
    unfold PArr.poseAt
    rw [hB.2.2.1, show decide (i < n) = false from decide_eq_false (by omega)]
    rfl
  have one : ∀ e ∈ a.graph.sharedLoopClosuresWithRobot j,
      (ownPose ID e).frame < n ∧ (∀ m, ∃ m', a.neighborDictStep B m e = ok m') ∨
      n ≤ (ownPose ID e).frame ∧ ∀ m, a.neighborDictStep B m e = abort := by
    intro e he
    rw [hf, List.mem_filter] at he
    obtain ⟨h1, -, ⟨w1, w2, w3, w4⟩, h3⟩ := own_lt h.reach he.1
    unfold Agent.neighborDictStep
    rw [h.id]
    by_cases hlt : (ownPose ID e).frame < n
    · refine Or.inl ⟨hlt, fun m => ?_⟩
      have := single_step hB hlt h.dims.2.2.2
      rw [bind_eq_ok] at this
      obtain ⟨M, hM, hL⟩ := this
      unfold ownPose at hM hL
      split
      · rename_i c
        rw [if_pos c] at hM hL
        rw [hu _ w3]
        simp only at hM hL
        rw [hM, ok_bind, hL, ok_bind]
        exact ⟨_, rfl⟩
      · rename_i c
        rw [if_neg c] at hM hL
        rw [if_pos (h3.resolve_left c), hu _ w4]
        simp only at hM hL
        rw [hM, ok_bind, hL, ok_bind]
        exact ⟨_, rfl⟩
    · refine Or.inr ⟨by omega, fun m => ?_⟩
      unfold ownPose at hlt
      split
      · rename_i c
        rw [if_pos c] at hlt
        rw [hu _ w3, out _ (by simpa using hlt)]
        rfl
      · rename_i c
        rw [if_neg c] at hlt
        rw [if_pos (h3.resolve_left c), hu _ w4, out _ (by simpa using hlt)]
        rfl
  unfold Agent.neighborDictOf
  rw [if_neg (by simp [hs]), foldl_abort (fun e he => (one e he).imp (·.2) (·.2)) ?_]
  · rfl
  · obtain ⟨k, ⟨e, he, hr, rfl⟩, hn⟩ := hk
    have he' : e ∈ a.graph.sharedLoopClosuresWithRobot j := by
      rw [hf, List.mem_filter]
      exact ⟨he, by simpa using hr⟩
    rcases one e he' with ⟨c, -⟩ | ⟨-, c⟩
    · omega
    · exact ⟨e, he', c⟩

end Dpgo
