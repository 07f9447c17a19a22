import Verif.Spec.Guess
import Verif.Lemmas.AgentGuard
import Verif.Lemmas.AgentFrame
import Verif.Lemmas.AgentHist

/-! # Lemmas for C77 -/

namespace Dpgo

open Res Spec

variable {o : AgentOracles} {ID : Nat} {p : AgentParams} {a a' : Agent}

theorem initGlobal_guess {r d : Nat} {T : PArr ℝ} (hg : Reachable ID r d a.graph)
    (e : a.initializeInGlobalFrame T = ok a') : a'.XInit = some a'.X ∧ a'.state = .INITIALIZED := by
  obtain ⟨Y, R, X, g', c, -, -, -, -, -, -, -, -, rfl⟩ := Agent.initializeInGlobalFrame_form hg e
  rw [Agent.resync_frame]
  exact ⟨rfl, rfl⟩

/-- What a call does to the initial guess. -/
theorem step_guess (h : AgInv ID p a) {op : AgOp} (e : a.step o op = ok a') :
    (Places ⟨a, op, a'⟩ → a'.XInit = some a'.X) ∧ (op = .reset → a'.XInit = none) ∧
    (¬ Places ⟨a, op, a'⟩ → op ≠ .reset → a'.XInit = a.XInit) := by
  have f := Agent.step_frame h e
  have f1 := congrArg Agent.XInit f
  have f2 := congrArg Agent.state f
  have plain : a'.XInit = a.XInit → a'.state = a.state → (∀ T, op ≠ .initializeInGlobalFrame T) →
      op ≠ .reset → (Places ⟨a, op, a'⟩ → a'.XInit = some a'.X) ∧ (op = .reset → a'.XInit = none) ∧
      (¬ Places ⟨a, op, a'⟩ → op ≠ .reset → a'.XInit = a.XInit) := by
    intro k1 k2 k3 k4
    refine ⟨?_, fun c => absurd c k4, fun _ _ => k1⟩
    rintro (⟨T, c⟩ | ⟨c1, c2, -⟩)
    · exact absurd c (k3 T)
    · exact absurd (k2.symm.trans c2) c1
  cases op with
  | init T =>
    refine ⟨?_, fun c => (by cases c), ?_⟩
    · rintro (⟨T, c⟩ | ⟨c1, c2, -⟩)
      · cases c
      have c1 : a.state ≠ .INITIALIZED := c1
      have c2 : a'.state = .INITIALIZED := c2
      rcases Agent.init_form h.reach e with ⟨-, rfl⟩ | ⟨-, -, rfl⟩ | ⟨-, -, T', S, X, b, c, hT, -, -, hc, he⟩
      · exact absurd c2 c1
      · exact absurd c2 c1
      obtain ⟨-, g', k, hg1, hb, -⟩ := Agent.chooseTrajectory_form hT
      have hg2 : Reachable ID p.r p.d b.graph := by
        rw [hb]; exact (hg1.mono Agent.weighting_quiet).reach quiet_wf h.reach
      have hfin : a'.XInit = c.XInit ∧ a'.X = c.X ∧ a'.state = c.state := by
        rcases he with ⟨-, rfl⟩ | ⟨-, he⟩
        · exact ⟨rfl, rfl, rfl⟩
        · obtain ⟨-, rfl⟩ := Agent.startOptimizationLoop_form he
          exact ⟨rfl, rfl, rfl⟩
      rcases hc with ⟨-, rfl⟩ | ⟨-, I, -, hc⟩
      · rw [hfin.2.2] at c2; cases c2
      · rw [hfin.1, hfin.2.1]
        exact (initGlobal_guess (by exact hg2) hc).1
    · intro hp _
      rcases Agent.init_form h.reach e with ⟨-, rfl⟩ | ⟨-, -, rfl⟩ | ⟨hs, -, T', S, X, b, c, hT, -, -, hc, he⟩
      · rfl
      · rfl
      obtain ⟨-, g', k, hg1, hb, -⟩ := Agent.chooseTrajectory_form hT
      have hg2 : Reachable ID p.r p.d b.graph := by
        rw [hb]; exact (hg1.mono Agent.weighting_quiet).reach quiet_wf h.reach
      have hfin : a'.XInit = c.XInit ∧ a'.X = c.X ∧ a'.state = c.state := by
        rcases he with ⟨-, rfl⟩ | ⟨-, he⟩
        · exact ⟨rfl, rfl, rfl⟩
        · obtain ⟨-, rfl⟩ := Agent.startOptimizationLoop_form he
          exact ⟨rfl, rfl, rfl⟩
      rcases hc with ⟨-, rfl⟩ | ⟨-, I, -, hc⟩
      · rw [hfin.1, hb]
      · refine absurd (Or.inr ⟨?_, ?_, ?_⟩) hp
        · show a.state ≠ .INITIALIZED
          rw [hs]; simp
        · show a'.state = .INITIALIZED
          rw [hfin.2.2]
          exact (initGlobal_guess (by exact hg2) hc).2
        · intro M c; cases c
  | initializeInGlobalFrame T =>
    exact ⟨fun _ => (initGlobal_guess h.reach e).1, fun c => (by cases c), fun c => absurd (Or.inl ⟨T, rfl⟩) c⟩
  | reset =>
    refine ⟨?_, fun _ => f1, fun _ c => absurd rfl c⟩
    rintro (⟨T, c⟩ | ⟨c1, c2, -⟩)
    · cases c
    · have c2 : a'.state = .INITIALIZED := c2
      rw [f2] at c2; cases c2
  | setX M =>
    refine ⟨?_, fun c => (by cases c), fun _ _ => f1⟩
    rintro (⟨T, c⟩ | ⟨-, -, c⟩)
    · cases c
    · exact absurd rfl (c M)
  | updateNeighborPoses nid dict =>
    have key : (a'.XInit = a.XInit ∧ a'.state = a.state) ∨
        (a.state ≠ .INITIALIZED ∧ a'.state = .INITIALIZED ∧ a'.XInit = some a'.X) := by
      obtain ⟨-, ⟨-, rfl⟩ | ⟨-, b, hb, he⟩⟩ := Agent.updateNeighborPoses_form e
      · exact Or.inl ⟨rfl, rfl⟩
      have hfin : a'.XInit = b.XInit ∧ a'.X = b.X ∧ a'.state = b.state := by
        rcases he with ⟨-, rfl⟩ | ⟨-, -, rfl⟩ <;> exact ⟨rfl, rfl, rfl⟩
      rw [hfin.1, hfin.2.1, hfin.2.2]
      rcases Agent.tryInitialize_form hb with ⟨-, rfl⟩ | ⟨-, -, rfl⟩ | ⟨hs, T, -, hb⟩
      · exact Or.inl ⟨rfl, rfl⟩
      · exact Or.inl ⟨rfl, rfl⟩
      · obtain ⟨k1, k2⟩ := initGlobal_guess h.reach hb
        exact Or.inr ⟨by rw [hs]; simp, k2, k1⟩
    rcases key with ⟨k1, k2⟩ | ⟨k1, k2, k3⟩
    · exact plain k1 k2 (fun _ c => by cases c) (fun c => by cases c)
    · refine ⟨fun _ => k3, fun c => (by cases c), fun c => absurd (Or.inr ⟨k1, k2, ?_⟩) c⟩
      intro M c; cases c
  | _ => exact plain f1 f2 (fun _ c => by cases c) (fun c => by cases c)

theorem guess_last {t : List Ev} (h : Hist o ID p t a) (X : PArr ℝ) : a.XInit = some X ↔ LastPlaced X t := by
  induction h with
  | new e =>
    constructor
    · intro c
      obtain ⟨X, g, YL, -, -, -, -, -, rfl⟩ := Agent.new_form e
      cases c
    · exact fun c => absurd c last_nil
  | @call t b b' op h hw e ih =>
    obtain ⟨k1, k2, k3⟩ := step_guess (agReach_inv h.reach) e
    unfold LastPlaced at ih ⊢
    rw [last_snoc]
    by_cases hp : Places ⟨b, op, b'⟩
    · rw [k1 hp]
      constructor
      · intro c; exact Or.inl ⟨hp, Option.some.inj c⟩
      · rintro (⟨-, c⟩ | ⟨c, -⟩)
        · exact congrArg some c
        · exact absurd (Or.inl hp) c
    · by_cases hr : op = .reset
      · rw [k2 hr]
        constructor
        · intro c; cases c
        · rintro (⟨c, -⟩ | ⟨c, -⟩)
          · exact absurd c hp
          · exact absurd (Or.inr hr) c
      · rw [k3 hp hr, ih]
        constructor
        · intro c
          refine Or.inr ⟨?_, c⟩
          rintro (c | c)
          · exact hp c
          · exact hr c
        · rintro (⟨c, -⟩ | ⟨-, c⟩)
          · exact absurd c hp
          · exact c

theorem resetCount_spec {t : List Ev} (h : Hist o ID p t a) :
    a.trajectoryResetCount = min (reweightsSinceReset t : Int) (max 0 p.numResets) := by
  refine hist_ind (P := fun t a =>
    a.trajectoryResetCount = min (reweightsSinceReset t : Int) (max 0 p.numResets)) ?_ ?_ h
  · intro a e
    obtain ⟨X, g, YL, -, -, -, -, -, rfl⟩ := Agent.new_form e
    show (0 : Int) = min ((0 : Nat) : Int) _
    omega
  · intro t a op a' hi _ e ih
    have f := congrArg Agent.trajectoryResetCount (Agent.step_frame hi e)
    rw [reweightsSinceReset_snoc]
    unfold Reweights
    cases op with
    | reset =>
      rw [f]
      simp [Agent.frame]
    | updateMeasurementWeights =>
      rcases Agent.updateMeasurementWeights_form hi.reach e with ⟨c, rfl⟩ | ⟨hs, ps, g, b, -, -, -, -, hb, rfl⟩
      · simp [c, ih]
      · have hk : b.resync.trajectoryResetCount = b.trajectoryResetCount := by rw [Agent.resync_frame]
        rw [hk]
        simp only [hs, and_self, if_true, reduceCtorEq, if_false]
        rcases Agent.resetTrajectory_form hb with ⟨c, rfl⟩ | ⟨c, -, X, -, rfl⟩
        · have c : ¬ a.trajectoryResetCount < a.params.numResets := c
          show a.trajectoryResetCount = _
          rw [hi.params] at c
          push_cast
          omega
        · have c : a.trajectoryResetCount < a.params.numResets := c
          show a.trajectoryResetCount + 1 = _
          rw [hi.params] at c
          push_cast
          omega
    | _ => rw [f]; simpa [Agent.frame] using ih

end Dpgo
