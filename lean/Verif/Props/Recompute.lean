import Verif.Props.PoseGraph
import Verif.Props.AgentMessages
import Verif.Props.Robust

/-! # Further cases of C05, C22 and C38: recomputing the public ids, error thresholds, reported states -/

namespace Dpgo.Props

open Res Spec PoseGraph

/-- **C05** (recomputing).  `updatePublicPoseIDs` recomputes the sets of public ids from the shared loop closures;
on every reachable graph this gives the graph itself, since the sets were kept up to date. -/
theorem C05_update {K : Type} [Field K] (id r d : Nat) (g : PoseGraph K)
    (hg : Reachable id r d g) : g.updatePublicPoseIDs = ok g := by
  obtain ⟨hl, hn, -⟩ := C05_public_ids id r d g hg
  obtain ⟨⟨log, h⟩, hid⟩ := Reachable.inv hg
  have hm : ∀ m ∈ g.sharedLcs, MeasWF m ∧ isShared id m = true := by
    intro m hm
    rw [h.shared] at hm
    obtain ⟨h1, h2⟩ := List.mem_filter.1 hm
    exact ⟨h.wf m h1, by rw [hid] at h2; exact h2⟩
  have key : ∀ (ms : List (Meas K)) (A B : OSet PoseID), (∀ m ∈ ms, m ∈ g.sharedLcs) →
      OSet.Sorted ltPoseID A → OSet.Sorted ltPoseID B →
      ∃ A' B', Res.foldl (fun (h : PoseGraph K) (m : Meas K) =>
        if m.r1 == h.id then do
          check (m.r2 != h.id)
          ok { h with
            localShared := OSet.insert ltPoseID (PoseID.make m.r1 m.p1) h.localShared
            nbrShared := OSet.insert ltPoseID (PoseID.make m.r2 m.p2) h.nbrShared }
        else do
          check (m.r2 == h.id)
          ok { h with
            localShared := OSet.insert ltPoseID (PoseID.make m.r2 m.p2) h.localShared
            nbrShared := OSet.insert ltPoseID (PoseID.make m.r1 m.p1) h.nbrShared })
        { g with localShared := A, nbrShared := B } ms = ok { g with localShared := A', nbrShared := B' } ∧
        OSet.Sorted ltPoseID A' ∧ OSet.Sorted ltPoseID B' ∧
        (∀ x, x ∈ A' ↔ x ∈ A ∨ ∃ m ∈ ms, ownPose id m = x) ∧
        ∀ x, x ∈ B' ↔ x ∈ B ∨ ∃ m ∈ ms, foreignPose id m = x := by
    intro ms
    induction ms with
    | nil =>
      intro A B _ hA hB
      exact ⟨A, B, rfl, hA, hB, by simp, by simp⟩
    | cons m ms ih =>
      intro A B hms hA hB
      obtain ⟨⟨w1, w2, w3, w4⟩, hsh⟩ := hm m (hms m (by simp))
      have mk : ∀ {x y}, x < 2 ^ 32 - 1 → y < 2 ^ 32 - 1 → PoseID.make x y = ⟨x, y⟩ := by
        intro x y hx hy
        unfold PoseID.make
        rw [u32_of_lt (by omega), u32_of_lt (by omega)]
      have step : (if m.r1 == g.id then do
            check (m.r2 != g.id)
            ok { ({ g with localShared := A, nbrShared := B } : PoseGraph K) with
              localShared := OSet.insert ltPoseID (PoseID.make m.r1 m.p1) A
              nbrShared := OSet.insert ltPoseID (PoseID.make m.r2 m.p2) B }
          else do
            check (m.r2 == g.id)
            ok { ({ g with localShared := A, nbrShared := B } : PoseGraph K) with
              localShared := OSet.insert ltPoseID (PoseID.make m.r2 m.p2) A
              nbrShared := OSet.insert ltPoseID (PoseID.make m.r1 m.p1) B }) =
          ok { g with
            localShared := OSet.insert ltPoseID (ownPose id m) A
            nbrShared := OSet.insert ltPoseID (foreignPose id m) B } := by
        rw [mk w1 w3, mk w2 w4, hid]
        rw [isShared_iff] at hsh
        unfold ownPose foreignPose
        by_cases c : m.r1 = id
        · have hne : m.r2 ≠ id := by omega
          simp [c, show (m.r2 != id) = true by simpa using hne]
        · have he : m.r2 = id := by omega
          simp [c, he]
      obtain ⟨A', B', k1, k2, k3, k4, k5⟩ := ih (OSet.insert ltPoseID (ownPose id m) A)
        (OSet.insert ltPoseID (foreignPose id m) B) (fun x hx => hms x (by simp [hx]))
        (OSet.sorted_insert strictTotal_ltPoseID _ _ hA) (OSet.sorted_insert strictTotal_ltPoseID _ _ hB)
      refine ⟨A', B', ?_, k2, k3, fun x => ?_, fun x => ?_⟩
      · rw [foldl_cons]
        refine (congrArg (fun q => Res.bind q _) step).trans ?_
        exact k1
      · rw [k4, OSet.mem_insert strictTotal_ltPoseID]
        simp only [List.mem_cons, exists_eq_or_imp]
        constructor
        · rintro ((h | h) | h)
          · exact Or.inr (Or.inl h.symm)
          · exact Or.inl h
          · exact Or.inr (Or.inr h)
        · rintro (h | h | h)
          · exact Or.inl (Or.inr h)
          · exact Or.inl (Or.inl h.symm)
          · exact Or.inr h
      · rw [k5, OSet.mem_insert strictTotal_ltPoseID]
        simp only [List.mem_cons, exists_eq_or_imp]
        constructor
        · rintro ((h | h) | h)
          · exact Or.inr (Or.inl h.symm)
          · exact Or.inl h
          · exact Or.inr (Or.inr h)
        · rintro (h | h | h)
          · exact Or.inl (Or.inr h)
          · exact Or.inl (Or.inl h.symm)
          · exact Or.inr h
  obtain ⟨A', B', k1, k2, k3, k4, k5⟩ := key g.sharedLcs [] [] (fun _ h => h) List.Pairwise.nil List.Pairwise.nil
  have eA : A' = g.localShared := OSet.sorted_ext strictTotal_ltPoseID k2 h.localSorted fun x => by
    rw [k4, hl]; simp
  have eB : B' = g.nbrShared := OSet.sorted_ext strictTotal_ltPoseID k3 h.nbrSorted fun x => by
    rw [k5, hn]; simp
  rw [eA, eB] at k1
  exact k1

/-- The example graph has two shared edges in opposite directions. -/
example : ∃ g, exGraph = ok g ∧ Reachable 0 3 2 g ∧ g.localShared.length = 2 ∧ g.nbrShared.length = 2 := by
  obtain ⟨g, e, h⟩ := exGraph_reachable
  refine ⟨g, e, h, ?_⟩
  cases e
  exact ⟨rfl, rfl⟩

/-- **C22** (error thresholds).  The threshold for a quantile is defined in three dimensions and for positive
quantiles only.  It is the square root of the χ² quantile with six degrees of freedom, `x`, and `1e5` for quantiles
from one on. -/
theorem C22_threshold (q x : ℝ) (d : Nat) :
    (d ≠ 3 ∨ q ≤ 0 → computeErrorThresholdAtQuantile q d x = abort) ∧
    (1 ≤ q → computeErrorThresholdAtQuantile q 3 x = ok 100000) ∧
    (0 < q → q < 1 → 0 ≤ x → ∃ c, computeErrorThresholdAtQuantile q 3 x = ok c ∧ 0 ≤ c ∧ c ^ 2 = x ∧
      ∀ e, 0 ≤ e → (e ≤ c ↔ e ^ 2 ≤ x)) := by
  unfold computeErrorThresholdAtQuantile
  refine ⟨fun h => ?_, fun h => ?_, fun h1 h2 h3 => ?_⟩
  · by_cases c : d = 3
    · subst c
      have : q ≤ 0 := h.resolve_left (by simp)
      rw [if_neg (by linarith)]; rfl
    · rw [show (d == 3) = false by simpa using c]; rfl
  · rw [if_pos (by linarith), if_neg (by linarith)]; rfl
  · rw [if_pos h1, if_pos h2, if_neg (by linarith)]
    exact ⟨_, rfl, Real.sqrt_nonneg _, Real.sq_sqrt h3, fun e he => Real.le_sqrt he h3⟩

/-- A quantile inside the unit interval. -/
example : (0 : ℝ) < 9 / 10 ∧ (9 / 10 : ℝ) < 1 ∧ (0 : ℝ) ≤ 10.64 := by norm_num

/-- **C38** (asked from outside).  `hasNeighborStatus` and `isRobotInitialized` say what the last report of that
robot says, and for the robot itself what its own state is. -/
theorem C38_reported {o : AgentOracles} {ID : Nat} {p : AgentParams} {a : Agent} {t : List Ev}
    (h : Hist o ID p t a) (j : Nat) :
    (a.hasNeighborStatus j = true ↔ ∃ s, LastReport j s t) ∧
    (j ≠ ID → (a.isRobotInitialized j = true ↔ ∃ s, LastReport j s t ∧ s.state = .INITIALIZED)) ∧
    (a.isRobotInitialized ID = true ↔ a.state = .INITIALIZED) := by
  have hid : a.id = ID := (agReach_inv h.reach).id
  refine ⟨?_, fun hj => ?_, ?_⟩
  · unfold Agent.hasNeighborStatus
    rw [Option.isSome_iff_exists]
    simp only [teamStatus_spec h]
  · unfold Agent.isRobotInitialized
    rw [hid, if_neg hj]
    simp only [← teamStatus_spec h]
    cases OMap.find? ltNat j a.teamStatus <;> simp
  · unfold Agent.isRobotInitialized
    rw [hid, if_pos rfl, beq_iff_eq]

end Dpgo.Props
