import Verif.Lemmas.Measurements
import Verif.Lemmas.Activity
import Mathlib.Algebra.Field.Rat

/-! # C63: queries restricted to one neighbour or to active neighbours -/

namespace Dpgo.Props

open Res Spec PoseGraph

/-- A loop inserting the elements that pass a test into a sorted set. -/
theorem select_loop {κ : Type} (lt : κ → κ → Bool) (h : StrictTotal lt) (test : κ → Res Bool)
    (b : κ → Bool) (l : List κ) (hb : ∀ x ∈ l, test x = ok (b x)) (acc : OSet κ)
    (hacc : OSet.Sorted lt acc) :
    ∃ out, Res.foldl (fun out x => do
        let a ← test x
        ok (if a then OSet.insert lt x out else out)) acc l = ok out ∧ OSet.Sorted lt out ∧
      ∀ x, x ∈ out ↔ x ∈ acc ∨ (x ∈ l ∧ b x = true) := by
  induction l generalizing acc with
  | nil => exact ⟨acc, rfl, hacc, by simp⟩
  | cons a l ih =>
    rw [foldl_cons, hb a (by simp)]
    have hs : OSet.Sorted lt (if b a = true then OSet.insert lt a acc else acc) := by
      split
      · exact OSet.sorted_insert h a acc hacc
      · exact hacc
    obtain ⟨out, e, h1, h2⟩ := ih (fun x hx => hb x (by simp [hx])) _ hs
    refine ⟨out, e, h1, fun x => ?_⟩
    rw [h2]
    by_cases c : b a = true
    · rw [if_pos c, OSet.mem_insert h, List.mem_cons]
      constructor
      · rintro ((rfl | h) | ⟨h, h'⟩)
        · exact Or.inr ⟨Or.inl rfl, c⟩
        · exact Or.inl h
        · exact Or.inr ⟨Or.inr h, h'⟩
      · rintro (h | ⟨rfl | h, h'⟩)
        · exact Or.inl (Or.inr h)
        · exact Or.inl (Or.inl rfl)
        · exact Or.inr ⟨h, h'⟩
    · rw [if_neg c, List.mem_cons]
      constructor
      · rintro (h | ⟨h, h'⟩)
        · exact Or.inl h
        · exact Or.inr ⟨Or.inr h, h'⟩
      · rintro (h | ⟨rfl | h, h'⟩)
        · exact Or.inl h
        · exact absurd h' c
        · exact Or.inr ⟨h, h'⟩

section
variable {K : Type} [Field K]

/-- **C63.** `sharedLoopClosuresWithRobot`: the shared loop closures whose other endpoint is on that
robot, in the stored order. -/
theorem C63_shared_with (id r d : Nat) (g : PoseGraph K) (hg : Reachable id r d g) (j : Nat)
    (hj : j ≠ id) : g.sharedLoopClosuresWithRobot j =
      g.sharedLcs.filter fun m => decide ((foreignPose id m).robot = j) := by
  obtain ⟨⟨log, h⟩, hid⟩ := Reachable.inv hg
  subst hid
  unfold sharedLoopClosuresWithRobot
  refine List.filter_congr fun m hm => ?_
  rw [h.shared, List.mem_filter, isShared_iff] at hm
  unfold foreignPose
  have := hm.2
  by_cases c : m.r1 = g.id
  · rw [if_pos c]
    by_cases c2 : m.r2 = j
    · simp [c2]
    · have : m.r1 ≠ j := by omega
      simp [c2, this]
  · rw [if_neg c]
    by_cases c2 : m.r1 = j
    · simp [c2]
    · have : m.r2 ≠ j := by omega
      simp [c2, this]

/-- **C63.** The per-neighbour lists together make up all shared loop closures, each once. -/
theorem C63_shared_split (id r d : Nat) (g : PoseGraph K) (hg : Reachable id r d g) :
    (∀ j ∈ g.nbrRobots, j ≠ id) ∧
    (∀ m ∈ g.sharedLcs, ∃ j ∈ g.nbrRobots, m ∈ g.sharedLoopClosuresWithRobot j ∧
      ∀ j' ∈ g.nbrRobots, m ∈ g.sharedLoopClosuresWithRobot j' → j' = j) ∧
    (∀ j, j ≠ id → j ∉ g.nbrRobots → g.sharedLoopClosuresWithRobot j = []) := by
  obtain ⟨⟨log, h⟩, hid⟩ := Reachable.inv hg
  have hne : ∀ j ∈ g.nbrRobots, j ≠ id := by
    intro j hj
    rw [h.robotsMem] at hj
    obtain ⟨m, hm, hs, rfl⟩ := hj
    rw [isShared_iff] at hs
    unfold foreignPose
    subst hid
    split <;> simp only <;> omega
  have hmemR : ∀ m ∈ g.sharedLcs, (foreignPose id m).robot ∈ g.nbrRobots := by
    intro m hm
    rw [h.shared, List.mem_filter] at hm
    rw [h.robotsMem]
    subst hid
    exact ⟨m, hm.1, hm.2, rfl⟩
  refine ⟨hne, fun m hm => ⟨_, hmemR m hm, ?_, fun j' hj' hm' => ?_⟩, fun j hj hn => ?_⟩
  · rw [C63_shared_with id r d g hg _ (hne _ (hmemR m hm)), List.mem_filter]
    exact ⟨hm, by simp⟩
  · rw [C63_shared_with id r d g hg _ (hne _ hj'), List.mem_filter] at hm'
    exact (of_decide_eq_true hm'.2).symm
  · rw [C63_shared_with id r d g hg j hj, List.filter_eq_nil_iff]
    intro m hm hd
    exact hn (of_decide_eq_true hd ▸ hmemR m hm)

/-- **C63.** `activeNeighborIDs` and `numActiveNeighbors`. -/
theorem C63_active_ids (id r d : Nat) (g : PoseGraph K) (hg : Reachable id r d g) :
    ∃ out, g.activeNeighborIDs = ok out ∧ g.numActiveNeighbors = ok out.length ∧ out.Nodup ∧
      ∀ j, j ∈ out ↔ j ∈ g.nbrRobots ∧ g.isNeighborActive j = ok true := by
  obtain ⟨⟨log, h⟩, -⟩ := Reachable.inv hg
  obtain ⟨out, e, hs, hm⟩ := select_loop ltNat strictTotal_ltNat g.isNeighborActive g.flag g.nbrRobots
    (fun x _ => h.isNeighborActive_eq x) [] List.Pairwise.nil
  have e' : g.activeNeighborIDs = ok out := e
  refine ⟨out, e', ?_, OSet.sorted_nodup strictTotal_ltNat hs, fun j => ?_⟩
  · unfold numActiveNeighbors; rw [e']; rfl
  · rw [hm, h.isNeighborActive_eq]
    simp

/-- **C63.** `activeNeighborPublicPoseIDs`. -/
theorem C63_active_poses (id r d : Nat) (g : PoseGraph K) (hg : Reachable id r d g) :
    ∃ out, g.activeNeighborPublicPoseIDs = ok out ∧ out.Nodup ∧
      ∀ p, p ∈ out ↔ p ∈ g.nbrShared ∧ g.isNeighborActive p.robot = ok true := by
  obtain ⟨⟨log, h⟩, -⟩ := Reachable.inv hg
  obtain ⟨out, e, hs, hm⟩ := select_loop ltPoseID strictTotal_ltPoseID
    (fun p => g.isNeighborActive p.robot) (fun p => g.flag p.robot) g.nbrShared
    (fun x _ => h.isNeighborActive_eq x.robot) [] List.Pairwise.nil
  refine ⟨out, e, OSet.sorted_nodup strictTotal_ltPoseID hs, fun p => ?_⟩
  rw [hm, h.isNeighborActive_eq]
  simp

end

/-- A graph with two neighbours, one switched off: the answers are non-trivial. -/
example : ∃ g₀ g : PoseGraph ℚ, PoseGraph.new 0 3 2 = ok g₀ ∧
    g₀.run [.setMeasurements [Meas.make 0 1 0 4 (DMat.one 2 2) (DMat.zero 2 1) 1 1,
      Meas.make 2 0 7 0 (DMat.one 2 2) (DMat.zero 2 1) 1 1], .setNeighborActive 1 false] = ok g ∧
    g.activeNeighborIDs = ok [2] ∧ g.activeNeighborPublicPoseIDs = ok [⟨2, 7⟩] ∧
    (g.sharedLoopClosuresWithRobot 1).length = 1 := by
  refine ⟨_, _, rfl, rfl, ?_, ?_, ?_⟩ <;> decide +kernel

end Dpgo.Props
