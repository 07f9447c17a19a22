import Verif.Lemmas.TeamInv
import Verif.Props.Assembly
import Mathlib.Algebra.Order.Field.Rat
import Mathlib.Tactic.Linarith

/-!
# The team-wide cost: C15, C16 (and C11 for cached matrices)
-/

namespace Dpgo.Props

open Finset Res Spec PoseGraph

section
variable {K : Type} [Field K]

/-! ### C11 with caches -/

/-- **C11.** The objective identity also holds when the data matrices come from the cache, along every
history that follows the caching discipline of `C08_fresh_partial`, as long as no needed neighbour
pose is missing. -/
theorem C11_cached (h2 : (2 : K) ≠ 0) (id r d : Nat) (ops : List (PGOp K)) (g₀ g : PoseGraph K)
    (hnew : PoseGraph.new id r d = ok g₀) (hwf : ∀ op ∈ ops, OpWF op) (hco : coherent g₀ ops)
    (hrun : g₀.run ops = ok g) (hd : 0 < g.d) (hm : ¬ posesMissing g) (X : DMat K) (f : K)
    (g' : PoseGraph K) (e : problemF g X = ok (f, g')) :
    f = graphCost g X - graphCost g (zeroEst g) := by
  have h0 : Fresh g₀ := by
    simp only [PoseGraph.new, bind_eq_ok] at hnew
    obtain ⟨_, _, e⟩ := hnew
    cases e
    exact Fresh.of_uncached ⟨rfl, rfl, rfl⟩
  have hr0 : Reachable id r d g₀ := ⟨g₀, [], hnew, by simp, rfl⟩
  obtain ⟨hf, hr⟩ := Fresh.run ops hr0 hwf h0 hco hrun
  exact objective_fresh h2 hr hd hf hm e

/-! ### C15 -/

/-- **C15.** A robot whose graph was built from the team-wide edge list and which holds up-to-date
neighbour poses sees its own objective change by exactly the change of the team-wide cost, whatever it
replaces its trajectory by. -/
theorem C15_local_change (h2 : (2 : K) ≠ 0) (r d a : Nat) (hd : 0 < d) (E : List (Meas K))
    (hE : ∀ m ∈ E, MeasWF m) (g₀ g : PoseGraph K) (hnew : PoseGraph.new a r d = ok g₀)
    (hset : g₀.setMeasurements E = ok g) (dict : PoseDict K) (X : Joint K) (Y : DMat K)
    (hup : upToDate r d X g dict) (f₀ f₁ : K) (g₁ g₂ : PoseGraph K)
    (e₀ : problemF (g.setNeighborPoses dict) (X a) = ok (f₀, g₁))
    (e₁ : problemF g₁ Y = ok (f₁, g₂)) :
    f₁ - f₀ = teamCost r d E (Function.update X a Y) - teamCost r d E X :=
  ((TeamInv.init hE hnew hset).poses dict).change h2 hd X Y hup e₀ e₁

/-! ### C16 -/

/-- The invariants of all robots survive a step. -/
theorem team_step_inv [LE K] {r d : Nat} {E : List (Meas K)} {s t : TeamState K}
    (h : ∀ a, TeamInv r d E a (s.graph a)) (hs : TeamStep r d s t) :
    ∀ a, TeamInv r d E a (t.graph a) := by
  cases hs with
  | update a dict Xa f₀ f₁ g₁ g₂ hdict e₀ e₁ hle =>
    intro b
    by_cases c : b = a
    · subst c
      change TeamInv r d E b (Function.update s.graph b g₂ b)
      rw [Function.update_self]
      exact (((h b).poses dict).problemF e₀).problemF e₁
    · change TeamInv r d E b (Function.update s.graph a g₂ b)
      rw [Function.update_of_ne c]
      exact h b

theorem team_step_cost [LinearOrder K] [IsStrictOrderedRing K] {r d : Nat} (hd : 0 < d)
    {E : List (Meas K)} {s t : TeamState K} (h : ∀ a, TeamInv r d E a (s.graph a))
    (hs : TeamStep r d s t) : teamCost r d E t.X ≤ teamCost r d E s.X := by
  cases hs with
  | update a dict Xa f₀ f₁ g₁ g₂ hdict e₀ e₁ hle =>
    have := ((h a).poses dict).change (two_ne_zero) hd s.X Xa hdict e₀ e₁
    change teamCost r d E (Function.update s.X a Xa) ≤ _
    linarith

/-- **C16.** Starting from graphs built from one edge list, under every finite schedule of single-robot
updates with up-to-date neighbour poses and non-increasing local objective, the team-wide cost never
increases — although each robot keeps using its cached matrices. -/
theorem C16_descent [LinearOrder K] [IsStrictOrderedRing K] (r d : Nat) (hd : 0 < d)
    (E : List (Meas K)) (hE : ∀ m ∈ E, MeasWF m) (s t : TeamState K) (hs : teamStart r d E s)
    (hrun : TeamRun r d s t) : teamCost r d E t.X ≤ teamCost r d E s.X := by
  have h0 : ∀ a, TeamInv r d E a (s.graph a) := by
    intro a
    obtain ⟨g₀, h1, h2⟩ := hs a
    exact TeamInv.init hE h1 h2
  have key : (∀ a, TeamInv r d E a (t.graph a)) ∧ teamCost r d E t.X ≤ teamCost r d E s.X := by
    clear hs
    induction hrun with
    | refl => exact ⟨h0, le_refl _⟩
    | tail t u h hstep ih =>
      obtain ⟨i1, i2⟩ := ih
      exact ⟨team_step_inv i1 hstep, (team_step_cost hd i1 hstep).trans i2⟩
  exact key.2

end

/-! ### Concrete cases -/

section Examples

/-- A team of two robots: one private chain each, two edges between them. -/
def exTeam : List (Meas ℚ) :=
  [ex 0 0 0 1, ex 1 1 0 1, ex 0 1 1 0, ex 1 0 1 0, ex 0 0 1 2, ex 0 1 1 0]

/-- Their joint estimate, robot 0 stretched along the first axis, everything else at the origin. -/
def exJoint : Joint ℚ := fun a => if a = 0 then exX 1 else exX 0

theorem exTeam_wf : ∀ m ∈ exTeam, MeasWF m := by
  simp [exTeam, ex, Meas.make, MeasWF]

theorem exTeam_start : ∀ a, ∃ g₀ g : PoseGraph ℚ, PoseGraph.new a 3 2 = ok g₀ ∧
    g₀.setMeasurements exTeam = ok g := by
  intro a
  obtain ⟨g, e⟩ := C01_set_accepts (PoseGraph.empty
    { id := a, r := 3, d := 2, n := 0, odometry := [], privateLcs := [], sharedLcs := [],
      localShared := [], nbrShared := [], nbrRobots := [], nbrActive := [], neighborPoses := [],
      Q := none, G := none, precon := none, edgeIndex := [], useInactive := false, priors := [] })
    exTeam (by
      intro m hm
      simp only [exTeam, List.mem_cons, List.not_mem_nil, or_false] at hm
      rcases hm with rfl | rfl | rfl | rfl | rfl | rfl <;> exact ⟨rfl, rfl, rfl, rfl⟩)
  exact ⟨_, g, rfl, e⟩

/-- The hypotheses of C15 hold for robot 0 of this team, with a change of cost. -/
example : ∃ (g₀ g g₁ g₂ : PoseGraph ℚ) (f₀ f₁ : ℚ), PoseGraph.new 0 3 2 = ok g₀ ∧
    g₀.setMeasurements exTeam = ok g ∧
    upToDate 3 2 exJoint g [(⟨1, 0⟩, exPose 0), (⟨1, 1⟩, exPose 0)] ∧
    problemF (g.setNeighborPoses [(⟨1, 0⟩, exPose 0), (⟨1, 1⟩, exPose 0)]) (exJoint 0) =
      ok (f₀, g₁) ∧
    problemF g₁ (exX 2) = ok (f₁, g₂) ∧ f₁ ≠ f₀ := by
  refine ⟨_, _, _, _, _, _, rfl, rfl, ?_, rfl, rfl, ?_⟩
  · intro p hp
    have hp : p ∈ [(⟨1, 0⟩ : PoseID), ⟨1, 1⟩] := hp
    simp only [List.mem_cons, List.not_mem_nil, or_false] at hp
    rcases hp with rfl | rfl
    · refine ⟨exPose 0, rfl, ?_⟩
      intro ρ c h1 h2
      interval_cases ρ <;> interval_cases c <;> first | rfl | decide +kernel
    · refine ⟨exPose 0, rfl, ?_⟩
      intro ρ c h1 h2
      interval_cases ρ <;> interval_cases c <;> first | rfl | decide +kernel
  · decide +kernel

/-- The team's initial state. -/
def exState : TeamState ℚ where
  graph a := match (PoseGraph.new a 3 2 : Res (PoseGraph ℚ)) with
    | ok g₀ => match g₀.setMeasurements exTeam with
      | ok g => g
      | _ => g₀
    | _ => { id := a, r := 3, d := 2, n := 0, odometry := [], privateLcs := [], sharedLcs := [],
             localShared := [], nbrShared := [], nbrRobots := [], nbrActive := [],
             neighborPoses := [], Q := none, G := none, precon := none, edgeIndex := [],
             useInactive := false, priors := [] }
  X := exJoint

/-- The hypotheses of C16 hold for this team, and there is a step which lowers the cost. -/
example : teamStart 3 2 exTeam exState ∧ (∀ m ∈ exTeam, MeasWF m) ∧
    ∃ t, TeamStep 3 2 exState t ∧ teamCost 3 2 exTeam t.X < teamCost 3 2 exTeam exState.X := by
  refine ⟨?_, exTeam_wf, ?_⟩
  · intro a
    obtain ⟨g₀, g, h1, h2⟩ := exTeam_start a
    refine ⟨g₀, h1, ?_⟩
    simp only [exState, h1, h2]
  · refine ⟨_, .update exState 0 [(⟨1, 0⟩, exPose 0), (⟨1, 1⟩, exPose 0)] (exX (1 / 2)) _ _ _ _ ?_
      rfl rfl ?_, ?_⟩
    · intro p hp
      have hp : p ∈ [(⟨1, 0⟩ : PoseID), ⟨1, 1⟩] := hp
      simp only [List.mem_cons, List.not_mem_nil, or_false] at hp
      rcases hp with rfl | rfl
      · refine ⟨exPose 0, rfl, ?_⟩
        intro ρ c h1 h2
        interval_cases ρ <;> interval_cases c <;> first | rfl | decide +kernel
      · refine ⟨exPose 0, rfl, ?_⟩
        intro ρ c h1 h2
        interval_cases ρ <;> interval_cases c <;> first | rfl | decide +kernel
    · decide +kernel
    · decide +kernel

end Examples

end Dpgo.Props
