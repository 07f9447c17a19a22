import Verif.Props.PoseGraph
import Verif.Model.Agent

/-! # Setting the weight of a measurement (C02, through the robot) -/

namespace Dpgo.Props

open Res Spec PoseGraph

/-- **C02.** `setMeasurementWeight` returns; it reports success exactly when the robot stores a measurement from `src` to
`dst`.  On success that measurement has the new weight and flag, and every other stored measurement is as before; on
failure nothing changes. -/
theorem C02_set_weight {id r d : Nat} {a : Agent} (hg : Reachable id r d a.graph) (src dst : PoseID) (w : ℝ)
    (fixed : Bool) :
    ∃ b a', a.setMeasurementWeight src dst w fixed = ok (b, a') ∧
      (b = true ↔ ∃ m ∈ a.graph.measurements, hasEnds src dst m = true) ∧ (b = false → a' = a) ∧
      a' = { a with graph := a'.graph } ∧
      (b = true → ∃ p m, a.graph.deref p = some m ∧ hasEnds src dst m = true ∧
        a'.graph.deref p = some { m with weight := w, fixedWeight := fixed } ∧
        ∀ q, q ≠ p → a'.graph.deref q = a.graph.deref q) := by
  obtain ⟨-, h2, h3⟩ := C02_lookup id r d a.graph hg src dst
  by_cases h : ∃ m ∈ a.graph.measurements, hasEnds src dst m = true
  · obtain ⟨m, hm, he⟩ := h
    obtain ⟨p, e, hp⟩ := h3 m hm he
    refine ⟨true, { a with graph := a.graph.writeWeight p w fixed }, ?_, ⟨fun _ => ⟨m, hm, he⟩, fun _ => rfl⟩,
      fun h => (by cases h), rfl, fun _ => ⟨p, m, hp, he, ?_, ?_⟩⟩
    · unfold Agent.setMeasurementWeight
      rw [e]
      rfl
    · cases p <;> simp only [deref] at hp <;> simp [writeWeight, deref, hp]
    · intro q hq
      cases p <;> cases q <;> simp only [writeWeight, deref]
      all_goals
        rename_i i j
        have : i ≠ j := fun e => hq (by rw [e])
        simp [this]
  · have hn : ∀ m ∈ a.graph.measurements, hasEnds src dst m = false := fun m hm => by
      by_contra hc
      exact h ⟨m, hm, by simpa using hc⟩
    refine ⟨false, a, ?_, ⟨fun h => (by cases h), fun h' => absurd h' h⟩, fun _ => rfl, rfl, fun h => by cases h⟩
    unfold Agent.setMeasurementWeight
    rw [h2 hn]
    rfl

/-- A planar edge from pose 0 to pose 1 of robot 0. -/
noncomputable def exStored : Meas ℝ := Meas.make 0 0 0 1 (DMat.one 2 2) (DMat.zero 2 1) 1 1

/-- A robot that stores an edge can set its weight, but not that of the reverse edge. -/
example (a : Agent) : ∃ g : PoseGraph ℝ, Reachable 0 3 2 g ∧
    (∃ a', { a with graph := g }.setMeasurementWeight ⟨0, 0⟩ ⟨0, 1⟩ 0 true = ok (true, a')) ∧
    { a with graph := g }.setMeasurementWeight ⟨0, 1⟩ ⟨0, 0⟩ 0 true = ok (false, { a with graph := g }) := by
  obtain ⟨g, hg, hm⟩ : ∃ g : PoseGraph ℝ, Reachable 0 3 2 g ∧ g.measurements = [exStored] :=
    ⟨_, ⟨_, [.addMeasurement exStored], rfl, by simp [OpWF, exStored, Meas.make, MeasWF], rfl⟩, rfl⟩
  refine ⟨g, hg, ?_, ?_⟩
  · obtain ⟨b, a', e, hb, -⟩ := C02_set_weight (a := { a with graph := g }) hg ⟨0, 0⟩ ⟨0, 1⟩ 0 true
    have : b = true := hb.2 ⟨exStored, by rw [hm]; simp, rfl⟩
    exact ⟨a', this ▸ e⟩
  · obtain ⟨b, a', e, hb, hf, -⟩ := C02_set_weight (a := { a with graph := g }) hg ⟨0, 1⟩ ⟨0, 0⟩ 0 true
    have : b = false := by
      by_contra hc
      obtain ⟨m, h1, h2⟩ := hb.1 (by simpa using hc)
      rw [hm, List.mem_singleton] at h1
      subst h1
      cases h2
    rw [e, hf this, this]

end Dpgo.Props
