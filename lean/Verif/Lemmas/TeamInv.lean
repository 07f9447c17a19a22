import Verif.Lemmas.Team

/-! # What holds of a robot's graph in a team -/

namespace Dpgo

open Finset Res Spec PoseGraph

variable {K : Type} [Field K]

/-! ### The invariant of a robot in a team -/

/-- What holds of robot `a`'s graph throughout a run of the team. -/
structure TeamInv (r d : Nat) (E : List (Meas K)) (a : Nat) (g : PoseGraph K) : Prop where
  reach : Reachable a r d g
  id_eq : g.id = a
  r_eq : g.r = r
  d_eq : g.d = d
  fresh : Fresh g
  priors : g.priors = []
  use : g.useInactive = false
  active : allActive g
  edges : g.measurements = buckets a (firstWins (E.filter (touches a)))

theorem TeamInv.init {r d : Nat} {E : List (Meas K)} (hE : ∀ m ∈ E, MeasWF m) {a : Nat}
    {g₀ g : PoseGraph K} (hnew : PoseGraph.new a r d = ok g₀) (hset : g₀.setMeasurements E = ok g) :
    TeamInv r d E a g := by
  have hrun : g₀.run [.setMeasurements E] = ok g := by
    unfold PoseGraph.run
    rw [foldl_cons]
    have : g₀.step (.setMeasurements E) = ok g := hset
    rw [this]; rfl
  have hr : Reachable a r d g := by
    refine ⟨g₀, [.setMeasurements E], hnew, ?_, hrun⟩
    intro op hop
    rw [List.mem_singleton] at hop
    rw [hop]; exact hE
  obtain ⟨k1, k2, k3, k4, -, k6, k7, k8⟩ := setMeasurements_caches hset
  obtain ⟨t1, t2, t3, t4⟩ := setMeasurements_active hE hset
  have hms : g.measurements = buckets g₀.id (firstWins (E.filter (touches g₀.id))) := by
    obtain ⟨h, hid⟩ := foldl_addMeasurement (g := g₀.empty) (inv_empty g₀) hE hset
    rw [h.measurements, foldl_add_nil, hid]
    rfl
  simp only [PoseGraph.new, bind_eq_ok] at hnew
  obtain ⟨_, _, e⟩ := hnew
  cases e
  exact ⟨hr, t3, t4, t2, Fresh.of_uncached ⟨k1, k2, k3⟩, k4, k8, t1, hms⟩

theorem TeamInv.poses {r d : Nat} {E : List (Meas K)} {a : Nat} {g : PoseGraph K}
    (h : TeamInv r d E a g) (dict : PoseDict K) : TeamInv r d E a (g.setNeighborPoses dict) := by
  obtain ⟨h1, h2, h3, h4, h5, h6, h7, h8, h9⟩ := h
  have e : g.step (.setNeighborPoses dict) = ok (g.setNeighborPoses dict) := rfl
  exact ⟨Reachable.snoc (op := .setNeighborPoses dict) h1 trivial e, h2, h3, h4, h5.step h1 (op := .setNeighborPoses dict) (Or.inl h7) e, h6, h7, h8, h9⟩

theorem TeamInv.problemF {r d : Nat} {E : List (Meas K)} {a : Nat} {g g' : PoseGraph K}
    (h : TeamInv r d E a g) {X : DMat K} {f : K} (e : Dpgo.problemF g X = ok (f, g')) :
    TeamInv r d E a g' := by
  obtain ⟨h1, h2, h3, h4, h5, h6, h7, h8, h9⟩ := h
  obtain ⟨s1, s2, s3, s4⟩ := problemF_keeps h1 h5 e
  refine ⟨s4, s1.id.trans h2, s1.r.trans h3, s1.d.trans h4, s3, s1.priors.trans h6,
    s1.useInactive.trans h7, ?_, ?_⟩
  · intro i hi
    rw [s1.isNeighborActive]
    rw [s2.nbrRobots] at hi
    exact h8 i hi
  · rw [← h9]
    unfold PoseGraph.measurements
    rw [s2.odometry, s2.privateLcs, s2.sharedLcs]

/-- Heart of C15 and C16. -/
theorem TeamInv.change (h2 : (2 : K) ≠ 0) {r d : Nat} (hd : 0 < d) {E : List (Meas K)} {a : Nat}
    {g : PoseGraph K} (h : TeamInv r d E a g) (X : Joint K) (Y : DMat K)
    (hup : upToDate r d X g g.neighborPoses) {f₀ f₁ : K} {g₁ g₂ : PoseGraph K}
    (e₀ : Dpgo.problemF g (X a) = ok (f₀, g₁)) (e₁ : Dpgo.problemF g₁ Y = ok (f₁, g₂)) :
    f₁ - f₀ = teamCost r d E (Function.update X a Y) - teamCost r d E X := by
  obtain ⟨s1, s2, -, -⟩ := problemF_keeps h.reach h.fresh e₀
  have h' := h.problemF e₀
  obtain ⟨⟨log, hi⟩, -⟩ := Reachable.inv h.reach
  obtain ⟨⟨log', hi'⟩, -⟩ := Reachable.inv h'.reach
  have hm := hi.not_missing r d X hup
  have hup' : upToDate r d X g₁ g₁.neighborPoses := by
    intro p hp
    rw [s2.nbrShared] at hp
    obtain ⟨P, q1, q2⟩ := hup p hp
    exact ⟨P, by rw [s1.neighborPoses]; exact q1, q2⟩
  have hm' := hi'.not_missing r d X hup'
  have c0 := objective_fresh h2 h.reach (h.d_eq ▸ hd) h.fresh hm e₀
  have c1 := objective_fresh h2 h'.reach (h'.d_eq ▸ hd) h'.fresh hm' e₁
  have hg : ∀ Z, graphCost g₁ Z = graphCost g Z := fun Z => s1.graphCost Z
  have hz : zeroEst g₁ = zeroEst g := by unfold zeroEst; rw [s1.r, s1.d, s1.n]
  have key := teamCost_diff hi h.priors h.active E (by rw [h.id_eq]; exact h.edges) X Y
    (by rw [h.r_eq, h.d_eq]; exact hup)
  rw [h.id_eq, h.r_eq, h.d_eq] at key
  rw [c0, c1, key, hg, hg, hz]
  ring

end Dpgo
