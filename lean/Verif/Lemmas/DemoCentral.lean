import Verif.Lemmas.DemoCreate
import Verif.Lemmas.SolverRun

/-! # The central problem of the demo -/

namespace Dpgo.Example

open Res Spec PoseGraph

/-- The graph of the central problem, before and after its matrices have been computed. -/
structure Central (r d n : Nat) (D : List (Meas ℝ)) (g : PoseGraph ℝ) : Prop where
  team : TeamInv r d D 0 g
  n_eq : g.n = n
  noShared : g.sharedLcs = []
  total : ∀ X : DMat ℝ, X.rows = r → X.cols = (d + 1) * n → ∃ f g', problemF g X = ok (f, g')

section
variable {r d n : Nat} {D : List (Meas ℝ)} {g : PoseGraph ℝ}

theorem Central.upToDate (h : Central r d n D g) (X : Joint ℝ) : Spec.upToDate r d X g g.neighborPoses := by
  intro p hp
  obtain ⟨⟨log, hi⟩, -⟩ := Reachable.inv h.team.reach
  obtain ⟨m, hm, hs, -⟩ := (hi.nbrMem p).1 hp
  have : m ∈ g.sharedLcs := by rw [hi.shared, List.mem_filter]; exact ⟨hm, hs⟩
  rw [h.noShared] at this
  cases this

theorem central_start (hD : OneRobot 0 d n D) (hr : d ≤ r) :
    ∃ g₀ g, PoseGraph.new 0 r d = ok g₀ ∧ g₀.setMeasurements D = ok g ∧ Central r d n D g := by
  obtain ⟨g₀, g, e0, e1, h⟩ := oneGraph hD hr
  have hd : 0 < d := by rcases hD.dim with rfl | rfl <;> omega
  exact ⟨g₀, g, e0, e1, h.team, h.n_eq, h.noShared, fun X h1 h2 => h.problemF_total hd h1 h2⟩

theorem problemF_cached {g : PoseGraph ℝ} {Q G X : DMat ℝ} (hQ : g.Q = some Q) (hG : g.G = some G)
    (h1 : X.rows = g.r) (h2 : X.cols = (g.d + 1) * g.n) (h3 : Q.rows = X.cols) (h4 : Q.cols = X.cols)
    (h5 : G.rows = X.rows) (h6 : G.cols = X.cols) : problemF g X = ok (objective Q G X, g) := by
  have e1 : g.quadraticMatrix = ok (Q, g) := by
    unfold quadraticMatrix
    split
    · rename_i q hq; rw [hQ] at hq; cases hq; rfl
    · rename_i hq; rw [hQ] at hq; cases hq
  have e2 : g.linearMatrix = ok (G, g) := by
    unfold linearMatrix
    split
    · rename_i q hq; rw [hG] at hq; cases hq; rfl
    · rename_i hq; rw [hG] at hq; cases hq
  unfold problemF
  rw [e1]
  simp only [ok_bind, e2, h1, h2, h3, h4, h5, h6, beq_self_eq_true, check_true, Bool.and_self, require_true]
  rfl

theorem Central.problemF (h : Central r d n D g) {X : DMat ℝ} {f : ℝ} {g' : PoseGraph ℝ}
    (e : Dpgo.problemF g X = ok (f, g')) : Central r d n D g' := by
  obtain ⟨Q, G, rfl, -, h1, h2, h3, h4, h5, h6, -⟩ := problemF_full e
  refine ⟨h.team.problemF e, h.n_eq, h.noShared, fun Y y1 y2 => ⟨_, _, problemF_cached rfl rfl ?_ ?_ ?_ ?_ ?_ ?_⟩⟩
  · rw [y1, ← h.team.r_eq]
  · rw [y2, ← h.team.d_eq, ← h.n_eq]
  · rw [h3, h2, h.team.d_eq, h.n_eq, y2]
  · rw [h4, h2, h.team.d_eq, h.n_eq, y2]
  · rw [h5, h1, h.team.r_eq, y1]
  · rw [h6, h2, h.team.d_eq, h.n_eq, y2]

theorem teamCost_zero {K : Type} [Field K] (r d c : Nat) (E : List (Meas K)) :
    teamCost r d E (fun _ => DMat.zero r c) = 0 := by
  unfold teamCost
  have : ((firstWins E).map fun m => edgeCost r d m (DMat.zero r c) m.p1 (DMat.zero r c) m.p2) =
      (firstWins E).map fun _ => 0 := by
    refine List.map_congr_left fun m _ => ?_
    simp [edgeCost, rotRes, traRes, rot, tra, DMat.zero]
  rw [this]
  simp

theorem Central.cost (hD : OneRobot 0 d n D) (h : Central r d n D g) {X : DMat ℝ} {f : ℝ} {g' : PoseGraph ℝ}
    (e : Dpgo.problemF g X = ok (f, g')) : f = teamCost r d D (fun _ => X) := by
  have hd : 0 < d := by rcases hD.dim with rfl | rfl <;> omega
  obtain ⟨⟨log, hi⟩, -⟩ := Reachable.inv h.team.reach
  have hup := h.upToDate (fun _ => zeroEst g)
  have h1 := objective_fresh two_ne_zero h.team.reach (by rw [h.team.d_eq]; exact hd) h.team.fresh
    (hi.not_missing r d _ hup) e
  have h2 := teamCost_diff hi h.team.priors h.team.active D (by rw [h.team.id_eq]; exact h.team.edges)
    (fun _ => zeroEst g) X (by rw [h.team.r_eq, h.team.d_eq]; exact hup)
  rw [h1, ← h2, h.team.id_eq, teamCost_const hD.ids]
  unfold zeroEst
  rw [teamCost_zero, sub_zero, h.team.r_eq, h.team.d_eq]

/-- The gradient is computed whenever the cost is, and leaves the graph in the same state. -/
theorem grad_total (oc : OptOracles) {g g' : PoseGraph ℝ} {X : DMat ℝ} {f : ℝ}
    (e : Dpgo.problemF g X = ok (f, g')) :
    ∃ Q G, g' = { g with Q := some Q, G := some G } ∧ f = objective Q G X ∧
      centralGrad oc g X = ok (DMat.ofMat (rieGrad oc g' Q G X), g') ∧ Dpgo.problemF g' X = ok (f, g') := by
  obtain ⟨Q', G', hg', hf, h1, h2, h3, h4, h5, h6, -⟩ := problemF_full e
  have e' := e
  unfold Dpgo.problemF at e
  rw [bind_eq_ok] at e
  obtain ⟨_, c1, e⟩ := e
  rw [bind_eq_ok] at e
  obtain ⟨_, c2, e⟩ := e
  rw [bind_eq_ok] at e
  obtain ⟨⟨Q, g1⟩, hq, e⟩ := e
  simp only at e
  rw [bind_eq_ok] at e
  obtain ⟨⟨G, g2⟩, hg, e⟩ := e
  simp only at e
  rw [bind_eq_ok] at e
  obtain ⟨_, c3, e⟩ := e
  cases e
  have q1 : g1.Q = some Q := by
    rcases quadraticMatrix_ok hq with ⟨a, rfl⟩ | ⟨a, -, rfl⟩
    · exact a
    · rfl
  have q2 : g'.Q = g1.Q ∧ g'.G = some G := by
    rcases linearMatrix_ok hg with ⟨c, rfl⟩ | ⟨c, -, rfl⟩
    · exact ⟨rfl, c⟩
    · exact ⟨rfl, rfl⟩
  have hQ : Q = Q' := by
    have : g'.Q = some Q' := by rw [hg']
    rw [q2.1, q1] at this
    exact Option.some.inj this
  have hG : G = G' := by
    have : g'.G = some G' := by rw [hg']
    rw [q2.2] at this
    exact Option.some.inj this
  refine ⟨Q, G, by rw [hQ, hG]; exact hg', rfl, ?_, ?_⟩
  · unfold centralGrad
    rw [c1, c2, hq]
    simp only [ok_bind, hg, c3]
  · rw [hf]
    refine problemF_cached (by rw [hg']) (by rw [hg']) ?_ ?_ h3 h4 h5 h6
    · rw [hg']; exact h1
    · rw [hg']; exact h2

end

end Dpgo.Example
