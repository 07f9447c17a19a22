import Verif.Lemmas.Chordal
import Verif.Lemmas.Optimizer
import Verif.Lemmas.RobustAvg
import Verif.Lemmas.TeamInv
import Verif.Spec.Solver

/-! # Lemmas about the single-robot solvers -/

namespace Dpgo

open Res Spec PoseGraph Finset

section
variable {K : Type} [Field K]

omit [Field K] in
theorem PoseGraph.Inv.local_own {g : PoseGraph K} {log : List (Meas K)} (h : Inv g log) :
    ∀ m ∈ g.localMeasurements, m.r1 = g.id ∧ m.r2 = g.id ∧ m.p1 < g.n ∧ m.p2 < g.n := by
  intro m hm
  unfold PoseGraph.localMeasurements at hm
  rw [h.odo, h.priv, List.mem_append, List.mem_filter, List.mem_filter] at hm
  have hl : m ∈ log := by rcases hm with hm | hm <;> exact hm.1
  have hr : m.r1 = g.id ∧ m.r2 = g.id := by
    rcases hm with hm | hm
    · have := hm.2; simp only [isOdo, Bool.and_eq_true, beq_iff_eq] at this; exact this.1
    · have := hm.2; simp only [isPriv, Bool.and_eq_true, beq_iff_eq] at this; exact this.1
  have hu := h.n_ub m hl
  unfold ownIndices at hu
  rw [hr.1, hr.2] at hu
  exact ⟨hr.1, hr.2, hu _ (by simp), hu _ (by simp)⟩

/-- Size of the assembled `Q`. -/
theorem PoseGraph.Inv.constructQ_size {g : PoseGraph K} {log : List (Meas K)} (h : Inv g log)
    (hd : 0 < g.d) (hne : g.localMeasurements ≠ []) {Q : DMat K}
    (e : g.constructQ = ok (some Q)) : Q.rows = (g.d + 1) * g.n := by
  simp only [constructQ, bind_eq_ok] at e
  obtain ⟨QL, hQL, S, hS, e⟩ := e
  cases S with
  | none => cases e
  | some D =>
    simp only [bind_eq_ok] at e
    obtain ⟨D', hD', S', hS', e⟩ := e
    cases e
    obtain ⟨l1, l2, -, -⟩ := connectionLaplacian_qform _ _ hQL (fun _ => 0)
    change QL.rows = _
    rw [l1, h.measDim_eq hne]
    congr 1
    have hle : (g.d + 1) * g.n ≤ QL.rows := by
      rcases ofTriplets_diag QL.rows g.d g.n D' with ⟨s1, -⟩ | ⟨-, s2⟩
      · exact s1
      · rw [l2] at hS'; rw [hS'] at s2; cases s2
    rw [l1, h.measDim_eq hne] at hle
    have h1 := Nat.le_of_mul_le_mul_left hle (by omega)
    have h2 : maxPoseIndex g.localMeasurements < g.n := by
      have hn : 0 < g.n := by
        obtain ⟨m, hm⟩ := List.exists_mem_of_ne_nil _ hne
        have := h.local_own m hm
        omega
      exact maxPoseIndex_lt hn (fun m hm => (h.local_own m hm).2.2)
    omega

/-- When the objective can be evaluated on a graph without cached matrices. -/
theorem problemF_total {id r d : Nat} {g : PoseGraph K} (hg : Reachable id r d g) (hd : 0 < g.d)
    (hne : g.localMeasurements ≠ []) (hself : ¬ hasSelfLoop g) (hmiss : ¬ posesMissing g)
    (hcov : posesCovered g) (hP : PosesOk g) (hQ : g.Q = none) (hG : g.G = none) {X : DMat K}
    (hr : X.rows = g.r) (hc : X.cols = (g.d + 1) * g.n) : ∃ v g', problemF g X = ok (v, g') := by
  obtain ⟨⟨log, h⟩, -⟩ := Reachable.inv hg
  rcases h.constructQ_cases hd (priors_lt hg) with ⟨c, -⟩ | ⟨-, c, -⟩ | ⟨-, -, c, -⟩ | ⟨-, -, -, Q, c⟩
  · exact absurd c hself
  · exact absurd c hmiss
  · exact absurd hcov c
  · rcases h.constructG_cases hP (priors_lt hg) with ⟨c', -⟩ | ⟨-, G, c'⟩
    · exact absurd c' hmiss
    · have q1 := h.constructQ_size hd hne c
      obtain ⟨q2, -, -⟩ := h.constructQ_ok c
      obtain ⟨g1, g2, -⟩ := h.constructG_ok c'
      have c'' := (sameData_caches g (some Q) none g.precon).constructG.trans c'
      have e1 : g.quadraticMatrix = ok (Q, { g with Q := some Q }) := by
        unfold quadraticMatrix
        rw [hQ]
        simp only [c, ok_bind]
      have e2 : ({ g with Q := some Q } : PoseGraph K).linearMatrix =
          ok (G, { g with Q := some Q, G := some G }) := by
        unfold linearMatrix
        simp only [hG]
        have : ({ g with Q := some Q } : PoseGraph K).constructG = ok (some G) := by
          rw [← c'', ← hG]
        rw [hG] at this
        rw [this]
        rfl
      refine ⟨objective Q G X, { g with Q := some Q, G := some G }, ?_⟩
      unfold problemF
      rw [e1]
      simp only [ok_bind]
      rw [e2]
      simp only [ok_bind, hr, hc, q2, q1, g1, g2, beq_self_eq_true, Bool.and_self, check_true,
        require_true]
      rfl

omit [Field K] in
theorem mem_of_firstWins {l : List (Meas K)} {m : Meas K} (h : m ∈ firstWins l) : m ∈ l := by
  induction l with
  | nil => simp [firstWins] at h
  | cons a l ih =>
    rw [firstWins, List.mem_cons, List.mem_filter] at h
    rcases h with rfl | ⟨h, -⟩
    · simp
    · exact List.mem_cons_of_mem _ (ih h)

omit [Field K] in
theorem exists_firstWins {l : List (Meas K)} {m : Meas K} (h : m ∈ l) :
    ∃ m' ∈ firstWins l, m'.r1 = m.r1 ∧ m'.p1 = m.p1 ∧ m'.r2 = m.r2 ∧ m'.p2 = m.p2 := by
  induction l with
  | nil => simp at h
  | cons a l ih =>
    rw [firstWins]
    rcases List.mem_cons.1 h with rfl | h
    · exact ⟨m, by simp, rfl, rfl, rfl, rfl⟩
    · obtain ⟨m', h1, h2⟩ := ih h
      by_cases hs : sameEnds a m' = true
      · refine ⟨a, by simp, ?_⟩
        simp only [sameEnds, Bool.and_eq_true, beq_iff_eq] at hs
        obtain ⟨⟨⟨s1, s2⟩, s3⟩, s4⟩ := hs
        exact ⟨s1.trans h2.1, s2.trans h2.2.1, s3.trans h2.2.2.1, s4.trans h2.2.2.2⟩
      · exact ⟨m', by rw [List.mem_cons, List.mem_filter]; exact Or.inr ⟨h1, by simpa using hs⟩, h2⟩

/-- The graph of a one-robot problem. -/
structure OneGraph (id r d n : Nat) (ms : List (Meas K)) (g : PoseGraph K) : Prop where
  team : TeamInv r d ms id g
  n_eq : g.n = n
  local_ne : g.localMeasurements ≠ []
  noSelf : ¬ hasSelfLoop g
  noShared : g.sharedLcs = []
  covered : posesCovered g
  poses : g.neighborPoses = []
  Q : g.Q = none
  G : g.G = none

theorem oneGraph {id r d n : Nat} {ms : List (Meas K)} (h : OneRobot id d n ms) (hr : d ≤ r) :
    ∃ g₀ g, PoseGraph.new id r d = ok g₀ ∧ g₀.setMeasurements ms = ok g ∧ OneGraph id r d n ms g := by
  have e0 : ∃ g₀ : PoseGraph K, PoseGraph.new id r d = ok g₀ ∧ g₀.d = d ∧ g₀.id = id := by
    unfold PoseGraph.new
    simp only [hr, decide_true, check_true, ok_bind]
    exact ⟨_, rfl, rfl, rfl⟩
  obtain ⟨g₀, e0, hd, hid⟩ := e0
  obtain ⟨g, e1⟩ := foldl_addMeasurement_ok (g := g₀.empty) ms (by
    intro m hm
    change MDims g₀.d m
    rw [hd]; exact h.dims m hm)
  have e1 : g₀.setMeasurements ms = ok g := e1
  obtain ⟨hi, hid'⟩ := foldl_addMeasurement (g := g₀.empty) (inv_empty g₀) h.wf e1
  have hid1 : g₀.empty.id = id := hid
  rw [hid1] at hid' hi
  rw [foldl_add_nil] at hi
  have hf : ms.filter (touches id) = ms := by
    rw [List.filter_eq_self]
    intro m hm
    simp [touches, (h.ids m hm).1]
  rw [hf] at hi
  have ht := TeamInv.init h.wf e0 e1
  obtain ⟨k1, k2, -, -, k5, -, -, -⟩ := setMeasurements_caches e1
  have hsh : g.sharedLcs = [] := by
    rw [hi.shared, List.filter_eq_nil_iff]
    intro m hm
    have := h.ids m (mem_of_firstWins hm)
    simp [isShared, hid', this.1, this.2]
  have hloc : ∀ m, m ∈ g.localMeasurements ↔ m ∈ firstWins ms := by
    intro m
    rw [← hi.mem_measurements]
    unfold PoseGraph.measurements PoseGraph.localMeasurements
    rw [hsh, List.append_nil]
  have hidx : ∀ m ∈ ms, m.p1 < g.n ∧ m.p2 < g.n := by
    intro m hm
    obtain ⟨m', h1, -, h2, -, h3⟩ := exists_firstWins hm
    have := hi.local_own m' ((hloc m').2 h1)
    rw [← h2, ← h3]; exact this.2.2
  have hn : g.n = n := by
    obtain ⟨hall, m, hm, he⟩ := h.num
    have h1 := hidx m hm
    rcases hi.n_lub with h0 | ⟨m', hm', i, hi', hn⟩
    · omega
    · have h2 := hall m' (mem_of_firstWins hm')
      have h3 : i = m'.p1 ∨ i = m'.p2 := by
        have := h.ids m' (mem_of_firstWins hm')
        rw [ownIndices, hid', if_pos this.1, if_pos this.2] at hi'
        simpa using hi'
      omega
  refine ⟨g₀, g, e0, e1, ht, hn, ?_, ?_, hsh, ?_, k5, k1, k2⟩
  · obtain ⟨m, hm⟩ := List.exists_mem_of_ne_nil _ h.nonempty
    obtain ⟨m', h1, -⟩ := exists_firstWins hm
    exact List.ne_nil_of_mem ((hloc m').2 h1)
  · rintro ⟨m, hm, e⟩
    exact h.noSelf m (mem_of_firstWins ((hloc m).1 hm)) e
  · intro i hin
    obtain ⟨m, hm, he⟩ := h.num.2
    obtain ⟨m', h1, -, h2, -, h3⟩ := exists_firstWins hm
    exact ⟨m', (hloc m').2 h1, by omega⟩

end

end Dpgo
