import Verif.Lemmas.Schedule
import Verif.Lemmas.DemoCreate
import Verif.Lemmas.AgentReweight

/-! # Setting up an agent for a team -/

namespace Dpgo

open Res Spec PoseGraph

/-- The edges of a robot, sorted into the three lists. -/
theorem takes_edges {E : List (Meas ℝ)} {ag : Agent} (hE : Equips ag.d E ag.id) (hd : ag.d ≤ ag.r)
    (hw : ag.state = .WAIT_FOR_DATA) (hr : ag.running = false) :
    ∃ g, ag.setMeasurements (E.filter (isOdo ag.id)) (E.filter (isPriv ag.id)) (E.filter (isShared ag.id)) =
        ok { ag with graph := g } ∧ TeamInv ag.r ag.d E ag.id g ∧ uncached g := by
  obtain ⟨g₀, hg₀, hd₀⟩ : ∃ g₀ : PoseGraph ℝ, PoseGraph.new ag.id ag.r ag.d = ok g₀ ∧ g₀.d = ag.d := by
    unfold PoseGraph.new
    rw [decide_eq_true hd]
    exact ⟨_, rfl, rfl⟩
  have hsub : ∀ m ∈ E.filter (isOdo ag.id) ++ E.filter (isPriv ag.id) ++ E.filter (isShared ag.id),
      m ∈ E := by
    intro m hm
    simp only [List.mem_append, List.mem_filter] at hm
    tauto
  obtain ⟨g, hg⟩ := PoseGraph.foldl_addMeasurement_ok (g := g₀.empty)
    (E.filter (isOdo ag.id) ++ E.filter (isPriv ag.id) ++ E.filter (isShared ag.id))
    (fun m hm => by rw [show g₀.empty.d = ag.d from hd₀]; exact hE.dims m (hsub m hm))
  have hg' : g₀.setMeasurements (E.filter (isOdo ag.id) ++ E.filter (isPriv ag.id) ++
    E.filter (isShared ag.id)) = ok g := hg
  have hinv := TeamInv.init (E := E.filter (isOdo ag.id) ++ E.filter (isPriv ag.id) ++
    E.filter (isShared ag.id)) (fun m hm => hE.wf m (hsub m hm)) hg₀ hg
  have hb := hinv.edges
  rw [Example.buckets_lists] at hb
  obtain ⟨c1, c2, c3, -⟩ := setMeasurements_caches hg'
  refine ⟨g, ?_, { hinv with edges := hb }, c1, c2, c3⟩
  have hc1 : (!ag.running) = true := by rw [hr]; rfl
  have hc2 : (ag.state == .WAIT_FOR_DATA) = true := by rw [hw]; rfl
  have hc3 : (E.filter (isOdo ag.id)).isEmpty = false := by
    rw [List.isEmpty_eq_false_iff]
    obtain ⟨m, h1, h2⟩ := hE.odo
    exact List.ne_nil_of_mem (List.mem_filter.2 ⟨h1, h2⟩)
  unfold Agent.setMeasurements
  simp only [hc1, hc2, hc3, hg₀, hg', check_true, ok_bind, Bool.false_eq_true, if_false]

theorem TeamInv.mem {r d i : Nat} {E : List (Meas ℝ)} {g : PoseGraph ℝ} (h : TeamInv r d E i g)
    {m : Meas ℝ} : m ∈ g.localMeasurements ↔ m ∈ firstWins E ∧ m.r1 = i ∧ m.r2 = i := by
  obtain ⟨lo, lp, -⟩ := h.lists
  unfold PoseGraph.localMeasurements
  rw [lo, lp]
  simp only [List.mem_append, List.mem_filter, isOdo, isPriv, Bool.and_eq_true, beq_iff_eq, bne_iff_ne]
  tauto

/-- The number of poses of the graph. -/
theorem TeamInv.count {r d i : Nat} {E : List (Meas ℝ)} {g : PoseGraph ℝ} (h : TeamInv r d E i g)
    (ho : ∃ m ∈ E, isOdo i m = true) :
    (∀ m ∈ E, ∀ x ∈ ownIndices i m, x < g.n) ∧ ∃ m ∈ E, ∃ x ∈ ownIndices i m, g.n = x + 1 := by
  obtain ⟨lo, lp, ls⟩ := h.lists
  obtain ⟨⟨log, hi⟩, hid⟩ := Reachable.inv h.reach
  have hmem : ∀ m, m ∈ g.measurements ↔ m ∈ firstWins E ∧ touches i m = true := by
    intro m
    unfold PoseGraph.measurements
    rw [lo, lp, ls]
    simp only [List.mem_append, List.mem_filter, isOdo, isPriv, isShared, touches, Bool.and_eq_true,
      Bool.or_eq_true, beq_iff_eq, bne_iff_ne]
    tauto
  have first : ∀ m ∈ E, ∀ x ∈ ownIndices i m, x < g.n := by
    intro m hm x hx
    obtain ⟨m', hm', hs⟩ := exists_firstWins hm
    have hx' : x ∈ ownIndices i m' := by
      unfold ownIndices at hx ⊢
      rw [hs.1, hs.2.1, hs.2.2.1, hs.2.2.2]
      exact hx
    have ht : touches i m' = true := by
      unfold ownIndices at hx'
      unfold touches
      simp only [List.mem_append] at hx'
      rcases hx' with c | c
      · by_cases k : m'.r1 = i
        · simp [k]
        · rw [if_neg k] at c; cases c
      · by_cases k : m'.r2 = i
        · simp [k]
        · rw [if_neg k] at c; cases c
    refine hi.n_ub m' ((hi.mem_measurements m').1 ((hmem m').2 ⟨hm', ht⟩)) _ ?_
    rw [hid]; exact hx'
  refine ⟨first, ?_⟩
  rcases hi.n_lub with h0 | ⟨m', hm', x, hx, e⟩
  · obtain ⟨m, hm, hk⟩ := ho
    simp only [isOdo, Bool.and_eq_true, beq_iff_eq] at hk
    have := first m hm m.p1 (by unfold ownIndices; rw [if_pos hk.1.1]; simp)
    omega
  · exact ⟨m', Example.mem_firstWins ((hmem m').1 ((hi.mem_measurements m').2 hm')).1, x,
      by rw [← hid]; exact hx, by omega⟩

section
variable {o : AgentOracles} {p : AgentParams} {E : List (Meas ℝ)} {i : Nat}

/-- Everything up to the measurements. -/
theorem muster (hrd : p.d ≤ p.r) (hE : Equips p.d E i) {Y : DMat ℝ} (h1 : Y.rows = p.r) (h2 : Y.cols = p.d) :
    ∃ a₀ a₁ a₂, Agent.new o i p = ok a₀ ∧ a₀.setLiftingMatrix Y = ok a₁ ∧
      a₁.setMeasurements (E.filter (isOdo i)) (E.filter (isPriv i)) (E.filter (isShared i)) = ok a₂ ∧
      Example.Newcomer o p i a₁ ∧ (∃ Y, a₁.YLift = some Y) ∧ ∃ g, a₂ = { a₁ with graph := g } ∧
        TeamInv p.r p.d E i g ∧ uncached g ∧ AgReach o i p a₂ := by
  obtain ⟨a₀, e0, h0, -⟩ := Example.new_total (o := o) hrd i
  obtain ⟨a₁, e1, hn, hY⟩ := h0.lifted h1 h2
  have hi := agReach_inv hn.reach
  obtain ⟨g, e2, ht, hu⟩ := takes_edges (E := E) (ag := a₁) (by rw [hi.d, hi.id]; exact hE)
    (by rw [hi.d, hi.r]; exact hrd) hn.state hn.running
  have e3 : a₁.setMeasurements (E.filter (isOdo i)) (E.filter (isPriv i)) (E.filter (isShared i)) =
      ok { a₁ with graph := g } := by
    rw [hi.id] at e2
    rw [e2, ← hi.id]
  rw [hi.id, hi.r, hi.d] at ht
  have hwf : ∀ m ∈ E.filter (isOdo i) ++ E.filter (isPriv i) ++ E.filter (isShared i), MeasWF m := by
    intro m hm
    simp only [List.mem_append, List.mem_filter] at hm
    exact hE.wf m (by tauto)
  exact ⟨a₀, a₁, _, e0, e1, e3, hn, hY, g, rfl, ht, hu,
    agReach_snoc (op := .setMeasurements _ _ _) hn.reach hwf e3⟩

/-- Weights that are one already. -/
theorem weightsToOne_same {g g' : PoseGraph ℝ} {ps : List MPtr}
    (h : ∀ m ∈ g.measurements, m.fixedWeight = false → m.weight = 1) (e : Agent.weightsToOne g ps = ok g') :
    g' = g := by
  have same : ∀ (l : List (Meas ℝ)) (i : Nat) (m : Meas ℝ), l[i]? = some m → m.weight = 1 →
      l.modify i (fun m' => { m' with weight := 1, fixedWeight := m.fixedWeight }) = l := by
    intro l i m hm hw
    apply List.ext_getElem?
    intro j
    rw [List.getElem?_modify]
    by_cases c : i = j
    · subst c
      rw [hm, Option.map_eq_map, Option.map_some, if_pos rfl, ← hw]
    · simp [c]
  induction ps with
  | nil => cases e; rfl
  | cons q ps ih =>
    unfold Agent.weightsToOne at e ih
    rw [foldl_cons, bind_eq_ok'] at e
    obtain ⟨g₁, e1, e⟩ := e
    cases hq : g.deref q with
    | none => rw [hq] at e1; cases e1
    | some m =>
      rw [hq] at e1
      simp only [Res.ok.injEq] at e1
      have : g₁ = g := by
        rw [← e1]
        split
        · rfl
        · rename_i hf
          have hm : m ∈ g.measurements := mem_measurements_iff.2 ⟨q, hq⟩
          have hw := h m hm (by simpa using hf)
          unfold PoseGraph.deref at hq
          unfold PoseGraph.writeWeight
          cases q with
          | odo i => simp only at hq ⊢; rw [same _ i m hq hw]
          | priv i => simp only at hq ⊢; rw [same _ i m hq hw]
          | shared i => simp only at hq ⊢; rw [same _ i m hq hw]
      rw [this] at e
      exact ih e

theorem init_supplied_graph {ID r d : Nat} {a a' : Agent} {T : PArr ℝ} (hg : Reachable ID r d a.graph)
    (hl : a.params.robust.costType = .L2 ∨ ∀ m ∈ a.graph.measurements, m.fixedWeight = false → m.weight = 1)
    (h1 : T.d = a.graph.d) (h2 : T.n = a.graph.n)
    (e : a.init o (some T) = ok a') :
    a'.graph = a.graph ∧ (a'.cost = a.cost ∨ a'.cost = a.cost.reset) := by
  rcases Agent.init_form hg e with ⟨-, rfl⟩ | ⟨-, -, rfl⟩ | ⟨-, -, T, S, X, b, c, hT, -, -, hc, he⟩
  · exact ⟨rfl, Or.inl rfl⟩
  · exact ⟨rfl, Or.inl rfl⟩
  rw [Agent.choose_supplied (a := { a with running := false }) h1 h2] at hT
  cases hT
  have h1 : c.graph = a.graph ∧ (c.cost = a.cost ∨ c.cost = a.cost.reset) := by
    rcases hc with ⟨-, rfl⟩ | ⟨-, I, -, hc⟩
    · exact ⟨rfl, Or.inl rfl⟩
    · obtain ⟨Y, R, X', g1, c1, -, -, -, -, -, -, h, -, rfl⟩ := Agent.initializeInGlobalFrame_form
        (by exact hg) hc
      rcases h with ⟨-, rfl, rfl⟩ | ⟨h, rfl, ps, -, h'⟩
      · rw [Agent.resync_frame]
        exact ⟨rfl, Or.inl rfl⟩
      · rw [Agent.resync_frame]
        exact ⟨weightsToOne_same (hl.resolve_left h) h', Or.inr rfl⟩
  rcases he with ⟨-, rfl⟩ | ⟨-, he⟩
  · exact h1
  · obtain ⟨-, rfl⟩ := Agent.startOptimizationLoop_form he
    exact h1

/-- A trajectory and an estimate. -/
theorem reports (hasync : p.asynchronous = false)
    (hl : p.robust.costType = .L2 ∨ ∀ m ∈ E, m.fixedWeight = false → m.weight = 1) (hE : Equips p.d E i)
    {a₁ a₂ : Agent} (hn : Example.Newcomer o p i a₁) (hY : ∃ Y, a₁.YLift = some Y) {g : PoseGraph ℝ}
    (ha : a₂ = { a₁ with graph := g }) (ht : TeamInv p.r p.d E i g) (hu : uncached g)
    (hr : AgReach o i p a₂) {T : PArr ℝ} {M : DMat ℝ} (hT : ArrOk p.d p.d g.n T)
    (hdet : (rotM p.d p.d T 0).det ≠ 0) (m1 : M.rows = p.r) (m2 : M.cols = (p.d + 1) * g.n) :
    ∃ a₃ a, a₂.init o (some T) = ok a₃ ∧ a₃.setX M = ok a ∧ OnDuty o p E i a ∧ a.X.X = M ∧ a.graph = g ∧
      (a.cost = a₂.cost ∨ a.cost = a₂.cost.reset) ∧ a.innerIter = a₂.innerIter ∧
      a.weightUpdateCount = a₂.weightUpdateCount ∧ a.trajectoryResetCount = a₂.trajectoryResetCount := by
  have hi := agReach_inv hr
  have g2 : a₂.graph = g := by rw [ha]
  obtain ⟨hcount, -⟩ := ht.count hE.odo
  have hpos : 0 < g.n := by
    obtain ⟨m, hm, hk⟩ := hE.odo
    simp only [isOdo, Bool.and_eq_true, beq_iff_eq] at hk
    have := hcount m hm m.p1 (by unfold ownIndices; rw [if_pos hk.1.1]; simp)
    omega
  obtain ⟨a₃, S, e3, -, -, -, -, hst⟩ := Agent.init_chosen (o := o) (TI := some T) hi
    (by rw [ha]; exact hn.state)
    (Agent.choose_supplied (a := { a₂ with running := false }) (by rw [g2, ht.d_eq]; exact hT.2.1)
      (by rw [g2]; exact hT.2.2.1))
    (by rw [g2]; exact hT) (by rw [g2]; exact hpos) hdet (fun c => by rw [hasync] at c; cases c)
    (fun _ => by rw [ha]; exact hY)
  have r3 : AgReach o i p a₃ := agReach_snoc (op := .init (some T)) hr
    (fun P c => by cases c; rw [hT.2.1, hT.2.2.1]; exact hT) e3
  have hl' : a₂.params.robust.costType = .L2 ∨
      ∀ m ∈ a₂.graph.measurements, m.fixedWeight = false → m.weight = 1 := by
    rw [hi.params]
    refine hl.imp_right fun hw m hm => hw m ?_
    rw [g2] at hm
    obtain ⟨l1, l2, l3⟩ := ht.lists
    unfold PoseGraph.measurements at hm
    rw [l1, l2, l3] at hm
    simp only [List.mem_append, List.mem_filter] at hm
    exact Example.mem_firstWins (by tauto)
  obtain ⟨g3', cost3⟩ := init_supplied_graph hi.reach hl'
    (by rw [g2, ht.d_eq]; exact hT.2.1) (by rw [g2]; exact hT.2.2.1) e3
  have g3 : a₃.graph = g := g3'.trans g2
  obtain ⟨f3, -⟩ := Agent.init_frame hi.reach e3
  have hs3 : a₃.state ≠ .WAIT_FOR_DATA := by rw [hst]; split <;> decide
  obtain ⟨a, e4, s4, x4, g4, -⟩ := Agent.setX_ok (agReach_inv r3) hs3 (M := M) m1 (by rw [g3]; exact m2)
  have r4 : AgReach o i p a := agReach_snoc (op := .setX M) r3 trivial e4
  obtain ⟨-, -, -, f4⟩ := Agent.setX_form e4
  rw [Agent.resync_frame] at f4
  have ga : a.graph = g := g4.trans g3
  refine ⟨a₃, a, e3, e4, ?_, by rw [x4], ga, ?_, ?_, ?_, ?_⟩
  rotate_left
  · rw [f4]; exact cost3
  · rw [f4, f3]
  · rw [f4, f3]
  · rw [f4, f3]
  refine ⟨r4, by rw [ga]; exact ht.edges, by rw [ga]; exact ht.priors, by rw [ga]; exact ht.active,
    by rw [ga]; exact ht.use, by rw [ga]; exact hu, ?_, ?_, s4, ?_, ?_⟩
  · rw [ga]
    rintro ⟨m, hm, e⟩
    rw [ht.mem] at hm
    exact hE.noSelf m (Example.mem_firstWins hm.1) hm.2.1 hm.2.2 e
  · rw [ga]
    intro x hx
    obtain ⟨m, hm, y, hy, e⟩ := (ht.count hE.odo).2
    obtain ⟨m', hm', q1, q2, hle⟩ := hE.reaches m hm y hy
    obtain ⟨m'', hm'', hs⟩ := exists_firstWins hm'
    refine ⟨m'', ht.mem.2 ⟨hm'', hs.1.trans q1, hs.2.2.1.trans q2⟩, ?_⟩
    omega
  · rw [f4, f3, ha]; exact hY
  · rw [f4, f3, ha]; exact hn.inst

end

end Dpgo
