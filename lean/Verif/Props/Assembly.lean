import Verif.Lemmas.Fresh
import Verif.Props.Objective

/-!
# Assembly and caching of the data matrices: C08–C10
-/

namespace Dpgo.Props

open Finset Res Spec PoseGraph

section
variable {K : Type} [Field K]

/-! ### C09 -/

/-- **C09.** On a graph without cached matrices, whenever `constructDataMatrices` returns, it returns
false exactly when some shared measurement with an active neighbour lacks the neighbour's pose.
Missing poses of inactive neighbours therefore never make it fail. -/
theorem C09_missing (id r d : Nat) (g g' : PoseGraph K) (hg : Reachable id r d g) (hd : 0 < g.d)
    (hQ : g.Q = none) (hG : g.G = none) (b : Bool) (e : g.constructDataMatrices = ok (b, g')) :
    b = false ↔ posesMissing g := by
  obtain ⟨⟨log, h⟩, -⟩ := Reachable.inv hg
  obtain ⟨b1, g1, h1, h2⟩ := constructDataMatrices_ok e
  have hcq := h.constructQ_cases hd (priors_lt hg)
  rcases ensureQ_ok h1 with ⟨Q, hq, -, -⟩ | ⟨Q, -, hq, rfl, rfl⟩ | ⟨-, hq, rfl, rfl⟩
  · rw [hQ] at hq; cases hq
  · have hnm : ¬ posesMissing g := by
      rcases hcq with ⟨-, c⟩ | ⟨-, -, c⟩ | ⟨-, -, -, c⟩ | ⟨-, hm, -⟩
      · rw [hq] at c; cases c
      · rw [hq] at c; cases c
      · rw [hq] at c; cases c
      · exact hm
    refine ⟨?_, fun hm => absurd hm hnm⟩
    rintro rfl
    rcases h2 with ⟨-, h2⟩ | ⟨h2, -⟩
    · rcases ensureG_ok h2 with ⟨G, _, _, c⟩ | ⟨G, _, _, _, c⟩ | ⟨_, c, _, _⟩
      · cases c
      · cases c
      · rw [(sameData_caches g (some Q) g.G g.precon).constructG] at c
        exact absurd (h.constructG_none c) hnm
    · cases h2
  · have hm : posesMissing g1 := by
      rcases hcq with ⟨-, c⟩ | ⟨-, hm, -⟩ | ⟨-, -, -, c⟩ | ⟨-, -, -, Q, c⟩
      · rw [hq] at c; cases c
      · exact hm
      · rw [hq] at c; cases c
      · rw [hq] at c; cases c
    rcases h2 with ⟨h2, -⟩ | ⟨-, rfl, -⟩
    · cases h2
    · exact ⟨fun _ => hm, fun _ => rfl⟩

/-- **C09.** When every pose index is covered by private measurements, there is no self-loop, and the
delivered poses and priors have the right size, `constructDataMatrices` does return. -/
theorem C09_returns (id r d : Nat) (g : PoseGraph K) (hg : Reachable id r d g) (hd : 0 < g.d)
    (hQ : g.Q = none) (hG : g.G = none) (hself : ¬ hasSelfLoop g) (hcov : posesCovered g)
    (hnp : ∀ p ∈ g.neighborPoses, PoseOk g.r g.d p.2) (hpr : ∀ p ∈ g.priors, PoseOk g.r g.d p.2) :
    ∃ b g', g.constructDataMatrices = ok (b, g') := by
  obtain ⟨⟨log, h⟩, -⟩ := Reachable.inv hg
  have hcg := h.constructG_cases ⟨hnp, hpr⟩ (priors_lt hg)
  unfold constructDataMatrices ensureQ
  rw [hQ]
  rcases h.constructQ_cases hd (priors_lt hg) with ⟨c, -⟩ | ⟨-, -, c⟩ | ⟨-, -, c, -⟩ | ⟨-, hm, -, Q, c⟩
  · exact absurd c hself
  · exact ⟨_, _, by simp only [c, ok_bind]; rfl⟩
  · exact absurd hcov c
  · rcases hcg with ⟨c', -⟩ | ⟨-, G, c'⟩
    · exact absurd c' hm
    · refine ⟨true, { g with Q := some Q, G := some G }, ?_⟩
      simp only [c, ok_bind, if_true]
      unfold ensureG
      simp only [hG]
      have : ({ g with Q := some Q } : PoseGraph K).constructG = g.constructG :=
        (sameData_caches g (some Q) g.G g.precon).constructG
      rw [hG] at this
      simp only [this, c', ok_bind]

/-! ### C10 -/

/-- **C10 (partial).** The exact condition under which assembling `Q` is well defined: no private
self-loop, and — unless a pose is missing, in which case it stops before — no pose index beyond those
of the private measurements.  Nothing but normal return or undefined behaviour is possible.  The full
claim (never undefined) fails: see `C10_shared_only_undefined` and `C10_self_loop_undefined`. -/
theorem C10_assembly_partial (id r d : Nat) (g : PoseGraph K) (hg : Reachable id r d g)
    (hd : 0 < g.d) :
    (g.constructQ = ub ↔ hasSelfLoop g ∨ (¬ posesMissing g ∧ ¬ posesCovered g)) ∧
    (g.constructQ = ub ∨ ∃ o, g.constructQ = ok o) := by
  obtain ⟨⟨log, h⟩, -⟩ := Reachable.inv hg
  rcases h.constructQ_cases hd (priors_lt hg) with
    ⟨c1, c⟩ | ⟨c1, c2, c⟩ | ⟨c1, c2, c3, c⟩ | ⟨c1, c2, c3, Q, c⟩
  · exact ⟨⟨fun _ => Or.inl c1, fun _ => c⟩, Or.inl c⟩
  · refine ⟨⟨fun e => ?_, ?_⟩, Or.inr ⟨_, c⟩⟩
    · rw [c] at e; cases e
    · rintro (h | ⟨h, -⟩)
      · exact absurd h c1
      · exact absurd c2 h
  · exact ⟨⟨fun _ => Or.inr ⟨c2, c3⟩, fun _ => c⟩, Or.inl c⟩
  · refine ⟨⟨fun e => ?_, ?_⟩, Or.inr ⟨_, c⟩⟩
    · rw [c] at e; cases e
    · rintro (h | ⟨-, h⟩)
      · exact absurd h c1
      · exact absurd c3 h

/-- **C10.** Assembling `G` is always well defined, provided the delivered poses and the priors have
the size of the problem. -/
theorem C10_linear (id r d : Nat) (g : PoseGraph K) (hg : Reachable id r d g)
    (hnp : ∀ p ∈ g.neighborPoses, PoseOk g.r g.d p.2) (hpr : ∀ p ∈ g.priors, PoseOk g.r g.d p.2) :
    ∃ o, g.constructG = ok o := by
  obtain ⟨⟨log, h⟩, -⟩ := Reachable.inv hg
  rcases h.constructG_cases ⟨hnp, hpr⟩ (priors_lt hg) with ⟨-, c⟩ | ⟨-, G, c⟩
  · exact ⟨_, c⟩
  · exact ⟨_, c⟩

/-! ### C08 -/

/-- **C08 (partial).** Along every history in which the calls that change measurements, weights or
priors are made only while nothing is cached (and neighbour poses change only while `Q` is not cached
or inactive neighbours are unused), the matrices handed out are those built from scratch.  Missing: the
same for histories violating that discipline — there it is false, see the `C08_stale_…` theorems. -/
theorem C08_fresh_partial (id r d : Nat) (ops : List (PGOp K)) (g₀ g : PoseGraph K)
    (hnew : PoseGraph.new id r d = ok g₀) (hwf : ∀ op ∈ ops, OpWF op) (hco : coherent g₀ ops)
    (hrun : g₀.run ops = ok g) :
    (∀ Q g₁ Q' g₂, g.quadraticMatrix = ok (Q, g₁) → (scratch g).quadraticMatrix = ok (Q', g₂) →
      Q = Q') ∧
    (∀ G g₁, g.linearMatrix = ok (G, g₁) → ∃ g₂, (scratch g).linearMatrix = ok (G, g₂)) ∧
    (∀ P Q' g₂, g.precon = some P → (scratch g).quadraticMatrix = ok (Q', g₂) →
      P = precondMatrix Q') := by
  have h0 : Fresh g₀ := by
    simp only [PoseGraph.new, bind_eq_ok] at hnew
    obtain ⟨_, _, e⟩ := hnew
    cases e
    exact Fresh.of_uncached ⟨rfl, rfl, rfl⟩
  have hr0 : Reachable id r d g₀ := ⟨g₀, [], hnew, by simp, rfl⟩
  obtain ⟨hf, hr⟩ := Fresh.run ops hr0 hwf h0 hco hrun
  have hs : SameData g (scratch g) := by constructor <;> rfl
  have hq : ∀ Q' g₂, (scratch g).quadraticMatrix = ok (Q', g₂) → g.constructQ = ok (some Q') := by
    intro Q' g₂ e
    rcases quadraticMatrix_ok e with ⟨h, -⟩ | ⟨-, h, -⟩
    · cases h
    · rw [hs.constructQ] at h; exact h
  refine ⟨?_, ?_, ?_⟩
  · intro Q g₁ Q' g₂ e1 e2
    have hc := hq Q' g₂ e2
    rcases quadraticMatrix_ok e1 with ⟨h, -⟩ | ⟨-, h, -⟩
    · exact ((hf.q Q h).unique hc).symm
    · rw [hc] at h; cases h; rfl
  · intro G g₁ e1
    have hc : g.constructG = ok (some G) := by
      rcases linearMatrix_ok e1 with ⟨h, -⟩ | ⟨-, h, -⟩
      · exact hf.lin G h
      · exact h
    rw [← hs.constructG] at hc
    refine ⟨{ scratch g with G := some G }, ?_⟩
    unfold linearMatrix
    have : (scratch g).G = none := rfl
    rw [this]
    simp only [hc, ok_bind]
  · intro P Q' g₂ e1 e2
    obtain ⟨Q, rfl, hb⟩ := hf.p P e1
    rw [hb.unique (hq Q' g₂ e2)]

end

/-! ### Concrete cases and counterexamples -/

section Examples

/-- A robot that has only a shared measurement (from its pose 1), with the neighbour pose delivered. -/
def exOnlyShared : List (PGOp ℚ) :=
  [.addMeasurement (ex 0 1 1 0), .setNeighborPoses [(⟨1, 0⟩, exPose 1)]]

/-- **C10 fails:** a graph whose poses occur only in shared measurements makes the assembly of `Q`
write out of range. -/
theorem C10_shared_only_undefined : ∃ g : PoseGraph ℚ, Reachable 0 3 2 g ∧ g.n = 2 ∧
    (∀ p ∈ g.neighborPoses, PoseOk g.r g.d p.2) ∧ g.constructDataMatrices = ub := by
  refine ⟨_, ⟨_, exOnlyShared, rfl, ?_, rfl⟩, rfl, ?_, rfl⟩
  · simp [exOnlyShared, OpWF, ex, Meas.make, MeasWF]
  · intro p hp
    have hp : p ∈ [((⟨1, 0⟩ : PoseID), exPose 1)] := hp
    rw [List.mem_singleton] at hp
    subst hp
    exact ⟨rfl, rfl⟩

/-- **C10 fails:** an edge from a pose to itself is accepted as a private loop closure and makes the
assembly insert an existing sparse entry. -/
theorem C10_self_loop_undefined : ∃ g : PoseGraph ℚ, Reachable 0 3 2 g ∧ posesCovered g ∧
    g.constructDataMatrices = ub := by
  refine ⟨_, ⟨_, [.addMeasurement (ex 0 0 0 1), .addMeasurement (ex 0 0 1 1)], rfl, ?_, rfl⟩, ?_, rfl⟩
  · simp [OpWF, ex, Meas.make, MeasWF]
  · intro i hi
    have hi : i < 2 := hi
    exact ⟨ex 0 0 0 1, List.mem_append_left _ (List.mem_singleton.2 rfl), Or.inr (by
      change i ≤ 1; omega)⟩

/-- The hypotheses of C09 and C10 hold for `exGraph2` (everything delivered for the active neighbour,
pose of the inactive neighbour missing), with outcome true. -/
example : ∃ g g', exGraph2 = ok g ∧ Reachable 0 3 2 g ∧ 0 < g.d ∧ g.Q = none ∧ g.G = none ∧
    g.constructDataMatrices = ok (true, g') := by
  obtain ⟨g, e, h⟩ := exGraph2_reachable
  cases e
  exact ⟨_, _, rfl, h, by decide, rfl, rfl, rfl⟩

/-- … and with outcome false when the pose of the active neighbour has not been delivered. -/
example : ∃ g g', exGraph = ok g ∧ Reachable 0 3 2 g ∧ 0 < g.d ∧ g.Q = none ∧ g.G = none ∧
    g.constructDataMatrices = ok (false, g') := by
  obtain ⟨g, e, h⟩ := exGraph_reachable
  cases e
  exact ⟨_, _, rfl, h, by decide, rfl, rfl, rfl⟩

/-- What is handed out differs from what would be built from scratch, for the same graph. -/
def staleQ (g : PoseGraph ℚ) : Prop :=
  ∃ Q g₁ Q' g₂, g.quadraticMatrix = ok (Q, g₁) ∧ (scratch g).quadraticMatrix = ok (Q', g₂) ∧ Q ≠ Q'

/-- Build, then write a weight (as `setMeasurementWeight` and `initializeRobustOptimization` do). -/
def exStaleWeight : List (PGOp ℚ) :=
  [.addMeasurement (ex 0 0 0 1), .addMeasurement (ex 0 0 1 2), .addMeasurement (ex 0 0 2 0),
   .constructDataMatrices, .writeWeight ⟨0, 2⟩ ⟨0, 0⟩ 0 false]

/-- **C08 fails** after a weight write: the old quadratic matrix is still handed out. -/
theorem C08_stale_weight : ∃ g : PoseGraph ℚ, Reachable 0 3 2 g ∧ staleQ g := by
  refine ⟨_, ⟨_, exStaleWeight, rfl, ?_, rfl⟩, _, _, _, _, rfl, rfl, ?_⟩
  · simp [exStaleWeight, OpWF, ex, Meas.make, MeasWF]
  · intro h
    have := congrArg (fun Q => Q.v 0 0) h
    revert this
    decide +kernel

/-- **C08 fails** after `addMeasurement`: the new measurement is not in the matrix handed out. -/
theorem C08_stale_measurement : ∃ g : PoseGraph ℚ, Reachable 0 3 2 g ∧ staleQ g := by
  refine ⟨_, ⟨_, [.addMeasurement (ex 0 0 0 1), .addMeasurement (ex 0 0 1 2), .constructDataMatrices,
    .addMeasurement (ex 0 0 2 0)], rfl, ?_, rfl⟩, _, _, _, _, rfl, rfl, ?_⟩
  · simp [OpWF, ex, Meas.make, MeasWF]
  · intro h
    have := congrArg (fun Q => Q.v 0 0) h
    revert this
    decide +kernel

/-- **C08 fails** after `setPrior`: the prior is not in the matrices handed out. -/
theorem C08_stale_prior : ∃ g : PoseGraph ℚ, Reachable 0 3 2 g ∧ staleQ g := by
  refine ⟨_, ⟨_, [.addMeasurement (ex 0 0 0 1), .constructDataMatrices, .setPrior 0 (exPose 0)], rfl,
    ?_, rfl⟩, _, _, _, _, rfl, rfl, ?_⟩
  · simp [OpWF, ex, Meas.make, MeasWF]
  · intro h
    have := congrArg (fun Q => Q.v 0 0) h
    revert this
    decide +kernel

/-- **C08 fails** for neighbour poses when inactive neighbours are used: delivering the pose of an
inactive neighbour changes the linear matrix but not the cached quadratic one. -/
theorem C08_stale_inactive : ∃ g : PoseGraph ℚ, Reachable 0 3 2 g ∧ staleQ g := by
  refine ⟨_, ⟨_, [.addMeasurement (ex 0 0 0 1), .addMeasurement (ex 0 1 0 0),
    .setNeighborActive 1 false, .useInactiveNeighbors true, .constructDataMatrices,
    .setNeighborPoses [(⟨1, 0⟩, exPose 1)]], rfl, ?_, rfl⟩, _, _, _, _, rfl, rfl, ?_⟩
  · simp [OpWF, ex, Meas.make, MeasWF]
  · intro h
    have := congrArg (fun Q => Q.v 0 0) h
    revert this
    decide +kernel

/-- The hypotheses of `C08_fresh_partial` hold for a history which caches matrices, exchanges
neighbour poses while `Q` is cached, clears, writes a weight and builds again. -/
example : ∃ (g₀ g : PoseGraph ℚ) (ops : List (PGOp ℚ)), PoseGraph.new 0 3 2 = ok g₀ ∧
    ops = [.addMeasurement (ex 0 0 0 1), .addMeasurement (ex 0 1 0 0),
      .setNeighborPoses [(⟨1, 0⟩, exPose 1)], .constructDataMatrices,
      .setNeighborPoses [(⟨1, 0⟩, exPose 2)], .clearDataMatrices,
      .writeWeight ⟨0, 0⟩ ⟨1, 0⟩ 0 false, .constructDataMatrices] ∧
    (∀ op ∈ ops, OpWF op) ∧ coherent g₀ ops ∧ g₀.run ops = ok g ∧ g.Q.isSome = true := by
  refine ⟨_, _, _, rfl, rfl, ?_, ?_, rfl, rfl⟩
  · simp [OpWF, ex, Meas.make, MeasWF]
  · refine ⟨⟨rfl, rfl, rfl⟩, ?_⟩
    intro g e; cases e
    refine ⟨⟨rfl, rfl, rfl⟩, ?_⟩
    intro g e; cases e
    refine ⟨Or.inl rfl, ?_⟩
    intro g e; cases e
    refine ⟨trivial, ?_⟩
    intro g e; cases e
    refine ⟨Or.inl rfl, ?_⟩
    intro g e; cases e
    refine ⟨trivial, ?_⟩
    intro g e; cases e
    refine ⟨⟨rfl, rfl, rfl⟩, ?_⟩
    intro g e; cases e
    refine ⟨trivial, ?_⟩
    intro g e; trivial

end Examples

end Dpgo.Props
