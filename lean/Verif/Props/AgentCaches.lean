import Verif.Lemmas.AgentStale

/-!
# Properties of the agent: cached matrices (C51)
-/

namespace Dpgo.Props

open Res Spec PoseGraph

variable {o : AgentOracles} {ID : Nat} {p : AgentParams} {a a' : Agent}

/-- **C51** (the objective), partial: as long as weights and priors are changed only while nothing is
cached, the objective handed to the optimiser in the next step is the cost with the weights stored in
the measurements now, up to the constant.  Missing: calls that change weights or priors while matrices
are cached, where the claim fails (`C51_violated`). -/
theorem C51_objective_partial (hd : 0 < p.d) (hC : ∀ k k', (o.opt k).chol = (o.opt k').chol)
    {t : List Ev} (h : Hist o ID p t a) (hk : CarefulHist t) {accel : Bool} {g g' : PoseGraph ℝ}
    (e : (a.graph.setNeighborPoses (if accel then a.neighborAuxPoses else a.neighborPoses)
      ).constructDataMatrices = ok (true, g)) {X : DMat ℝ} {f : ℝ} (ef : problemF g X = ok (f, g')) :
    f = graphCost (a.graph.setNeighborPoses (if accel then a.neighborAuxPoses else a.neighborPoses)) X -
      graphCost (a.graph.setNeighborPoses (if accel then a.neighborAuxPoses else a.neighborPoses))
        (zeroEst a.graph) := by
  have hi := agReach_inv h.reach
  have hc := agReach_cache hd h.reach
  have hf := (careful_current (C := (o.opt 0).chol) hd (fun k => hC k 0) h hk).1
  obtain ⟨s, hs, hst⟩ : ∃ s, (if accel then a.neighborAuxPoses else a.neighborPoses) = s ∧
      StoreOk p.r p.d a.graph s := by
    refine ⟨_, rfl, ?_⟩
    cases accel
    exacts [hi.nbr, hi.aux]
  rw [hs] at e ⊢
  have hr : Reachable ID p.r p.d (a.graph.setNeighborPoses s) :=
    Reachable.snoc (op := .setNeighborPoses s) hi.reach trivial rfl
  have hfs : Fresh (a.graph.setNeighborPoses s) := hf.neighborPoses hc.unused s
  have hP : PosesOk (a.graph.setNeighborPoses s) := by
    obtain ⟨-, dr, dd, -⟩ := reach_dims hr
    refine ⟨fun q hq => ?_, fun q hq => ?_⟩
    · rw [dr, dd]; exact PriorOk (hst.mem q hq).2
    · rw [dr, dd]; exact hc.priors q hq
  obtain ⟨hm, hfg, hg⟩ := Fresh.data hd hr hP (SameData.refl _) hfs rfl e
  have hsame : SameData (a.graph.setNeighborPoses s) g := by
    generalize g.Q = q, g.G = l at hg
    rw [hg]; constructor <;> rfl
  have hrg : Reachable ID p.r p.d g := Reachable.snoc (op := .constructDataMatrices) hr trivial
    (by simp only [PoseGraph.step, e, ok_bind])
  obtain ⟨-, -, hgd, -⟩ := reach_dims hrg
  have hmg : ¬ posesMissing g := by
    generalize g.Q = q, g.G = l at hg
    rw [hg]; exact hm.1 rfl
  have := objective_fresh (by norm_num) hrg (by rw [hgd]; exact hd) hfg hmg ef
  rw [hsame.graphCost, hsame.graphCost] at this
  rw [this]
  unfold zeroEst
  rw [hsame.r, hsame.d, hsame.n]
  rfl

/-- **C51** (the step), partial: under the same restriction, an iteration gives the same result as it
would with every matrix built anew from the measurements: same estimate, same report, same everything
but the caches themselves. -/
theorem C51_current_partial (hd : 0 < p.d) (hC : ∀ k k', (o.opt k).chol = (o.opt k').chol)
    {t : List Ev} (h : Hist o ID p t a) (hk : CarefulHist t) {doOpt s s' : Bool} {b' : Agent}
    (e : a.iterate o doOpt = ok (s, a')) (e' : (bare a).iterate o doOpt = ok (s', b')) :
    s' = s ∧ bare b' = bare a' := by
  have hi := agReach_inv h.reach
  have hc := agReach_cache hd h.reach
  obtain ⟨hf, hcp⟩ := careful_current (C := (o.opt 0).chol) hd (fun k => hC k 0) h hk
  have hp : Pair ID p (o.opt 0).chol a (bare a) :=
    ⟨rfl, ⟨rfl, hc.unused, hf, .of_uncached ⟨rfl, rfl, rfl⟩, hcp, fun P c => by cases c⟩, hi.reach,
      hc.priors, hi.nbr, hi.aux⟩
  obtain ⟨h1, h2⟩ := hp.iterate hd (fun k => hC k 0) e e'
  refine ⟨h1, ?_⟩
  have h3 := scratch_of_form h2.twin.same
  have h4 := h2.same
  unfold bare
  rw [h3]
  generalize b'.graph = g at h4
  rw [h4]

/-- Robot 2 after one step: the history is careful, and the next step succeeds both with the cached
matrices and without them. -/
example : ∃ (t : List Ev) (a a' b' : Agent) (Q : DMat ℝ) (s s' : Bool), Hist exOracle 2 (exTrio .L2) t a ∧
    CarefulHist t ∧ a.graph.Q = some Q ∧ a.iterate exOracle true = ok (s, a') ∧
    (bare a).iterate exOracle true = ok (s', b') := by
  obtain ⟨t, a, Q, h, hk, hQ, hs, -, -, od, pr, -, n⟩ := exCached
  have hi := agReach_inv h.reach
  have hc := agReach_cache (by decide) h.reach
  obtain ⟨h1, h2⟩ := exSecond od pr n
  obtain ⟨s, a', e, -⟩ := iterate_total (o := exOracle) (by decide) hi hc hs h1 h2
    (fun c => absurd rfl c) (fun c => by cases c) true
  obtain ⟨s', b', e', -⟩ := iterate_total (o := exOracle) (by decide) (bare_inv hi) (bare_cache hc) hs
    h1 h2 (fun c => absurd rfl c) (fun c => by cases c) true
  exact ⟨t, a, a', b', Q, s, s', h, hk, hQ, e, e'⟩

/-- **C51** (when histories are careful), partial: histories in which weights are set, robust
optimisation is initialised and poses are anchored only before the estimate is initialised are
covered. -/
theorem C51_idle_partial (hd : 0 < p.d) {t : List Ev} (h : Hist o ID p t a)
    (hk : ∀ e ∈ t, e.before.state = .INITIALIZED → (∀ s d w f, e.op ≠ .setMeasurementWeight s d w f) ∧
      e.op ≠ .initializeRobustOptimization ∧ (∀ T, e.op ≠ .initializeInGlobalFrame T) ∧
      e.op ≠ .anchorFirstPose ∧ ∀ P, e.op ≠ .anchorFirstPoseWith P) : CarefulHist t := by
  have hr : ∀ e ∈ t, AgReach o ID p e.before := by
    clear hk
    induction h with
    | new e => simp
    | call h hw e ih =>
      intro x hx
      rcases List.mem_append.1 hx with c | c
      · exact ih x c
      · rw [List.mem_singleton.1 c]; exact h.reach
  intro x hx
  by_cases hA : x.before.state = .INITIALIZED
  · obtain ⟨k1, k2, k3, k4, k5⟩ := hk x hx hA
    cases hop : x.op with
    | setMeasurementWeight s d w f => exact absurd hop (k1 s d w f)
    | initializeRobustOptimization => exact absurd hop k2
    | initializeInGlobalFrame T => exact absurd hop (k3 T)
    | anchorFirstPose => exact absurd hop k4
    | anchorFirstPoseWith P => exact absurd hop (k5 P)
    | _ => trivial
  · have hu := (agReach_cache hd (hr x hx)).idle hA
    cases x.op with
    | initializeInGlobalFrame T => exact Or.inl hu
    | setMeasurementWeight s d w f => exact hu
    | initializeRobustOptimization => exact hu
    | anchorFirstPose => exact hu
    | anchorFirstPoseWith P => exact hu
    | _ => trivial

/-- **C51 fails**: an iteration caches the matrices; `setMeasurementWeight` then sets the weight of the
only shared loop closure to zero; the next step works with the old matrix. -/
theorem C51_violated : ∃ (a : Agent) (Q G Q' G' : DMat ℝ), AgReach exOracle 2 (exTrio .L2) a ∧
    StepMatrices a false Q G ∧ StepMatrices (bare a) false Q' G' ∧ Q ≠ Q' := exStaleQ

end Dpgo.Props
