import Verif.Lemmas.AgentForms
import Verif.Lemmas.Measurements
import Verif.Lemmas.Robust

/-! # The invariant of agents -/

namespace Dpgo

open Res Spec

theorem reach_dims {K : Type} [Field K] {id r d : Nat} {g : PoseGraph K} (hg : Reachable id r d g) :
    g.id = id ∧ g.r = r ∧ g.d = d ∧ d ≤ r := by
  refine ⟨(PoseGraph.Reachable.inv hg).2, ?_⟩
  refine Spec.Reachable.ind (P := fun g => g.r = r ∧ g.d = d ∧ d ≤ r) ?_ ?_ hg
  · intro g0 e
    simp only [PoseGraph.new, bind_eq_ok, check_eq_ok, exists_and_left, exists_const,
      decide_eq_true_eq] at e
    obtain ⟨h, e⟩ := e
    cases e
    exact ⟨rfl, rfl, h⟩
  · intro g op g' _ hw h e
    by_cases hq : quiet op
    · have := quiet_topology hq e
      rw [this.r, this.d]; exact h
    · have add : ∀ {g g' : PoseGraph K} {m : Meas K}, g.addMeasurement m = ok g' →
          g'.r = g.r ∧ g'.d = g.d := by
        intro g g' m e
        obtain ⟨a, -, b⟩ := PoseGraph.addMeasurement_d e
        exact ⟨b, a⟩
      cases op <;> simp only [quiet, not_true_eq_false, not_false_eq_true] at hq
      · obtain ⟨a, b⟩ := add e
        rw [a, b]; exact h
      · refine foldl_induction (P := fun g => g.r = r ∧ g.d = d ∧ d ≤ r) ?_ _ _ _ (show _ from ?_) e
        · intro g m g' hg e
          obtain ⟨a, b⟩ := add e
          rw [a, b]; exact hg
        · exact h
      · cases e; exact h

theorem setPose_arr {K : Type} {r d n : Nat} {P P' : PArr K} {i : Nat} {B : DMat K}
    (h : ArrOk r d n P) (e : P.setPose i B = ok P') : ArrOk r d n P' := by
  unfold PArr.setPose at e
  simp only [bind_eq_ok, check_eq_ok, require_eq_ok, exists_and_left, exists_const] at e
  obtain ⟨-, -, -, e⟩ := e
  cases e
  exact h

theorem make_arr {K : Type} [Field K] {r d n : Nat} {P : PArr K} (hrd : d ≤ r)
    (e : PArr.make r d n = ok P) : ArrOk r d n P := by
  obtain ⟨P', h, ho, -⟩ := PArr.make_ok (K := K) (n := n) hrd
  rw [e] at h
  cases h
  exact ho

theorem data_arr {K : Type} {r d n : Nat} {P : PArr K} {M : DMat K} (h : ArrOk r d n P)
    (h1 : M.rows = P.r) (h2 : M.cols = (P.d + 1) * P.n) : ArrOk r d n { P with X := M } := by
  obtain ⟨a, b, c, -, -⟩ := h
  exact ⟨a, b, c, h1.trans a, by rw [h2, b, c]⟩

noncomputable section

/-- A stored dictionary holds required poses of the right shape only. -/
structure StoreOk (r d : Nat) (g : PoseGraph ℝ) (s : PoseDict ℝ) : Prop where
  sorted : OMap.Sorted ltPoseID s
  mem : ∀ kv ∈ s, kv.1 ∈ g.nbrShared ∧ ArrOk r d 1 kv.2

/-- Invariant of the agent with id `ID` and parameters `p`, but for the auxiliary sequences. -/
structure AgCore (ID : Nat) (p : AgentParams) (a : Agent) : Prop where
  id : a.id = ID
  d : a.d = p.d
  r : a.r = p.r
  params : a.params = p
  cost : ∃ ops, a.cost = costRun p.robust ops
  reach : Reachable ID p.r p.d a.graph
  lift : ∀ Y, a.YLift = some Y → Y.rows = p.r ∧ Y.cols = p.d
  anchor : ∀ X, a.globalAnchor = some X → ArrOk p.r p.d 1 X
  noData : a.state = .WAIT_FOR_DATA → a.TLocalInit = none
  notInit : a.state ≠ .INITIALIZED → a.XInit = none ∧ a.neighborPoses = [] ∧ a.neighborAuxPoses = []
  data : a.state ≠ .WAIT_FOR_DATA → 0 < a.graph.n ∧
    (∃ T, a.TLocalInit = some T ∧ ArrOk p.d p.d a.graph.n T) ∧ ArrOk p.r p.d a.graph.n a.X
  guess : ∀ X, a.XInit = some X → ArrOk p.r p.d a.graph.n X
  nbr : StoreOk p.r p.d a.graph a.neighborPoses
  aux : StoreOk p.r p.d a.graph a.neighborAuxPoses
  team : OMap.Sorted ltNat a.teamStatus ∧ ∀ ks ∈ a.teamStatus, ks.2.agentID = ks.1
  active : a.teamActive.length = p.numRobots
  count : 0 ≤ a.weightUpdateCount
  loop : a.running = true → p.acceleration = false

/-- Invariant of the agent with id `ID` and parameters `p`. -/
structure AgInv (ID : Nat) (p : AgentParams) (a : Agent) : Prop extends AgCore ID p a where
  accel : a.state = .INITIALIZED → p.acceleration = true → ArrOk p.r p.d a.graph.n a.Y ∧
    ArrOk p.r p.d a.graph.n a.V ∧ ArrOk p.r p.d a.graph.n a.XPrev

theorem storeOk_nil (r d : Nat) (g : PoseGraph ℝ) : StoreOk r d g [] :=
  ⟨by simp [OMap.Sorted, OMap.keys, OSet.Sorted], by simp⟩

theorem StoreOk.topology {r d : Nat} {g g' : PoseGraph ℝ} {s : PoseDict ℝ} (h : StoreOk r d g s)
    (ht : g'.nbrShared = g.nbrShared) : StoreOk r d g' s :=
  ⟨h.sorted, fun kv hkv => by rw [ht]; exact h.mem kv hkv⟩

theorem StoreOk.insert {r d : Nat} {g : PoseGraph ℝ} {s : PoseDict ℝ} (h : StoreOk r d g s)
    {k : PoseID} {v : PArr ℝ} (hk : k ∈ g.nbrShared) (hv : ArrOk r d 1 v) :
    StoreOk r d g (OMap.insert ltPoseID k v s) := by
  have hs := OMap.sorted_insert strictTotal_ltPoseID k v s h.sorted
  refine ⟨hs, fun kv hkv => ?_⟩
  have hf := OMap.find?_of_mem strictTotal_ltPoseID hs (show (kv.1, kv.2) ∈ _ from hkv)
  rw [OMap.find?_insert strictTotal_ltPoseID] at hf
  split at hf
  · rename_i c
    cases hf
    rw [c]; exact ⟨hk, hv⟩
  · exact h.mem kv (OMap.mem_of_find? strictTotal_ltPoseID hf)

theorem StoreOk.stored {r d : Nat} {g : PoseGraph ℝ} : ∀ {dict s : PoseDict ℝ}, StoreOk r d g s →
    (∀ kv ∈ dict, ArrOk r d 1 kv.2) → StoreOk r d g (Agent.stored g s dict)
  | [], s, h, _ => h
  | kv :: dict, s, h, hd => by
    unfold Agent.stored
    rw [List.foldl_cons]
    refine StoreOk.stored (dict := dict) ?_ (fun x hx => hd x (by simp [hx]))
    split
    · rename_i c
      exact h.insert ((OSet.contains_iff strictTotal_ltPoseID _ _).1 c) (hd kv (by simp))
    · exact h

theorem StoreOk.erase {r d : Nat} {g : PoseGraph ℝ} {s : PoseDict ℝ} (h : StoreOk r d g s)
    (k : PoseID) : StoreOk r d g (OMap.erase ltPoseID k s) := by
  have hsub := OMap.keys_erase_sublist (lt := ltPoseID) k s
  refine ⟨?_, fun kv hkv => h.mem kv (hsub.subset hkv)⟩
  have := h.sorted
  unfold OMap.Sorted OSet.Sorted at this ⊢
  exact this.sublist (hsub.map _)

theorem StoreOk.eraseAll {r d : Nat} {g : PoseGraph ℝ} : ∀ {ids : List PoseID} {s : PoseDict ℝ},
    StoreOk r d g s → StoreOk r d g (ids.foldl (fun m k => OMap.erase ltPoseID k m) s)
  | [], _, h => h
  | k :: ids, s, h => by
    rw [List.foldl_cons]
    exact StoreOk.eraseAll (h.erase k)

theorem cost_reset {q : RobustParams} {c : RobustCost} (h : ∃ ops, c = costRun q ops) :
    ∃ ops, c.reset = costRun q ops := by
  obtain ⟨ops, rfl⟩ := h
  exact ⟨ops ++ [CostOp.reset], by rw [costRun_snoc]; rfl⟩

theorem cost_update {q : RobustParams} {c : RobustCost} (h : ∃ ops, c = costRun q ops) :
    ∃ ops, c.update = costRun q ops := by
  obtain ⟨ops, rfl⟩ := h
  exact ⟨ops ++ [CostOp.update], by rw [costRun_snoc]; rfl⟩

namespace AgCore
variable {ID : Nat} {p : AgentParams} {a : Agent}

theorem dims (h : AgCore ID p a) : a.graph.id = ID ∧ a.graph.r = p.r ∧ a.graph.d = p.d ∧ p.d ≤ p.r :=
  reach_dims h.reach

/-- Replacing the graph by one with the same topology. -/
theorem graph (h : AgCore ID p a) {g : PoseGraph ℝ} (hs : Steps quiet a.graph g) :
    AgCore ID p { a with graph := g } := by
  have t := hs.topology (fun _ h => h)
  have hr := hs.reach quiet_wf h.reach
  exact { h with
    reach := hr
    data := fun hst => by
      have := h.data hst
      simp only [t.n]; exact this
    guess := fun X hX => by simp only [t.n]; exact h.guess X hX
    nbr := h.nbr.topology t.nbrShared
    aux := h.aux.topology t.nbrShared }

/-- Synchronising the auxiliary sequences completes the invariant. -/
theorem resync (h : AgCore ID p a) : AgInv ID p a.resync := by
  unfold Agent.resync
  split
  · rename_i hs
    have hX := (h.data (by rw [hs.2]; simp)).2.2
    exact { h with accel := fun _ _ => ⟨hX, hX, hX⟩ }
  · rename_i hs
    refine { h with accel := fun h1 h2 => absurd ⟨by rw [h.params]; exact h2, h1⟩ hs }

end AgCore

namespace AgInv
variable {ID : Nat} {p : AgentParams} {a a' : Agent} {o : AgentOracles}

theorem dims (h : AgInv ID p a) : a.graph.id = ID ∧ a.graph.r = p.r ∧ a.graph.d = p.d ∧ p.d ≤ p.r :=
  reach_dims h.reach

/-- Replacing the graph by one with the same topology. -/
theorem graph (h : AgInv ID p a) {g : PoseGraph ℝ} (hs : Steps quiet a.graph g) :
    AgInv ID p { a with graph := g } := by
  have t := hs.topology (fun _ h => h)
  exact { h.toAgCore.graph hs with
    accel := fun h1 h2 => by simp only [t.n]; exact h.accel h1 h2 }

theorem one (h : AgInv ID p a) {g : PoseGraph ℝ} {op : PGOp ℝ} (hq : quiet op)
    (hs : a.graph.step op = ok g) : AgInv ID p { a with graph := g } :=
  h.graph (Steps.one hq hs)

theorem xok (h : AgInv ID p a) (hs : a.state ≠ .WAIT_FOR_DATA) : ArrOk p.r p.d a.graph.n a.X :=
  (h.data hs).2.2

theorem init (e : Agent.new o ID p = ok a) : AgInv ID p a := by
  obtain ⟨X, g, YL, hX, hg, hY, -, -, rfl⟩ := Agent.new_form e
  refine ⟨?_, fun h => by cases h⟩
  exact {
    id := rfl, d := rfl, r := rfl, params := rfl, cost := ⟨[], rfl⟩
    reach := ⟨g, [], hg, by simp, rfl⟩
    lift := hY
    anchor := by simp
    noData := fun _ => rfl
    notInit := fun _ => ⟨rfl, rfl, rfl⟩
    data := fun h => absurd rfl h
    guess := by simp
    nbr := storeOk_nil _ _ _
    aux := storeOk_nil _ _ _
    team := ⟨by simp [OMap.Sorted, OMap.keys, OSet.Sorted], by simp⟩
    active := by simp
    count := le_refl _
    loop := fun h => by cases h }

theorem setX (h : AgInv ID p a) {M : DMat ℝ} (e : a.setX M = ok a') : AgInv ID p a' := by
  obtain ⟨h1, h2, h3, rfl⟩ := Agent.setX_form e
  have hd := h.data h1
  apply AgCore.resync
  exact { h.toAgCore with
    noData := fun c => by cases c
    notInit := fun c => absurd rfl c
    data := fun _ => ⟨hd.1, hd.2.1, data_arr hd.2.2 h2 h3⟩ }

theorem setXToInitialGuess (h : AgInv ID p a) (e : a.setXToInitialGuess = ok a') : AgInv ID p a' := by
  obtain ⟨h1, X, hX, rfl⟩ := Agent.setXToInitialGuess_form e
  have hd := h.data h1
  exact { h with data := fun _ => ⟨hd.1, hd.2.1, h.guess X hX⟩ }

theorem setLiftingMatrix (h : AgInv ID p a) {M : DMat ℝ} (e : a.setLiftingMatrix M = ok a') :
    AgInv ID p a' := by
  obtain ⟨h1, h2, rfl⟩ := Agent.setLiftingMatrix_form e
  exact { h with lift := fun Y hY => by cases hY; exact ⟨h1.trans h.r, h2.trans h.d⟩ }

theorem setGlobalAnchor (h : AgInv ID p a) {M : DMat ℝ} (e : a.setGlobalAnchor M = ok a') :
    AgInv ID p a' := by
  obtain ⟨-, hr, hd, hrd⟩ := h.dims
  obtain ⟨-, -, Xa, hX, -, -, rfl⟩ := Agent.setGlobalAnchor_form (by rw [h.r, h.d]; exact hrd)
    (hr.trans h.r.symm) (hd.trans h.d.symm) e
  rw [h.r, h.d] at hX
  exact { h with anchor := fun Y hY => by cases hY; exact hX }

theorem clearNeighborPoses (h : AgInv ID p a) : AgInv ID p a.clearNeighborPoses :=
  { h with
    notInit := fun c => ⟨(h.notInit c).1, rfl, rfl⟩
    nbr := storeOk_nil _ _ _
    aux := storeOk_nil _ _ _ }

theorem eraseAll_nil (ids : List PoseID) :
    ids.foldl (fun (m : PoseDict ℝ) k => OMap.erase ltPoseID k m) [] = [] := by
  induction ids with
  | nil => rfl
  | cons k t ih => rw [List.foldl_cons]; exact ih

theorem clearActiveNeighborPoses (h : AgInv ID p a) (e : a.clearActiveNeighborPoses = ok a') :
    AgInv ID p a' := by
  obtain ⟨ids, -, rfl⟩ := Agent.clearActiveNeighborPoses_form e
  exact { h with
    notInit := fun c => by
      obtain ⟨c1, c2, c3⟩ := h.notInit c
      refine ⟨c1, ?_, ?_⟩
      · simp only [c2]; exact eraseAll_nil ids
      · simp only [c3]; exact eraseAll_nil ids
    nbr := h.nbr.eraseAll
    aux := h.aux.eraseAll }

theorem setNeighborStatus (h : AgInv ID p a) (s : Status) : AgInv ID p (a.setNeighborStatus s) := by
  have hs := OMap.sorted_insert strictTotal_ltNat s.agentID s a.teamStatus h.team.1
  refine { h with team := ⟨hs, fun ks hks => ?_⟩ }
  have hf := OMap.find?_of_mem strictTotal_ltNat hs (show (ks.1, ks.2) ∈ _ from hks)
  rw [OMap.find?_insert strictTotal_ltNat] at hf
  split at hf
  · rename_i c
    cases hf
    exact c.symm
  · exact h.team.2 ks (OMap.mem_of_find? strictTotal_ltNat hf)

theorem initializeRobustOptimization (h : AgInv ID p a)
    (e : a.initializeRobustOptimization = ok a') : AgInv ID p a' := by
  obtain ⟨ps, g', -, -, hs, rfl⟩ := Agent.initializeRobustOptimization_form h.reach e
  have h' := h.graph (hs.mono Agent.weighting_quiet)
  exact { h' with cost := cost_reset h.cost }

theorem quiet_clear (g : PoseGraph ℝ) : Steps quiet g g.clearDataMatrices :=
  Steps.one (op := .clearDataMatrices) trivial rfl

theorem updateMeasurementWeights (h : AgInv ID p a) (e : a.updateMeasurementWeights = ok a') :
    AgInv ID p a' := by
  rcases Agent.updateMeasurementWeights_form h.reach e with ⟨-, rfl⟩ | ⟨hi, ps, g, b, -, -, hs, -, hb, rfl⟩
  · exact h
  have h1 := h.graph ((hs.mono Agent.weighting_quiet).trans (quiet_clear g))
  have h2 : AgInv ID p (a.reweighted g) :=
    { h1 with
      cost := cost_update h.cost
      team := ⟨by simp [Agent.reweighted, OMap.Sorted, OMap.keys, OSet.Sorted],
        by simp [Agent.reweighted]⟩
      count := Int.le_add_one h.count }
  apply AgCore.resync
  rcases Agent.resetTrajectory_form hb with ⟨-, rfl⟩ | ⟨-, hst, X, hX, rfl⟩
  · exact h2.toAgCore
  · have hd := h2.data hst
    exact { h2.toAgCore with
      notInit := fun c => ⟨(h2.notInit c).1, rfl, rfl⟩
      data := fun _ => ⟨hd.1, hd.2.1, h2.guess X hX⟩
      nbr := storeOk_nil _ _ _
      aux := storeOk_nil _ _ _ }

theorem setRobotActive (h : AgInv ID p a) {rid : Nat} {b : Bool}
    (e : a.setRobotActive rid b = ok a') : AgInv ID p a' := by
  rcases Agent.setRobotActive_form e with ⟨-, rfl⟩ | ⟨-, -, g, hg, rfl⟩
  · exact h
  have h' := h.one (op := .setNeighborActive rid b) trivial hg
  exact { h' with active := by simp only [List.length_set]; exact h.active }

/-! ### Iteration -/

theorem updateX (h : AgInv ID p a) {doOpt accel b : Bool} (hi : a.state = .INITIALIZED)
    (hacc : accel = true → p.acceleration = true)
    (e : a.updateX o doOpt accel = ok (b, a')) : AgInv ID p a' ∧ a'.state = .INITIALIZED := by
  have hX := h.xok (by rw [hi]; simp)
  rcases Agent.updateX_form e with ⟨-, -, rfl⟩ | ⟨-, -, -, g1, -, hs1, hb⟩
  · split
    · rename_i c
      have hd := h.data (by rw [hi]; simp)
      exact ⟨{ h with data := fun _ => ⟨hd.1, hd.2.1, (h.accel hi (hacc c)).1⟩ }, hi⟩
    · exact ⟨h, hi⟩
  · rcases hb with ⟨-, rfl⟩ | ⟨-, Z, res, g2, -, hs2, z1, z2, rfl⟩
    · exact ⟨h.graph (hs1.mono Agent.updating_quiet), hi⟩
    · have h' := h.graph ((hs1.trans hs2).mono Agent.updating_quiet)
      refine ⟨?_, hi⟩
      have hd := h'.data (show _ ≠ _ by rw [hi]; simp)
      exact { h' with data := fun _ => ⟨hd.1, hd.2.1, data_arr hd.2.2 z1 z2⟩ }

theorem accelStep (h : AgInv ID p a) {doOpt s : Bool} (hi : a.state = .INITIALIZED)
    (hp : p.acceleration = true) (e : a.accelStep o doOpt = ok (s, a')) :
    AgInv ID p a' ∧ a'.state = .INITIALIZED := by
  obtain ⟨a1, a2, a3, a4, a5, b, e1, e2, e3, e4, e5, e6, e7⟩ := Agent.accelStep_form e
  obtain ⟨-, -, -, rfl⟩ := Agent.updateGamma_form e1
  obtain ⟨-, -, -, rfl⟩ := Agent.updateAlpha_form e2
  obtain ⟨-, -, P, -, y1, y2, rfl⟩ := Agent.updateY_form e3
  have ha := h.accel hi hp
  have hY' := data_arr (M := P) ha.1 y1 y2
  obtain ⟨h4, i4⟩ := updateX (ID := ID) (p := p) (by exact { h with
    accel := fun _ _ => ⟨hY', ha.2.1, ha.2.2⟩ }) (by exact hi) (fun _ => hp) e4
  obtain ⟨-, -, V, -, v1, v2, rfl⟩ := Agent.updateV_form e5
  have ha4 := h4.accel i4 hp
  have h5 : AgInv ID p { a4 with V := { a4.V with X := V } } := { h4 with
    accel := fun _ _ => ⟨ha4.1, data_arr ha4.2.1 v1 v2, ha4.2.2⟩ }
  rcases e7 with ⟨-, rfl⟩ | ⟨-, e7⟩
  · exact ⟨h5, i4⟩
  · rcases Agent.restart_form e7 with ⟨-, rfl⟩ | ⟨-, b', c, hc, rfl⟩
    · exact ⟨h5, i4⟩
    · have hd := h5.data (show _ ≠ _ by rw [i4]; simp)
      obtain ⟨h6, i6⟩ := updateX (p := p) (ID := ID) (by exact { h5 with
        data := fun _ => ⟨hd.1, hd.2.1, ha4.2.2⟩ }) (by exact i4) (fun c => by cases c) hc
      have hX := h6.xok (by rw [i6]; simp)
      exact ⟨{ h6 with accel := fun _ _ => ⟨hX, hX, (h6.accel i6 hp).2.2⟩ }, i6⟩

theorem tick (h : AgInv ID p a) (e : a.tick = ok a') : AgInv ID p a' := by
  obtain ⟨k, -, -, rfl⟩ := Agent.tick_form e
  exact { h with }

theorem iterateStatus (h : AgInv ID p a) {s : Bool} (e : a.iterateStatus s = ok a') :
    AgInv ID p a' := by
  obtain ⟨_, _, -, -, _, -, rfl⟩ := Agent.iterateStatus_form e
  exact { h with }

theorem iterate (h : AgInv ID p a) {doOpt s : Bool} (e : a.iterate o doOpt = ok (s, a')) :
    AgInv ID p a' := by
  obtain ⟨b, hb, hc⟩ := Agent.iterate_form e
  have h1 := h.tick hb
  have hst : b.state = a.state := by obtain ⟨k, -, -, rfl⟩ := Agent.tick_form hb; rfl
  rcases hc with ⟨hi, hc⟩ | ⟨-, -, rfl⟩
  · rw [← hst] at hi
    obtain ⟨c, c', hc1, hc2, rfl⟩ := Agent.iterateBody_form hc
    have hX := h1.xok (by rw [hi]; simp)
    have h2 : AgInv ID p { b with XPrev := b.X } := { h1 with
      accel := fun i1 i2 => ⟨(h1.accel i1 i2).1, (h1.accel i1 i2).2.1, hX⟩ }
    have h3 : AgInv ID p c := by
      rcases hc1 with ⟨hp, hc1⟩ | ⟨hp, hc1⟩
      · exact (h2.accelStep hi (by rw [← h1.params]; exact hp) hc1).1
      · exact (h2.updateX hi (by simp) hc1).1
    have h4 : AgInv ID p c' := by
      rcases hc2 with ⟨-, hc2⟩ | ⟨-, rfl⟩
      · exact h3.iterateStatus hc2
      · exact h3
    exact { h4 with }
  · exact h1

/-! ### Initialisation -/

theorem initializeInGlobalFrame_core (h : AgCore ID p a) (hs : a.state ≠ .WAIT_FOR_DATA) {T : PArr ℝ}
    (e : a.initializeInGlobalFrame T = ok a') : AgInv ID p a' := by
  obtain ⟨Y, R, X, g', c, hY, hd, hR, -, hX, hg, hw, -, rfl⟩ :=
    Agent.initializeInGlobalFrame_form h.reach e
  have hg' := hg.mono Agent.weighting_quiet
  have t := hg'.topology (fun _ h => h)
  have h' := h.graph hg'
  have hdat := h'.data hs
  have hXok : ArrOk p.r p.d g'.n X := by
    unfold Agent.liftTrajectory at hX
    split at hX
    · cases hX
    · simp only [bind_eq_ok, require_eq_ok, exists_and_left, exists_const] at hX
      obtain ⟨_, -, -, hX⟩ := hX
      obtain ⟨x1, x2, rfl⟩ := Agent.setData_form hX
      exact data_arr hdat.2.2 x1 x2
  apply AgCore.resync
  exact { h' with
    cost := by
      rcases hw with ⟨-, -, rfl⟩ | ⟨-, rfl, -⟩
      · exact h.cost
      · exact cost_reset h.cost
    noData := fun c => by cases c
    notInit := fun c => absurd rfl c
    data := fun _ => ⟨hdat.1, hdat.2.1, hXok⟩
    guess := fun Z hZ => by cases hZ; exact hXok
    nbr := storeOk_nil _ _ _
    aux := storeOk_nil _ _ _ }

theorem initializeInGlobalFrame (h : AgInv ID p a) {T : PArr ℝ}
    (e : a.initializeInGlobalFrame T = ok a') : AgInv ID p a' := by
  refine initializeInGlobalFrame_core h.toAgCore (fun hs => ?_) e
  obtain ⟨Y, R, X, g', c, hY, hd, hR, -, hX, -⟩ := Agent.initializeInGlobalFrame_form h.reach e
  unfold Agent.liftTrajectory at hX
  rw [h.noData hs] at hX
  cases hX

theorem normalize_arr {T S : PArr ℝ} (e : a.normalizeTrajectory T = ok S) :
    ArrOk a.graph.d a.graph.d a.graph.n S := by
  unfold Agent.normalizeTrajectory at e
  simp only [bind_eq_ok] at e
  obtain ⟨out, h1, M, -, W, -, e⟩ := e
  refine foldl_induction (P := ArrOk a.graph.d a.graph.d a.graph.n) ?_ _ _ _
    (make_arr (le_refl _) h1) e
  intro Q i Q' hQ e
  unfold Agent.normalizeStep at e
  simp only [bind_eq_ok] at e
  obtain ⟨_, -, _, -, _, -, _, -, _, -, e⟩ := e
  exact setPose_arr hQ e

theorem startLoop (h : AgInv ID p a) (e : a.startOptimizationLoop = ok a') : AgInv ID p a' := by
  obtain ⟨h1, rfl⟩ := Agent.startOptimizationLoop_form e
  exact { h with loop := fun _ => by rw [← h.params]; exact h1 }

theorem endLoop (h : AgInv ID p a) : AgInv ID p a.endOptimizationLoop :=
  { h with loop := fun c => by cases c }

theorem initialise (h : AgInv ID p a) {T : Option (PArr ℝ)} (e : a.init o T = ok a') :
    AgInv ID p a' := by
  rcases Agent.init_form h.reach e with ⟨-, rfl⟩ | ⟨-, -, rfl⟩ |
    ⟨hs, hn, T', S, X, b, c, hT, hS, hX, hc, he⟩
  · exact h
  · exact h.endLoop
  obtain ⟨-, g', k, hg, rfl, -⟩ := Agent.chooseTrajectory_form hT
  have h0 : AgInv ID p { a with running := false } := h.endLoop
  have h1 := h0.graph (hg.mono Agent.weighting_quiet)
  have hno := h1.notInit (by show a.state ≠ _; rw [hs]; simp)
  have t := (hg.mono Agent.weighting_quiet).topology (fun _ h => h)
  obtain ⟨-, dr, dd, drd⟩ := h1.dims
  have hS' := normalize_arr hS
  have hX' := make_arr (show g'.d ≤ g'.r by rw [dr, dd]; exact drd) hX
  replace hS' : ArrOk g'.d g'.d g'.n S := hS'
  replace dd : g'.d = p.d := dd
  replace dr : g'.r = p.r := dr
  rw [dd] at hS'
  rw [dd, dr] at hX'
  have hn' : 0 < g'.n := by rw [t.n]; exact hn
  have h2 : AgInv ID p
      { a with running := false, graph := g', calls := k, TLocalInit := some S, X := X,
               state := .WAIT_FOR_INITIALIZATION } :=
    { h1 with
      noData := fun c => by cases c
      notInit := fun _ => hno
      data := fun _ => ⟨hn', ⟨S, rfl, hS'⟩, hX'⟩
      accel := fun c => by cases c }
  have h3 : AgInv ID p c := by
    rcases hc with ⟨-, rfl⟩ | ⟨-, I, -, hc⟩
    · exact h2
    · exact h2.initializeInGlobalFrame hc
  rcases he with ⟨-, rfl⟩ | ⟨-, he⟩
  · exact h3
  · exact h3.startLoop he

/-! ### Messages, measurements, reset -/

theorem tryInitialize (h : AgInv ID p a) {nid : Nat} {dict : PoseDict ℝ}
    (e : a.tryInitialize o nid dict = ok a') : AgInv ID p a' := by
  rcases Agent.tryInitialize_form e with ⟨-, rfl⟩ | ⟨-, -, rfl⟩ | ⟨-, T, -, e⟩
  · exact h
  · exact h
  · exact h.initializeInGlobalFrame e

theorem updateNeighborPoses (h : AgInv ID p a) {nid : Nat} {dict : PoseDict ℝ} (hd : DictWF dict)
    (e : a.updateNeighborPoses o nid dict = ok a') : AgInv ID p a' := by
  obtain ⟨-, ⟨-, rfl⟩ | ⟨-, b, hb, he⟩⟩ := Agent.updateNeighborPoses_form e
  · exact h
  have h1 := h.tryInitialize hb
  rcases he with ⟨-, rfl⟩ | ⟨hi, hchk, rfl⟩
  · exact h1
  · exact { h1 with
      notInit := fun c => absurd hi c
      nbr := h1.nbr.stored fun kv hkv => by
        have := hd.2 kv hkv
        rw [(hchk kv hkv).2.1, (hchk kv hkv).2.2, h1.r, h1.d] at this
        exact this }

theorem updateAuxNeighborPoses (h : AgInv ID p a) {nid : Nat} {dict : PoseDict ℝ} (hd : DictWF dict)
    (e : a.updateAuxNeighborPoses nid dict = ok a') : AgInv ID p a' := by
  obtain ⟨-, -, ⟨-, rfl⟩ | ⟨-, hi, hchk, rfl⟩⟩ := Agent.updateAuxNeighborPoses_form e
  · exact h
  · exact { h with
      notInit := fun c => absurd hi c
      aux := h.aux.stored fun kv hkv => by
        have := hd.2 kv hkv
        rw [(hchk kv hkv).2.1, (hchk kv hkv).2.2, h.r, h.d] at this
        exact this }

theorem reset (h : AgInv ID p a) (e : a.reset o = ok a') : AgInv ID p a' := by
  have := Agent.reset_form e
  subst this
  have h1 := h.one (op := .reset) trivial rfl
  exact { h1 with
    anchor := fun X hX => by cases hX
    noData := fun _ => rfl
    notInit := fun _ => ⟨rfl, rfl, rfl⟩
    data := fun c => absurd rfl c
    guess := fun X hX => by cases hX
    accel := fun c => by cases c
    nbr := storeOk_nil _ _ _
    aux := storeOk_nil _ _ _
    team := ⟨by simp [OMap.Sorted, OMap.keys, OSet.Sorted], by simp⟩
    active := by simp [h.params]
    count := le_refl _
    loop := fun c => by cases c }

/-- While there is no data, the graph may change freely. -/
theorem newGraph (h : AgInv ID p a) (hs : a.state = .WAIT_FOR_DATA) {g : PoseGraph ℝ}
    (hg : Reachable ID p.r p.d g) : AgInv ID p { a with graph := g } := by
  have hn := h.notInit (by rw [hs]; simp)
  exact { h with
    reach := hg
    data := fun c => absurd hs c
    guess := fun X hX => by
      have : a.XInit = some X := hX
      rw [hn.1] at this; cases this
    accel := fun c => by
      have : a.state = .INITIALIZED := c
      rw [hs] at this; cases this
    nbr := by
      show StoreOk _ _ _ a.neighborPoses
      rw [hn.2.1]; exact storeOk_nil _ _ _
    aux := by
      show StoreOk _ _ _ a.neighborAuxPoses
      rw [hn.2.2]; exact storeOk_nil _ _ _ }

theorem addMeasurement (h : AgInv ID p a) {m : Meas ℝ} (hm : MeasWF m)
    (e : a.addMeasurement m = ok a') : AgInv ID p a' := by
  rcases Agent.addMeasurement_form e with ⟨-, rfl⟩ | ⟨hs, g, hg, rfl⟩
  · exact h
  · exact h.newGraph hs (PoseGraph.Reachable.snoc h.reach (op := .addMeasurement m) hm hg)

theorem setMeasurements (h : AgInv ID p a) {odo priv shared : List (Meas ℝ)}
    (hm : ∀ m ∈ odo ++ priv ++ shared, MeasWF m)
    (e : a.setMeasurements odo priv shared = ok a') : AgInv ID p a' := by
  obtain ⟨hs, -, ⟨-, rfl⟩ | ⟨-, g0, g', h0, hg, rfl⟩⟩ := Agent.setMeasurements_form e
  · exact h
  · refine h.newGraph hs ?_
    rw [h.id, h.r, h.d] at h0
    exact PoseGraph.Reachable.snoc (op := .setMeasurements (odo ++ priv ++ shared))
      ⟨g0, [], h0, by simp, rfl⟩ hm hg

/-- Every call keeps the invariant. -/
theorem step (h : AgInv ID p a) {op : AgOp} (hw : AgOpWF op) (e : a.step o op = ok a') :
    AgInv ID p a' := by
  cases op with
  | addMeasurement m => exact h.addMeasurement hw e
  | setMeasurements x y z => exact h.setMeasurements hw e
  | init T => exact h.initialise e
  | initializeInGlobalFrame T => exact h.initializeInGlobalFrame e
  | iterate b =>
    simp only [Agent.step, bind_eq_ok] at e
    obtain ⟨⟨s, c⟩, hc, e⟩ := e
    cases e
    exact h.iterate hc
  | reset => exact h.reset e
  | setX M => exact h.setX e
  | setXToInitialGuess => exact h.setXToInitialGuess e
  | setLiftingMatrix M => exact h.setLiftingMatrix e
  | setGlobalAnchor M => exact h.setGlobalAnchor e
  | updateNeighborPoses n dict => exact h.updateNeighborPoses hw e
  | updateAuxNeighborPoses n dict => exact h.updateAuxNeighborPoses hw e
  | clearNeighborPoses => cases e; exact h.clearNeighborPoses
  | clearActiveNeighborPoses => exact h.clearActiveNeighborPoses e
  | getStatus => cases e; exact { h with }
  | setNeighborStatus s => cases e; exact h.setNeighborStatus s
  | startOptimizationLoop => exact h.startLoop e
  | endOptimizationLoop => cases e; exact h.endLoop
  | initializeAcceleration =>
    obtain ⟨-, rfl⟩ := Agent.initializeAcceleration_form e
    exact h.toAgCore.resync
  | initializeRobustOptimization => exact h.initializeRobustOptimization e
  | updateMeasurementWeights => exact h.updateMeasurementWeights e
  | setMeasurementWeight s d w f =>
    simp only [Agent.step, bind_eq_ok] at e
    obtain ⟨⟨b, c⟩, hc, e⟩ := e
    cases e
    obtain ⟨g', hg, rfl⟩ := Agent.setMeasurementWeight_form hc
    exact h.one (op := .writeWeight s d w f) trivial hg
  | setRobotActive rid b => exact h.setRobotActive e
  | anchorFirstPose =>
    simp only [Agent.step, bind_eq_ok] at e
    obtain ⟨⟨b, c⟩, hc, e⟩ := e
    cases e
    rcases Agent.anchorFirstPose_form hc with ⟨-, -, rfl⟩ | ⟨-, -, P, M, g', -, -, hg, rfl⟩
    · exact h
    · exact h.one (op := .setPrior 0 P) trivial hg
  | anchorFirstPoseWith P =>
    simp only [Agent.step, bind_eq_ok] at e
    obtain ⟨⟨b, c⟩, hc, e⟩ := e
    cases e
    obtain ⟨-, g', hg, rfl⟩ := Agent.anchorFirstPoseWith_form hc
    exact h.one (op := .setPrior 0 P) trivial hg

theorem run (ops : List AgOp) : ∀ {a a' : Agent}, AgInv ID p a → (∀ op ∈ ops, AgOpWF op) →
    a.run o ops = ok a' → AgInv ID p a' := by
  induction ops with
  | nil => intro a a' h _ e; cases e; exact h
  | cons op ops ih =>
    intro a a' h hw e
    unfold Agent.run at e
    rw [foldl_cons, bind_eq_ok'] at e
    obtain ⟨b, hb, e⟩ := e
    exact ih (h.step (hw op (by simp)) hb) (fun x hx => hw x (by simp [hx])) e

end AgInv

/-- Reachable agents satisfy the invariant. -/
theorem agReach_inv {o : AgentOracles} {ID : Nat} {p : AgentParams} {a : Agent}
    (h : AgReach o ID p a) : AgInv ID p a := by
  obtain ⟨a0, ops, h0, hw, e⟩ := h
  exact AgInv.run ops (AgInv.init h0) hw e

theorem agReach_snoc {o : AgentOracles} {ID : Nat} {p : AgentParams} {a a' : Agent} {op : AgOp}
    (h : AgReach o ID p a) (hw : AgOpWF op) (e : a.step o op = ok a') : AgReach o ID p a' := by
  obtain ⟨a0, ops, h0, hws, er⟩ := h
  refine ⟨a0, ops ++ [op], h0, ?_, ?_⟩
  · intro x hx
    rcases List.mem_append.1 hx with hx | hx
    · exact hws x hx
    · rw [List.mem_singleton.1 hx]; exact hw
  · unfold Agent.run at er ⊢
    rw [foldl_append, er]
    show Res.bind (a.step o op) _ = _
    rw [e]; rfl

end

end Dpgo
