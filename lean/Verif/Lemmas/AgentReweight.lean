import Verif.Spec.Reweight
import Verif.Lemmas.AgentWeights
import Verif.Lemmas.AgentIterate

/-! # Weights through the calls of an agent -/

namespace Dpgo

open Res Spec PoseGraph

/-! ### Members and pointers -/

theorem mem_measurements_iff {g : PoseGraph ℝ} {m : Meas ℝ} :
    m ∈ g.measurements ↔ ∃ q, g.deref q = some m := by
  unfold PoseGraph.measurements
  rw [List.mem_append, List.mem_append]
  constructor
  · rintro ((h | h) | h) <;> obtain ⟨i, hi⟩ := List.mem_iff_getElem?.1 h
    · exact ⟨.odo i, hi⟩
    · exact ⟨.priv i, hi⟩
    · exact ⟨.shared i, hi⟩
  · rintro ⟨q, hq⟩
    cases q with
    | odo i => exact Or.inl (Or.inl (List.mem_iff_getElem?.2 ⟨i, hq⟩))
    | priv i => exact Or.inl (Or.inr (List.mem_iff_getElem?.2 ⟨i, hq⟩))
    | shared i => exact Or.inr (List.mem_iff_getElem?.2 ⟨i, hq⟩)

/-- The measurements of `g` satisfying `P` are measurements of `g'`. -/
def Keeps (P : Meas ℝ → Prop) (g g' : PoseGraph ℝ) : Prop :=
  ∀ m ∈ g.measurements, P m → m ∈ g'.measurements

theorem Keeps.refl (P : Meas ℝ → Prop) (g : PoseGraph ℝ) : Keeps P g g := fun _ h _ => h

theorem Keeps.trans {P : Meas ℝ → Prop} {a b c : PoseGraph ℝ} (h : Keeps P a b) (h' : Keeps P b c) :
    Keeps P a c := fun m hm hp => h' m (h m hm hp) hp

theorem Keeps.mono {P Q : Meas ℝ → Prop} {a b : PoseGraph ℝ} (h : Keeps P a b) (hq : ∀ m, Q m → P m) :
    Keeps Q a b := fun m hm hp => h m hm (hq m hp)

theorem Keeps.of_lists (P : Meas ℝ → Prop) {g g' : PoseGraph ℝ} (h1 : g'.odometry = g.odometry)
    (h2 : g'.privateLcs = g.privateLcs) (h3 : g'.sharedLcs = g.sharedLcs) : Keeps P g g' := by
  intro m hm _
  unfold PoseGraph.measurements at *
  rw [h1, h2, h3]
  exact hm

theorem keeps_updating (P : Meas ℝ → Prop) {g g' : PoseGraph ℝ} (h : Steps Agent.updating g g') :
    Keeps P g g' := by
  have k := updating_book h
  exact .of_lists P k.odometry k.privateLcs k.sharedLcs

theorem keeps_wloop {W : Meas ℝ → Res (Option ℝ)} {ps : List MPtr} {g g' : PoseGraph ℝ}
    (hn : ps.Nodup) (e : Res.foldl (Agent.wstep W) g ps = ok g') :
    Keeps (fun m => m.fixedWeight = true) g g' := by
  obtain ⟨-, -, h⟩ := Agent.wloop_spec hn e
  intro m hm hf
  obtain ⟨q, hq⟩ := mem_measurements_iff.1 hm
  exact mem_measurements_iff.2 ⟨q, (h q m hq).1 fun c => by rw [hf] at c; cases c.2⟩

theorem keeps_write {id r d : Nat} {g g' : PoseGraph ℝ} (hg : Reachable id r d g) {src dst : PoseID}
    {w : ℝ} {f : Bool} (e : g.step (.writeWeight src dst w f) = ok g') :
    Keeps (fun m => hasEnds src dst m = false) g g' := by
  obtain ⟨⟨log, h⟩, -⟩ := Reachable.inv hg
  simp only [PoseGraph.step, bind_eq_ok] at e
  obtain ⟨q, hq, e⟩ := e
  rcases h.find_spec src dst with ⟨h1, -⟩ | ⟨p, m0, h1, h2, -, h4, -⟩
  · rw [h1] at hq; cases hq
    cases e; exact .refl _ _
  · rw [h1] at hq; cases hq
    cases e
    intro m hm hne
    obtain ⟨x, hx⟩ := mem_measurements_iff.1 hm
    refine mem_measurements_iff.2 ⟨x, ?_⟩
    rw [deref_writeWeight, if_neg]
    · exact hx
    · rintro rfl
      rw [h2] at hx; cases hx
      rw [hne] at h4; cases h4

theorem keeps_add {g g' : PoseGraph ℝ} {m : Meas ℝ} (e : g.addMeasurement m = ok g') :
    Keeps (fun _ => True) g g' := by
  have ext : ∀ (g' : PoseGraph ℝ) (a b c : List (Meas ℝ)), g'.odometry = g.odometry ++ a →
      g'.privateLcs = g.privateLcs ++ b → g'.sharedLcs = g.sharedLcs ++ c →
      Keeps (fun _ => True) g g' := by
    intro g' a b c h1 h2 h3 x hx _
    unfold PoseGraph.measurements at *
    rw [h1, h2, h3]
    simp only [List.mem_append] at *
    tauto
  unfold PoseGraph.addMeasurement at e
  split at e
  · cases e; exact .refl _ _
  · split at e
    · split at e
      · unfold PoseGraph.addOdometry at e
        split at e
        · cases e; exact .refl _ _
        · simp only [bind_eq_ok, check_eq_ok, exists_and_left, exists_const] at e
          obtain ⟨-, -, -, -, e⟩ := e
          cases e
          exact ext _ [m] [] [] rfl (List.append_nil _).symm (List.append_nil _).symm
      · unfold PoseGraph.addPrivateLoopClosure at e
        split at e
        · cases e; exact .refl _ _
        · simp only [bind_eq_ok, check_eq_ok, exists_and_left, exists_const] at e
          obtain ⟨-, -, -, e⟩ := e
          cases e
          exact ext _ [] [m] [] (List.append_nil _).symm rfl (List.append_nil _).symm
    · unfold PoseGraph.addSharedLoopClosure at e
      split at e
      · cases e; exact .refl _ _
      · simp only [bind_eq_ok, check_eq_ok, exists_and_left, exists_const] at e
        obtain ⟨-, e⟩ := e
        split at e <;>
        · simp only [bind_eq_ok, check_eq_ok, exists_and_left, exists_const] at e
          obtain ⟨-, e⟩ := e
          cases e
          exact ext _ [] [] [m] (List.append_nil _).symm (List.append_nil _).symm rfl

/-! ### Initialisation -/

/-- Rejection keeps all measurements but those with the ends of a rejected one. -/
theorem keeps_reject {id r d : Nat} {ms : List (Meas ℝ)} : ∀ {a a' : Agent},
    Reachable id r d a.graph → a.rejectOutliers ms = ok a' →
    Keeps (fun m => ∀ x ∈ ms, x.weight < 1 / 100000000 → hasEnds x.src x.dst m = false)
      a.graph a'.graph := by
  induction ms with
  | nil => intro a a' _ e; cases e; exact .refl _ _
  | cons x ms ih =>
    intro a a' hg e
    unfold Agent.rejectOutliers at e
    rw [foldl_cons, bind_eq_ok'] at e
    obtain ⟨b, hb, e⟩ := e
    split at hb
    · rename_i hx
      simp only [bind_eq_ok] at hb
      obtain ⟨⟨y, c⟩, hc, hb⟩ := hb
      obtain ⟨g1, h1, rfl⟩ := Agent.setMeasurementWeight_form hc
      cases hb
      have hg1 : Reachable id r d g1 := (Steps.one (S := Agent.weighting)
        (by simp [Agent.weighting]) h1).reach
          (fun op h => quiet_wf op (Agent.weighting_quiet op h)) hg
      refine Keeps.trans (b := g1) ((keeps_write hg h1).mono fun m hm => hm x (by simp) hx) ?_
      exact (ih (a := { a with graph := g1 }) hg1 e).mono fun m hm y hy => hm y (by simp [hy])
    · cases hb
      exact (ih hg e).mono fun m hm y hy => hm y (by simp [hy])

theorem keeps_choose {o : AgentOracles} {id r d : Nat} {a a' : Agent} {T : PArr ℝ}
    {TI : Option (PArr ℝ)} (hg : Reachable id r d a.graph)
    (e : a.chooseTrajectory o TI = ok (T, a')) :
    Keeps (fun m => m.fixedWeight = true) a.graph a'.graph := by
  obtain ⟨-, g', k, -, -, ⟨S, -, -, -, -, rfl⟩ | ⟨-, h⟩⟩ := Agent.chooseTrajectory_form e
  · exact .refl _ _
  unfold Agent.localInitialization at h
  split at h
  · simp only [bind_eq_ok] at h
    obtain ⟨T', -, h⟩ := h
    cases h
    exact .refl _ _
  · simp only [bind_eq_ok] at h
    obtain ⟨T', -, h⟩ := h
    cases h
    exact .refl _ _
  · simp only [bind_eq_ok] at h
    obtain ⟨T', -, ⟨T'', ms⟩, hms, b, hb, h⟩ := h
    change Agent.rejectOutliers a ms = ok b at hb
    simp only [Res.ok.injEq, Prod.mk.injEq] at h
    obtain ⟨-, rfl⟩ := h
    intro m hm hf
    refine keeps_reject hg hb m hm fun x hx hw => ?_
    rw [← Bool.not_eq_true]
    intro hends
    obtain ⟨⟨log, hinv⟩, hid⟩ := Reachable.inv hg
    obtain ⟨-, hrw, -⟩ := solveRobustPGO_ok hms
    unfold Reweighted at hrw
    rw [List.forall₂_map_left_iff] at hrw
    obtain ⟨i, hi, rfl⟩ := List.mem_iff_getElem.1 hx
    have hl : a.graph.localMeasurements.length = ms.length := hrw.length_eq
    have hxi := hrw.get (i := i) (by omega) hi
    have hx0 : a.graph.localMeasurements.get ⟨i, by omega⟩ ∈ a.graph.localMeasurements :=
      List.get_mem _ _
    generalize a.graph.localMeasurements.get ⟨i, by omega⟩ = x0 at hxi hx0
    have hx1 : x0 ∈ log := by
      unfold PoseGraph.localMeasurements at hx0
      rw [hinv.odo, hinv.priv] at hx0
      rcases List.mem_append.1 hx0 with h | h <;> exact (List.mem_filter.1 h).1
    have hml : m ∈ log := by
      unfold PoseGraph.measurements at hm
      rw [hinv.odo, hinv.priv, hinv.shared] at hm
      simp only [List.mem_append, List.mem_filter] at hm
      tauto
    have hwf := hinv.wf x0 hx1
    have hsame := hxi.1
    unfold SameButWeight at hsame
    have hsrc : ms[i].src = x0.src := by
      show Meas.src (ms.get ⟨i, hi⟩) = _
      rw [hsame]; rfl
    have hdst : ms[i].dst = x0.dst := by
      show Meas.dst (ms.get ⟨i, hi⟩) = _
      rw [hsame]; rfl
    rw [hsrc, hdst, hasEnds_iff, hwf.src_eq, hwf.dst_eq] at hends
    have heq : m = x0 := by
      by_contra hne
      have hs : sameEnds m x0 = true := by rw [sameEnds_iff]; exact hends
      obtain ⟨j, hj, rfl⟩ := List.mem_iff_getElem.1 hml
      obtain ⟨k', hk', rfl⟩ := List.mem_iff_getElem.1 hx1
      rcases lt_trichotomy j k' with hlt | he | hlt
      · have := List.pairwise_iff_getElem.1 hinv.distinct j k' hj hk' hlt
        rw [this] at hs; cases hs
      · subst he; exact hne rfl
      · have := List.pairwise_iff_getElem.1 hinv.distinct k' j hk' hj hlt
        rw [sameEnds_symm] at hs
        rw [this] at hs; cases hs
    subst heq
    have h1 : ms.get ⟨i, hi⟩ = { m with weight := 1 } := hxi.2 hf
    have h2 : ms[i].weight = 1 := by
      show Meas.weight (ms.get ⟨i, hi⟩) = _
      rw [h1]
    rw [h2] at hw
    norm_num at hw

theorem keeps_initGlobal {id r d : Nat} {a a' : Agent} {T : PArr ℝ} (hg : Reachable id r d a.graph)
    (e : a.initializeInGlobalFrame T = ok a') :
    Keeps (fun m => m.fixedWeight = true) a.graph a'.graph := by
  obtain ⟨Y, R, X, g', c, -, -, -, -, -, -, h, -, rfl⟩ := Agent.initializeInGlobalFrame_form hg e
  rw [Agent.resync_frame]
  rcases h with ⟨-, rfl, -⟩ | ⟨-, -, ps, hp, hw⟩
  · exact .refl _ _
  · rw [Agent.weightsToOne_wstep] at hw
    exact keeps_wloop (Agent.active_nodup hg hp) hw

theorem keeps_init {o : AgentOracles} {id r d : Nat} {a a' : Agent} {TI : Option (PArr ℝ)}
    (hg : Reachable id r d a.graph) (e : a.init o TI = ok a') :
    Keeps (fun m => m.fixedWeight = true) a.graph a'.graph := by
  rcases Agent.init_form hg e with ⟨-, rfl⟩ | ⟨-, -, rfl⟩ |
    ⟨-, -, T', S, X, b, c, hT, -, -, hc, he⟩
  · exact .refl _ _
  · exact .refl _ _
  have h1 : Keeps (fun m => m.fixedWeight = true) a.graph b.graph :=
    keeps_choose (a := { a with running := false }) hg hT
  obtain ⟨-, g', k, hg1, hb, -⟩ := Agent.chooseTrajectory_form hT
  have hg2 : Reachable id r d b.graph := by
    rw [hb]; exact (hg1.mono Agent.weighting_quiet).reach quiet_wf hg
  have h2 : Keeps (fun m => m.fixedWeight = true) a.graph c.graph := by
    rcases hc with ⟨-, rfl⟩ | ⟨-, I, -, hc⟩
    · exact h1
    · have h3 := keeps_initGlobal (by exact hg2) hc
      exact h1.trans h3
  rcases he with ⟨-, rfl⟩ | ⟨-, he⟩
  · exact h2
  · obtain ⟨-, rfl⟩ := Agent.startOptimizationLoop_form he
    exact h2

theorem keeps_updateNeighborPoses {o : AgentOracles} {id r d : Nat} {a a' : Agent} {nid : Nat}
    {dict : PoseDict ℝ} (hg : Reachable id r d a.graph)
    (e : a.updateNeighborPoses o nid dict = ok a') :
    Keeps (fun m => m.fixedWeight = true) a.graph a'.graph := by
  obtain ⟨-, ⟨-, rfl⟩ | ⟨-, b, hb, he⟩⟩ := Agent.updateNeighborPoses_form e
  · exact .refl _ _
  have h1 : Keeps (fun m => m.fixedWeight = true) a.graph b.graph := by
    rcases Agent.tryInitialize_form hb with ⟨-, rfl⟩ | ⟨-, -, rfl⟩ | ⟨-, T, -, hb⟩
    · exact .refl _ _
    · exact .refl _ _
    · exact keeps_initGlobal hg hb
  rcases he with ⟨-, rfl⟩ | ⟨-, -, rfl⟩
  · exact h1
  · exact h1

theorem keeps_updateWeights {id r d : Nat} {a a' : Agent} (hg : Reachable id r d a.graph)
    (e : a.updateMeasurementWeights = ok a') :
    Keeps (fun m => m.fixedWeight = true) a.graph a'.graph := by
  rcases Agent.updateMeasurementWeights_form hg e with ⟨-, rfl⟩ | ⟨-, ps, g, b, hp, hw, -, -, hb, rfl⟩
  · exact .refl _ _
  rw [Agent.reweightStep_wstep] at hw
  have h1 := keeps_wloop (Agent.active_nodup hg hp) hw
  rw [Agent.resync_frame]
  have h2 : Keeps (fun m => m.fixedWeight = true) g b.graph := by
    rcases Agent.resetTrajectory_form hb with ⟨-, rfl⟩ | ⟨-, -, X, -, rfl⟩ <;>
    exact .of_lists _ rfl rfl rfl
  exact h1.trans h2

/-- No call but an explicit one changes a measurement with a fixed weight. -/
theorem keeps_step {o : AgentOracles} {ID : Nat} {p : AgentParams} {a a' : Agent}
    (h : AgInv ID p a) {op : AgOp} (e : a.step o op = ok a')
    (hset : ∀ x y z, op ≠ .setMeasurements x y z) :
    Keeps (fun m => m.fixedWeight = true ∧
      ∀ s d w f, op = .setMeasurementWeight s d w f → hasEnds s d m = false) a.graph a'.graph := by
  have fixed : Keeps (fun m => m.fixedWeight = true) a.graph a'.graph → Keeps (fun m =>
      m.fixedWeight = true ∧ ∀ s d w f, op = .setMeasurementWeight s d w f → hasEnds s d m = false)
      a.graph a'.graph := fun k => k.mono fun m hm => hm.1
  have same : a'.graph = a.graph → Keeps (fun m =>
      m.fixedWeight = true ∧ ∀ s d w f, op = .setMeasurementWeight s d w f → hasEnds s d m = false)
      a.graph a'.graph := fun k => by rw [k]; exact .refl _ _
  cases op with
  | addMeasurement m =>
    rcases Agent.addMeasurement_form e with ⟨-, rfl⟩ | ⟨-, g', hg, rfl⟩
    · exact .refl _ _
    · exact (keeps_add hg).mono fun _ _ => trivial
  | setMeasurements x y z => exact absurd rfl (hset x y z)
  | init T => exact fixed (keeps_init h.reach e)
  | initializeInGlobalFrame T => exact fixed (keeps_initGlobal h.reach e)
  | iterate b =>
    simp only [Agent.step, bind_eq_ok] at e
    obtain ⟨⟨s, c⟩, hc, e⟩ := e
    cases e
    exact keeps_updating _ (Agent.iterate_frame hc).2.1
  | reset =>
    rw [Agent.reset_form e]
    refine .of_lists _ ?_ ?_ ?_ <;> simp only [PoseGraph.reset, PoseGraph.clearNeighborPoses,
      clearDataMatrices, clearPriors, clearQuadraticMatrix, clearLinearMatrix]
  | updateNeighborPoses n dict => exact fixed (keeps_updateNeighborPoses h.reach e)
  | initializeRobustOptimization =>
    obtain ⟨ps, g', hp, hw, -, rfl⟩ := Agent.initializeRobustOptimization_form h.reach e
    rw [Agent.weightsToOne_wstep] at hw
    exact fixed (keeps_wloop (Agent.active_nodup h.reach hp) hw)
  | updateMeasurementWeights => exact fixed (keeps_updateWeights h.reach e)
  | setMeasurementWeight s d w f =>
    simp only [Agent.step, bind_eq_ok] at e
    obtain ⟨⟨b, c⟩, hc, e⟩ := e
    cases e
    obtain ⟨g', hg, rfl⟩ := Agent.setMeasurementWeight_form hc
    exact (keeps_write h.reach hg).mono fun m hm => hm.2 s d w f rfl
  | setRobotActive rid b =>
    rcases Agent.setRobotActive_form e with ⟨-, rfl⟩ | ⟨-, -, g, hg, rfl⟩
    · exact .refl _ _
    · simp only [PoseGraph.step, setNeighborActive] at hg
      split at hg
      · cases hg; exact .refl _ _
      · split at hg
        · cases hg
        · split at hg <;> cases hg <;> exact .of_lists _ rfl rfl rfl
  | anchorFirstPose =>
    simp only [Agent.step, bind_eq_ok] at e
    obtain ⟨⟨b, c⟩, hc, e⟩ := e
    cases e
    rcases Agent.anchorFirstPose_form hc with ⟨-, -, rfl⟩ | ⟨-, -, P, M, g', -, -, hg, rfl⟩
    · exact .refl _ _
    · simp only [PoseGraph.step, setPrior, bind_eq_ok, check_eq_ok, exists_and_left,
        exists_const] at hg
      obtain ⟨-, -, -, hg⟩ := hg
      cases hg; exact .of_lists _ rfl rfl rfl
  | anchorFirstPoseWith P =>
    simp only [Agent.step, bind_eq_ok] at e
    obtain ⟨⟨b, c⟩, hc, e⟩ := e
    cases e
    obtain ⟨-, g', hg, rfl⟩ := Agent.anchorFirstPoseWith_form hc
    simp only [PoseGraph.step, setPrior, bind_eq_ok, check_eq_ok, exists_and_left, exists_const] at hg
    obtain ⟨-, -, -, hg⟩ := hg
    cases hg; exact .of_lists _ rfl rfl rfl
  | _ => have f := congrArg Agent.graph (Agent.step_frame h e); exact same f

end Dpgo
