import Verif.Lemmas.Suggest
import Verif.Lemmas.AlignExample
import Verif.Props.AgentAlign
import Verif.Props.AgentGuess

/-! # C89: joining the global frame takes enough loop closures that agree; C31 for the one-stage transform -/

namespace Dpgo.Props

open Res Spec PoseGraph Matrix

variable {o : AgentOracles} {ID : Nat} {p : AgentParams} {a a' : Agent}

/-- **C31** (one stage).  The one-stage transform recovers the frame from exact measurements as the two-stage
transform does; `x` is the value of the χ² quantile. -/
theorem C31_one_stage (ha : AgReach o ID p a) (hs : a.state ≠ .WAIT_FOR_DATA) (hsvd : LawfulSvd o.svd)
    {Y : DMat ℝ} (hY : a.YLift = some Y) (hYo : OrthoCols (Y.toMat p.r p.d)) {T : PArr ℝ}
    (hT : a.TLocalInit = some T) {w : Truth p.d} {S : Matrix (Fin p.d) (Fin p.d) ℝ} {s : Fin p.d → ℝ}
    (hl : w.Local ID a.graph.n S s T) {nid : Nat} (hnid : nid ≠ ID) {dict : PoseDict ℝ}
    (hd : w.Dict (Y.toMat p.r p.d) dict) (hx : ∀ m ∈ a.graph.sharedLcs, w.Exact m) {x : ℝ} (h0 : 0 < x) :
    if numUsable ID nid a.graph dict = 0 ∨ numUsable ID nid a.graph dict < p.minInliers then
      a.computeRobustNeighborTransform o x nid dict = ok none
    else ∃ W, a.computeRobustNeighborTransform o x nid dict = ok (some W) ∧ ArrOk p.d p.d 1 W ∧
      rotM p.d p.d W 0 = S ∧ traV p.d p.d W 0 = s := by
  refine Agent.oneStage_exact (agReach_inv ha) hs hsvd hY hYo hT hl hnid hd (fun m hm => ?_) h0
  unfold PoseGraph.sharedLoopClosuresWithRobot at hm
  exact hx m (List.mem_filter.1 hm).1

/-- **C89** (one loop closure).  From any shared loop closure and any pose of the neighbour, right or wrong, the
robot computes the only frame in which the loop closure holds exactly. -/
theorem C89_suggestion (ha : AgReach o ID p a) (hs : a.state ≠ .WAIT_FOR_DATA) {Y : DMat ℝ}
    (hY : a.YLift = some Y) {T : PArr ℝ} (hT : a.TLocalInit = some T) (hreg : Regular p.d a.graph T)
    {m : Meas ℝ} (hm : m ∈ a.graph.sharedLcs) {N : PArr ℝ} (hN : ArrOk p.r p.d 1 N) :
    ∃ W, a.computeNeighborTransform m N = ok W ∧ ArrOk p.d p.d 1 W ∧ ∀ S s,
      Suggests ID (Y.toMat p.r p.d) T N m S s ↔ S = rotM p.d p.d W 0 ∧ s = traV p.d p.d W 0 := by
  have hi := agReach_inv ha
  obtain ⟨W, e, hW, h⟩ := Agent.transform_suggests hi hs hY hT hreg hm hN
  refine ⟨W, e, hW, fun S s => ⟨fun h' => ?_, fun h' => by rw [h'.1, h'.2]; exact h⟩⟩
  exact Agent.suggests_unique (hreg.meas m hm) (hreg.traj _ (own_lt hi.reach hm).2.1) h' h

/-- **C89**  A robot that waits for a frame and is initialised by a message has been reported that the sender is
initialised, and sits at a rotation `S` and a translation `s` such that at least the required number of loop
closures with the sender, and at least one, suggest rotations within half a radian of `S`; `s` is the mean of the
translations that these suggest.  This holds whatever the measurements and the message are. -/
theorem C89_votes (ha : AgReach o ID p a) (hsvd : LawfulSvd o.svd) (hs : a.state = .WAIT_FOR_INITIALIZATION)
    {T : PArr ℝ} (hT : a.TLocalInit = some T) (hreg : Regular p.d a.graph T) {nid : Nat} {dict : PoseDict ℝ}
    (hd : ∀ kv ∈ dict, ArrOk p.r p.d 1 kv.2) (e : a.updateNeighborPoses o nid dict = ok a')
    (hs' : a'.state = .INITIALIZED) :
    (∃ st, OMap.find? ltNat nid a.teamStatus = some st ∧ st.state = .INITIALIZED) ∧
    ∃ (Y : DMat ℝ) (S : Matrix (Fin p.d) (Fin p.d) ℝ) (s : Fin p.d → ℝ) (V : List (Vote p.d)),
      a.YLift = some Y ∧ IsRot S ∧
      (∀ i < a.graph.n, rotM p.r p.d a'.X i = Y.toMat p.r p.d * (S * rotM p.d p.d T i) ∧
        traV p.r p.d a'.X i = Y.toMat p.r p.d *ᵥ (S *ᵥ traV p.d p.d T i + s)) ∧
      V ≠ [] ∧ p.minInliers ≤ V.length ∧ (V.map (·.meas)).Sublist a.graph.sharedLcs ∧
      (∀ v ∈ V, v.Holds ID nid (Y.toMat p.r p.d) T dict ∧ frob2 (S - v.S) < 8 * Real.sin (1 / 4) ^ 2) ∧
      (V.length : ℝ) • s = (V.map (·.s)).sum := by
  have hi := agReach_inv ha
  have hst : a.state ≠ .WAIT_FOR_DATA := by rw [hs]; decide
  obtain ⟨hnid, h⟩ := Agent.updateNeighborPoses_form e
  rw [hi.id] at hnid
  rcases h with ⟨-, rfl⟩ | ⟨hacc, b, hb, h⟩
  · rw [hs] at hs'; cases hs'
  obtain ⟨⟨Y, hY⟩, hrep⟩ := Agent.acceptsFrom_iff.1 hacc
  have hX : a'.X = b.X ∧ a'.state = b.state := by
    rcases h with ⟨-, rfl⟩ | ⟨-, -, rfl⟩ <;> exact ⟨rfl, rfl⟩
  rcases Agent.tryInitialize_form hb with ⟨c, -⟩ | ⟨-, -, rfl⟩ | ⟨-, W, hW, hg⟩
  · exact absurd hs c
  · rw [hX.2, hs] at hs'; cases hs'
  obtain ⟨w1, w2, V, v1, v2, v3, v4, v5⟩ := Agent.twoStage_votes hi hst hsvd hY hT hreg hnid hd hW
  obtain ⟨-, -, hval⟩ := C77_value ha hst hY hT w1 hg
  rw [hX.1]
  exact ⟨hrep, Y, _, _, V, hY, w2, hval, v1, v2, v3, v4, v5⟩

/-- **C89** (otherwise).  A message that does not initialise the robot leaves it exactly as it was. -/
theorem C89_refused (ha : AgReach o ID p a) {nid : Nat}
    {dict : PoseDict ℝ} (e : a.updateNeighborPoses o nid dict = ok a') (hs' : a'.state ≠ .INITIALIZED) :
    a' = a := by
  have hi := agReach_inv ha
  obtain ⟨-, h⟩ := Agent.updateNeighborPoses_form e
  rcases h with ⟨-, h⟩ | ⟨-, b, hb, h⟩
  · exact h
  rcases h with ⟨hbs, rfl⟩ | ⟨hbs, -, rfl⟩
  · rcases Agent.tryInitialize_form hb with ⟨-, h⟩ | ⟨-, -, h⟩ | ⟨-, W, -, hg⟩
    · exact h
    · exact h
    · obtain ⟨_, _, _, _, _, -, -, -, -, -, -, -, -, rfl⟩ := Agent.initializeInGlobalFrame_form hi.reach hg
      exact absurd (by unfold Agent.resync; split <;> rfl) hbs
  · exact absurd hbs hs'

/-- **C89** (translations are not checked).  If the usable loop closures suggest one and the same rotation, the
transform is taken from all of them, however far apart the translations are that they suggest. -/
theorem C89_translations_unchecked (ha : AgReach o ID p a) (hs : a.state ≠ .WAIT_FOR_DATA)
    (hsvd : LawfulSvd o.svd) {Y : DMat ℝ} (hY : a.YLift = some Y) {T : PArr ℝ} (hT : a.TLocalInit = some T)
    (hreg : Regular p.d a.graph T) {nid : Nat} (hnid : nid ≠ ID) {dict : PoseDict ℝ}
    (hd : ∀ kv ∈ dict, ArrOk p.r p.d 1 kv.2) {S : Matrix (Fin p.d) (Fin p.d) ℝ} (hS : IsRot S)
    (hagree : ∀ v : Vote p.d, v.meas ∈ a.graph.sharedLcs → v.Holds ID nid (Y.toMat p.r p.d) T dict → v.S = S)
    (h0 : 0 < numUsable ID nid a.graph dict) (hmin : p.minInliers ≤ numUsable ID nid a.graph dict) :
    ∃ W, a.computeRobustNeighborTransformTwoStage o nid dict = ok (some W) ∧ ArrOk p.d p.d 1 W ∧
      rotM p.d p.d W 0 = S ∧ ∃ V : List (Vote p.d), V.length = numUsable ID nid a.graph dict ∧
        (V.map (·.meas)).Sublist a.graph.sharedLcs ∧
        (∀ v ∈ V, v.Holds ID nid (Y.toMat p.r p.d) T dict) ∧
        (V.length : ℝ) • traV p.d p.d W 0 = (V.map (·.s)).sum :=
  Agent.twoStage_agree (agReach_inv ha) hs hsvd hY hT hreg hnid hd hS hagree h0 hmin

/-- **C89** (one stage).  The one-stage transform always returns; if it returns a frame, then at least the required
number of loop closures suggest a rotation and a translation close to it, in the weighted distance that the code
uses. -/
theorem C89_one_stage (ha : AgReach o ID p a) (hs : a.state ≠ .WAIT_FOR_DATA) (hsvd : LawfulSvd o.svd)
    {Y : DMat ℝ} (hY : a.YLift = some Y) {T : PArr ℝ} (hT : a.TLocalInit = some T)
    (hreg : Regular p.d a.graph T) {nid : Nat} (hnid : nid ≠ ID) {dict : PoseDict ℝ}
    (hd : ∀ kv ∈ dict, ArrOk p.r p.d 1 kv.2) {x : ℝ} (hx : 0 < x) :
    a.computeRobustNeighborTransform o x nid dict = ok none ∨
    ∃ W, a.computeRobustNeighborTransform o x nid dict = ok (some W) ∧
    ArrOk p.d p.d 1 W ∧ IsRot (rotM p.d p.d W 0) ∧ ∃ V : List (Vote p.d), p.minInliers ≤ V.length ∧
      (V.map (·.meas)).Sublist a.graph.sharedLcs ∧
      ∀ v ∈ V, v.Holds ID nid (Y.toMat p.r p.d) T dict ∧
        182 / 100 * frob2 (rotM p.d p.d W 0 - v.S) +
          1 / 100 * ∑ i, (traV p.d p.d W 0 i - v.s i) ^ 2 < x :=
  Agent.oneStage_votes (agReach_inv ha) hs hsvd hY hT hreg hnid hd hx

theorem exVoters_regular {w : Truth 2} {g : PoseGraph ℝ} {T : PArr ℝ} {S : Matrix (Fin 2) (Fin 2) ℝ}
    {s : Fin 2 → ℝ} (hm : ∀ m ∈ g.measurements, w.Exact m) (hl : w.Local 1 g.n S s T) : Regular 2 g T := by
  refine ⟨fun m h => ?_, fun i hi => ?_⟩
  · rw [(hm m (by unfold PoseGraph.measurements; exact List.mem_append_right _ h)).1, det_mul, det_transpose,
      (w.rigid _ _).2, (w.rigid _ _).2, one_mul]
    exact one_ne_zero
  · have := congrArg Matrix.det (hl.rot i hi)
    rw [(w.rigid 1 i).2, det_mul, hl.rigid.2, one_mul] at this
    rw [← this]; exact one_ne_zero

/-- For all true poses of two robots: robot 1 waits with two loop closures and is initialised by the message of
robot 0, by at least two votes; so are the hypotheses of the other theorems met. -/
example (w : Truth 2) : ∃ (a a' : Agent) (T : PArr ℝ) (dict : PoseDict ℝ), AgReach exOracle 1 exParams a ∧
    a.state = .WAIT_FOR_INITIALIZATION ∧ a.TLocalInit = some T ∧ Regular 2 a.graph T ∧
    (∀ kv ∈ dict, ArrOk 3 2 1 kv.2) ∧ a.updateNeighborPoses exOracle 0 dict = ok a' ∧ a'.state = .INITIALIZED ∧
    exParams.minInliers = 2 ∧
    ∃ W S s, a.computeRobustNeighborTransform exOracle 10 0 dict = ok (some W) ∧ w.seen.Local 1 2 S s T ∧
      rotM 2 2 W 0 = S ∧ traV 2 2 W 0 = s := by
  have hsvd : LawfulSvd exOracle.svd := exists_lawfulSvd.choose_spec
  have hY : OrthoCols (exOracle.stiefel exParams.d exParams.r) := exStiefel
  obtain ⟨A, M, m, h, hm, h0, s0, s1, ⟨Z, hZ⟩, g0, g1, ⟨s, hs, hs'⟩, hu⟩ := exAlignRun w
  obtain ⟨a', e, e', h'⟩ := C34_progress hsvd rfl hY h s1 hZ hm (by rw [h0]; decide) (by rw [h0]; exact hs) hs'
    (by rw [h0, hu]; decide) (by rw [h0, hu]; exact le_refl 2)
  have inv := setup_inv hsvd rfl hY (seen_zero w) (setupRun_seen h)
  have hi := inv.robot 1
  have hst : (A 1).state ≠ .WAIT_FOR_DATA := by rw [s1]; decide
  obtain ⟨-, ⟨T, hT, -⟩, -⟩ := (agReach_inv hi.reach).data hst
  obtain ⟨S, t, hl⟩ := hi.traj T hT
  refine ⟨A 1, a', T, m.dict, hi.reach, s1, hT, exVoters_regular hi.meas hl, ?_, by rw [h0] at e; exact e, e', rfl, ?_⟩
  · exact fun kv hkv => ((inv.msg m hm).2.1 kv hkv).1
  · have hZY := hi.lift Z hZ
    have key := C31_one_stage hi.reach hst hsvd hZ (by rw [hZY]; exact hY) hT hl (nid := 0) (by decide)
      (dict := m.dict) (by rw [hZY]; exact (inv.msg m hm).2.1) (fun x hx => hi.meas x (by
        unfold PoseGraph.measurements
        exact List.mem_append_right _ hx)) (x := 10) (by norm_num)
    rw [hu, if_neg (by simp [exParams, AgentParams.default])] at key
    obtain ⟨W, k, -, k1, k2⟩ := key
    exact ⟨W, S, t, k, by rw [g1.n] at hl; exact hl, k1, k2⟩

/-- For all true poses of two robots and every displacement `δ`: if one of the two poses that robot 0 sends is
displaced by `δ`, robot 1 still takes the frame, displaced by half of `δ`. -/
example (w : Truth 2) (δ : Fin 2 → ℝ) : ∃ (a : Agent) (T W : PArr ℝ) (dict : PoseDict ℝ)
    (S : Matrix (Fin 2) (Fin 2) ℝ) (s : Fin 2 → ℝ), AgReach exOracle 1 exParams a ∧
    a.TLocalInit = some T ∧ w.seen.Local 1 2 S s T ∧
    a.computeRobustNeighborTransformTwoStage exOracle 0 dict = ok (some W) ∧
    rotM 2 2 W 0 = S ∧ traV 2 2 W 0 = s + (1 / 2 : ℝ) • δ := by
  have hsvd : LawfulSvd exOracle.svd := exists_lawfulSvd.choose_spec
  have hY : OrthoCols (exOracle.stiefel exParams.d exParams.r) := exStiefel
  obtain ⟨A, M, m, h, hm, h0, s0, s1, ⟨Z, hZ⟩, g0, g1, -, -⟩ := exAlignRun w
  have inv := setup_inv hsvd rfl hY (seen_zero w) (setupRun_seen h)
  have hi := inv.robot 1
  have hst : (A 1).state ≠ .WAIT_FOR_DATA := by rw [s1]; decide
  obtain ⟨-, ⟨T, hT, -⟩, -⟩ := (agReach_inv hi.reach).data hst
  obtain ⟨S, s, hl⟩ : ∃ (S : Matrix (Fin 2) (Fin 2) ℝ) (s : Fin 2 → ℝ), w.seen.Local 1 (A 1).graph.n S s T :=
    hi.traj T hT
  have hZY : Z.toMat 3 2 = exOracle.stiefel 2 3 := hi.lift Z hZ
  have hreg : Regular 2 (A 1).graph T := exVoters_regular hi.meas hl
  have hZo : OrthoCols (Z.toMat 3 2) := by rw [hZY]; exact hY
  -- the message
  obtain ⟨N0, n0, r0, t0⟩ := exLifted (exOracle.stiefel 2 3 * w.seen.R 0 0) (exOracle.stiefel 2 3 *ᵥ w.seen.t 0 0)
  obtain ⟨N1, n1, r1, t1⟩ := exLifted (exOracle.stiefel 2 3 * w.seen.R 0 1) (exOracle.stiefel 2 3 *ᵥ w.seen.t 0 1)
  obtain ⟨N2, n2, r2, t2⟩ := exLifted (exOracle.stiefel 2 3 * w.seen.R 0 1)
    (exOracle.stiefel 2 3 *ᵥ w.seen.t 0 1 + exOracle.stiefel 2 3 *ᵥ δ)
  set dict : PoseDict ℝ := [(⟨0, 0⟩, N0), (⟨0, 1⟩, N2)] with hdict
  have hd : ∀ kv ∈ dict, ArrOk 3 2 1 kv.2 := by
    intro kv hkv
    simp only [hdict, List.mem_cons, List.not_mem_nil, or_false] at hkv
    rcases hkv with rfl | rfl
    · exact n0
    · exact n2
  have f0 : OMap.find? ltPoseID ⟨0, 0⟩ dict = some N0 := rfl
  have f1 : OMap.find? ltPoseID ⟨0, 1⟩ dict = some N2 := rfl
  -- the two loop closures
  obtain ⟨x1, x2, hx⟩ : ∃ x1 x2, (A 1).graph.sharedLcs = [x1, x2] := by
    have := congrArg List.length g1.shared
    simp only [List.length_map, List.length_cons, List.length_nil] at this
    exact List.length_eq_two.1 this
  have hsh := g1.shared
  rw [hx] at hsh
  simp only [List.map_cons, List.map_nil, List.cons.injEq, and_true] at hsh
  have p1 : foreignPose 1 x1 = ⟨0, 1⟩ := by
    show foreignPose 1 (strip x1) = foreignPose 1 (strip (exTrue w 0 1 1 0))
    rw [hsh.1]
  have p2 : foreignPose 1 x2 = ⟨0, 0⟩ := by
    show foreignPose 1 (strip x2) = foreignPose 1 (strip (exTrue w 1 0 1 0))
    rw [hsh.2]
  have hmem1 : x1 ∈ (A 1).graph.sharedLcs := by rw [hx]; simp
  have hmem2 : x2 ∈ (A 1).graph.sharedLcs := by rw [hx]; simp
  have hex : ∀ x ∈ (A 1).graph.sharedLcs, w.seen.Exact x := fun x hx => hi.meas x (by
    unfold PoseGraph.measurements
    exact List.mem_append_right _ hx)
  have sug : ∀ x ∈ (A 1).graph.sharedLcs, ∀ N, ArrOk 3 2 1 N →
      w.seen.Lifted (Z.toMat 3 2) (foreignPose 1 x).robot (foreignPose 1 x).frame N 0 →
      Suggests 1 (Z.toMat 3 2) T N x S s := by
    intro x hx N hN hL
    obtain ⟨W, e, -, e1, e2⟩ := C31_edge hi.reach hst hZ hZo hT hl hx (hex x hx) hN hL
    obtain ⟨W', e', -, k⟩ := C89_suggestion hi.reach hst hZ hT hreg hx hN
    rw [e] at e'; cases e'
    exact (k S s).2 ⟨e1.symm, e2.symm⟩
  have sug1 : Suggests 1 (Z.toMat 3 2) T N2 x1 S (s + δ) := by
    refine Agent.suggests_shift hZo (sug x1 hmem1 N1 n1 ?_) (r2.trans r1.symm) ?_
    · rw [p1, hZY]; exact ⟨r1, t1⟩
    · rw [hZY]; exact t2.trans (by rw [t1])
  have sug2 : Suggests 1 (Z.toMat 3 2) T N0 x2 S s :=
    sug x2 hmem2 N0 n0 (by rw [p2, hZY]; exact ⟨r0, t0⟩)
  have uniq : ∀ x ∈ (A 1).graph.sharedLcs, ∀ {N : PArr ℝ} {S1 S2 : Matrix (Fin 2) (Fin 2) ℝ}
      {q1 q2 : Fin 2 → ℝ}, Suggests 1 (Z.toMat 3 2) T N x S1 q1 →
      Suggests 1 (Z.toMat 3 2) T N x S2 q2 → S1 = S2 ∧ q1 = q2 := fun x hx _ _ _ _ _ h1 h2 =>
    Agent.suggests_unique (hreg.meas x hx) (hreg.traj _ (own_lt (agReach_inv hi.reach).reach hx).2.1) h1 h2
  have v1 : ∀ v : Vote 2, v.meas = x1 → v.Holds 1 0 (Z.toMat 3 2) T dict →
      v.S = S ∧ v.s = s + δ := by
    rintro ⟨x, S', s'⟩ rfl ⟨-, N, hN, hv⟩
    rw [show foreignPose 1 x = ⟨0, 1⟩ from p1, f1] at hN
    cases hN
    exact uniq x hmem1 hv sug1
  have v2 : ∀ v : Vote 2, v.meas = x2 → v.Holds 1 0 (Z.toMat 3 2) T dict →
      v.S = S ∧ v.s = s := by
    rintro ⟨x, S', s'⟩ rfl ⟨-, N, hN, hv⟩
    rw [show foreignPose 1 x = ⟨0, 0⟩ from p2, f0] at hN
    cases hN
    exact uniq x hmem2 hv sug2
  have hu : numUsable 1 0 (A 1).graph dict = 2 := by
    unfold numUsable
    rw [hx]
    simp [p1, p2, f0, f1]
  obtain ⟨W, e, -, e1, V, k1, k2, k3, k4⟩ := C89_translations_unchecked hi.reach hst hsvd hZ hT hreg
    (nid := 0) (by decide) hd hl.rigid (fun v hv hh => by
      rw [hx] at hv
      simp only [List.mem_cons, List.not_mem_nil, or_false] at hv
      rcases hv with hv | hv
      · exact (v1 v hv hh).1
      · exact (v2 v hv hh).1) (by rw [hu]; decide) (by rw [hu]; exact le_refl 2)
  refine ⟨A 1, T, W, dict, S, s, hi.reach, hT, by rw [g1.n] at hl; exact hl, e, e1, ?_⟩
  rw [hu] at k1
  obtain ⟨u1, u2, rfl⟩ := List.length_eq_two.1 k1
  have hm' : [u1.meas, u2.meas] = [x1, x2] := by
    rw [← hx]
    exact k2.eq_of_length (by rw [hx]; rfl)
  simp only [List.cons.injEq, and_true] at hm'
  have q1 := (v1 u1 hm'.1 (k3 u1 (by simp))).2
  have q2 := (v2 u2 hm'.2 (k3 u2 (by simp))).2
  have k5 : ∀ c1 c2 : Fin 2 → ℝ, u1.s = c1 → u2.s = c2 → (2 : ℝ) • traV 2 2 W 0 = c1 + (c2 + 0) := by
    rintro _ _ rfl rfl
    exact k4
  replace k5 := k5 _ _ q1 q2
  funext i
  have := congrFun k5 i
  simp only [Pi.smul_apply, Pi.add_apply, smul_eq_mul, Pi.zero_apply] at this ⊢
  linarith

end Dpgo.Props
