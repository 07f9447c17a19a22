import Verif.Lemmas.AlignExample

/-! # C31, C34: alignment with a neighbour's frame, and of a whole team -/

namespace Dpgo.Props

open Res Spec PoseGraph Matrix

variable {o : AgentOracles} {ID : Nat} {p : AgentParams} {a : Agent}

/-! ### C31 -/

/-- **C31.** From one shared loop closure that agrees with the true poses, in either direction, and the true
lifted pose of the neighbour, the robot computes where its own local frame sits. -/
theorem C31_edge (ha : AgReach o ID p a) (hs : a.state ≠ .WAIT_FOR_DATA) {Y : DMat ℝ} (hY : a.YLift = some Y)
    (hYo : OrthoCols (Y.toMat p.r p.d)) {T : PArr ℝ} (hT : a.TLocalInit = some T) {w : Truth p.d}
    {S : Matrix (Fin p.d) (Fin p.d) ℝ} {s : Fin p.d → ℝ} (hl : w.Local ID a.graph.n S s T) {m : Meas ℝ}
    (hm : m ∈ a.graph.sharedLcs) (hx : w.Exact m) {N : PArr ℝ} (hN : ArrOk p.r p.d 1 N)
    (hNv : w.Lifted (Y.toMat p.r p.d) (foreignPose ID m).robot (foreignPose ID m).frame N 0) :
    ∃ W, a.computeNeighborTransform m N = ok W ∧ ArrOk p.d p.d 1 W ∧ rotM p.d p.d W 0 = S ∧
      traV p.d p.d W 0 = s := by
  have hi := agReach_inv ha
  refine Agent.transform_exact hi hs hY hYo hT hl hm hx hN ?_
  obtain ⟨⟨log, hg⟩, -⟩ := PoseGraph.Reachable.inv hi.reach
  have hid : a.graph.id = ID := hi.dims.1
  have hm' := hm
  rw [hg.shared] at hm'
  have hsh := (List.mem_filter.1 hm').2
  rw [hid] at hsh
  unfold isShared at hsh
  unfold foreignPose at hNv
  simp only [Bool.and_eq_true, Bool.or_eq_true, beq_iff_eq, bne_iff_ne, ne_eq] at hsh
  by_cases c : m.r1 = ID
  · rw [if_pos c] at hNv
    rw [if_neg (by rintro rfl; simp_all)]
    exact hNv
  · rw [if_neg c] at hNv
    rw [if_pos (by tauto)]
    exact hNv

/-- **C31** (all edges with one neighbour): averaging over the loop closures usable with the received poses
gives the same frame; nothing is returned when there are none or fewer than required. -/
theorem C31_robust (ha : AgReach o ID p a) (hs : a.state ≠ .WAIT_FOR_DATA) (hsvd : LawfulSvd o.svd) {Y : DMat ℝ}
    (hY : a.YLift = some Y) (hYo : OrthoCols (Y.toMat p.r p.d)) {T : PArr ℝ} (hT : a.TLocalInit = some T)
    {w : Truth p.d} {S : Matrix (Fin p.d) (Fin p.d) ℝ} {s : Fin p.d → ℝ} (hl : w.Local ID a.graph.n S s T)
    {nid : Nat} (hnid : nid ≠ ID) {dict : PoseDict ℝ} (hd : w.Dict (Y.toMat p.r p.d) dict)
    (hx : ∀ m ∈ a.graph.sharedLcs, (foreignPose ID m).robot = nid → w.Exact m) :
    if numUsable ID nid a.graph dict = 0 ∨ numUsable ID nid a.graph dict < p.minInliers then
      a.computeRobustNeighborTransformTwoStage o nid dict = ok none
    else ∃ W, a.computeRobustNeighborTransformTwoStage o nid dict = ok (some W) ∧ ArrOk p.d p.d 1 W ∧
      rotM p.d p.d W 0 = S ∧ traV p.d p.d W 0 = s := by
  have hi := agReach_inv ha
  refine Agent.twoStage_exact hi hs hsvd hY hYo hT hl hnid hd fun m hm => ?_
  unfold PoseGraph.sharedLoopClosuresWithRobot at hm
  obtain ⟨h1, h2⟩ := List.mem_filter.1 hm
  refine hx m h1 ?_
  unfold foreignPose
  simp only [Bool.or_eq_true, beq_iff_eq] at h2
  by_cases c : m.r1 = ID
  · rw [if_pos c]
    rcases h2 with h2 | h2
    · exact absurd (h2.symm.trans c) hnid
    · exact h2
  · rw [if_neg c]
    rcases h2 with h2 | h2
    · exact h2
    · obtain ⟨⟨log, hg⟩, -⟩ := PoseGraph.Reachable.inv hi.reach
      have hid : a.graph.id = ID := hi.dims.1
      rw [hg.shared] at h1
      have hsh := (List.mem_filter.1 h1).2
      rw [hid] at hsh
      unfold isShared at hsh
      simp only [Bool.and_eq_true, Bool.or_eq_true, beq_iff_eq, bne_iff_ne, ne_eq] at hsh
      have : m.r2 = ID := by tauto
      exact absurd (h2.symm.trans this) hnid

/-- For all true poses: the waiting robot 1 recovers its frame from either of two loop closures of opposite
direction, and from both together. -/
example (w : Truth 2) : ∃ (A : Nat → Agent) (m : Message) (S : Matrix (Fin 2) (Fin 2) ℝ) (s : Fin 2 → ℝ)
    (T : PArr ℝ), (A 1).TLocalInit = some T ∧ w.seen.Local 1 2 S s T ∧
    (∀ x ∈ (A 1).graph.sharedLcs, ∃ N W, ArrOk 3 2 1 N ∧ (A 1).computeNeighborTransform x N = ok W ∧
      rotM 2 2 W 0 = S ∧ traV 2 2 W 0 = s) ∧
    (A 1).graph.sharedLcs.length = 2 ∧
    ∃ W, (A 1).computeRobustNeighborTransformTwoStage exOracle 0 m.dict = ok (some W) ∧
      rotM 2 2 W 0 = S ∧ traV 2 2 W 0 = s := by
  have hsvd : LawfulSvd exOracle.svd := exists_lawfulSvd.choose_spec
  have hY : OrthoCols (exOracle.stiefel exParams.d exParams.r) := exStiefel
  obtain ⟨A, M, m, h, hm, h0, s0, s1, ⟨Z, hZ⟩, g0, g1, -, hu⟩ := exAlignRun w
  have inv := setup_inv hsvd rfl hY (seen_zero w) (setupRun_seen h)
  have hi := inv.robot 1
  have hst : (A 1).state ≠ .WAIT_FOR_DATA := by rw [s1]; decide
  obtain ⟨-, ⟨T, hT, -⟩, -⟩ := (agReach_inv hi.reach).data hst
  obtain ⟨S, s, hl⟩ := hi.traj T hT
  have hZY := hi.lift Z hZ
  have hx : ∀ x ∈ (A 1).graph.sharedLcs, w.seen.Exact x := fun x hx => hi.meas x (by
    unfold PoseGraph.measurements
    exact List.mem_append_right _ hx)
  refine ⟨A, m, S, s, T, hT, by rw [g1.n] at hl; exact hl, fun x hx' => ?_, ?_, ?_⟩
  · obtain ⟨N, hN, n1, n2⟩ := exLifted ((exOracle.stiefel 2 3) *
      w.seen.R (foreignPose 1 x).robot (foreignPose 1 x).frame)
      ((exOracle.stiefel 2 3) *ᵥ w.seen.t (foreignPose 1 x).robot (foreignPose 1 x).frame)
    obtain ⟨W, e, -, e1, e2⟩ := C31_edge hi.reach hst hZ (by rw [hZY]; exact hY) hT hl hx' (hx x hx') hN
      (by rw [hZY]; exact ⟨n1, n2⟩)
    exact ⟨N, W, hN, e, e1, e2⟩
  · simpa using congrArg List.length g1.shared
  · have key := C31_robust hi.reach hst hsvd hZ (by rw [hZY]; exact hY) hT hl (nid := 0) (by decide)
      (dict := m.dict) (by rw [hZY]; exact (inv.msg m hm).2.1) (fun x hx' _ => hx x hx')
    rw [hu, if_neg (by simp [exParams, AgentParams.default])] at key
    obtain ⟨W, e, -, e1, e2⟩ := key
    exact ⟨W, e, e1, e2⟩

/-! ### C34 -/

/-- **C34.** In a team with exact measurements, after any sequence of calls and message deliveries of the
alignment phase, every initialised robot holds exactly its true poses as seen from the first pose of robot 0,
lifted by the common matrix. -/
theorem C34_aligned (hsvd : LawfulSvd o.svd) (hmulti : p.multirobotInit = true)
    (hY : OrthoCols (o.stiefel p.d p.r)) {w : Truth p.d} {resets : Prop} {A : Nat → Agent} {M : List Message}
    (h : SetupRun o p w resets A M) {id : Nat} (hs : (A id).state = .INITIALIZED) :
    ArrOk p.r p.d (A id).graph.n (A id).X ∧
    ∀ i < (A id).graph.n, w.seen.Lifted (o.stiefel p.d p.r) id i (A id).X i := by
  have hi := (setup_inv hsvd hmulti hY (seen_zero w) (setupRun_seen h)).robot id
  exact ⟨((agReach_inv hi.reach).data (by rw [hs]; simp)).2.2, hi.est hs⟩

/-- **C34** (consistency across robots): any two initialised robots agree on every shared measurement, i.e. the
relative pose of their estimates is the measured one. -/
theorem C34_consistent (hsvd : LawfulSvd o.svd) (hmulti : p.multirobotInit = true)
    (hY : OrthoCols (o.stiefel p.d p.r)) {w : Truth p.d} {resets : Prop} {A : Nat → Agent} {M : List Message}
    (h : SetupRun o p w resets A M) {m : Meas ℝ} (hx : w.Exact m)
    (h1 : (A m.r1).state = .INITIALIZED) (h2 : (A m.r2).state = .INITIALIZED)
    (hp1 : m.p1 < (A m.r1).graph.n) (hp2 : m.p2 < (A m.r2).graph.n) :
    rotM p.r p.d (A m.r2).X m.p2 = rotM p.r p.d (A m.r1).X m.p1 * m.R.toMat p.d p.d ∧
    traV p.r p.d (A m.r2).X m.p2 =
      traV p.r p.d (A m.r1).X m.p1 + rotM p.r p.d (A m.r1).X m.p1 *ᵥ colV p.d m.t := by
  obtain ⟨a1, a2⟩ := (C34_aligned hsvd hmulti hY h h1).2 _ hp1
  obtain ⟨b1, b2⟩ := (C34_aligned hsvd hmulti hY h h2).2 _ hp2
  obtain ⟨x1, x2⟩ := seen_exact hx
  have hone := isRot_mul_transpose (w.seen.rigid m.r1 m.p1)
  rw [a1, a2, b1, b2, x1, x2]
  refine ⟨?_, ?_⟩
  · rw [Matrix.mul_assoc, ← Matrix.mul_assoc (w.seen.R m.r1 m.p1), hone, Matrix.one_mul]
  · rw [← mulVec_mulVec, mulVec_mulVec _ (w.seen.R m.r1 m.p1), hone, one_mulVec, ← mulVec_add,
      add_sub_cancel]

/-- **C34** (chains): without resets, every initialised robot has a chain of initialised neighbours back to
robot 0. -/
theorem C34_chain (hsvd : LawfulSvd o.svd) (hmulti : p.multirobotInit = true)
    (hY : OrthoCols (o.stiefel p.d p.r)) {w : Truth p.d} {A : Nat → Agent} {M : List Message}
    (h : SetupRun o p w False A M) {id : Nat} (hs : (A id).state = .INITIALIZED) :
    Relation.ReflTransGen (Adjacent A) id 0 :=
  (setup_chained hsvd hmulti hY (seen_zero w) (setupRun_seen h)).2 id hs

/-- **C34** (progress): a robot that waits for initialisation, has the lifting matrix and knows that the
sender is initialised is initialised by any message of the sender, however old, that covers enough of their
common loop closures. -/
theorem C34_progress (hsvd : LawfulSvd o.svd) (hmulti : p.multirobotInit = true)
    (hY : OrthoCols (o.stiefel p.d p.r)) {w : Truth p.d} {resets : Prop} {A : Nat → Agent} {M : List Message}
    (h : SetupRun o p w resets A M) {id : Nat} (hs : (A id).state = .WAIT_FOR_INITIALIZATION) {Z : DMat ℝ}
    (hZ : (A id).YLift = some Z) {m : Message} (hm : m ∈ M) (hne : m.src ≠ id) {s : Status}
    (hst : OMap.find? ltNat m.src (A id).teamStatus = some s) (hsi : s.state = .INITIALIZED)
    (hpos : 0 < numUsable id m.src (A id).graph m.dict)
    (hmin : p.minInliers ≤ numUsable id m.src (A id).graph m.dict) :
    ∃ a', (A id).updateNeighborPoses o m.src m.dict = ok a' ∧ a'.state = .INITIALIZED ∧
      SetupRun o p w resets (Function.update A id a') M := by
  have hi := setup_inv hsvd hmulti hY (seen_zero w) (setupRun_seen h)
  obtain ⟨-, m2, m3⟩ := hi.msg m hm
  obtain ⟨a', e, e'⟩ := (hi.robot id).aligns hsvd hY m2 m3 hne hs hZ hst hsi hpos hmin
  exact ⟨a', e, e', .receive h hm e⟩

/-- For all true poses of two robots: the message of robot 0 initialises robot 1, which then holds its true
poses, agrees with robot 0 on both loop closures and is adjacent to it. -/
example (w : Truth 2) : ∃ (A : Nat → Agent) (M : List Message), SetupRun exOracle exParams w False A M ∧
    (A 0).state = .INITIALIZED ∧ (A 1).state = .INITIALIZED ∧ (A 1).graph.n = 2 ∧
    (∀ i < 2, w.seen.Lifted (exOracle.stiefel 2 3) 1 i (A 1).X i) ∧
    Relation.ReflTransGen (Adjacent A) 1 0 ∧
    rotM 3 2 (A 1).X 0 = rotM 3 2 (A 0).X 1 * (exTrue w 0 1 1 0).R.toMat 2 2 := by
  have hsvd : LawfulSvd exOracle.svd := exists_lawfulSvd.choose_spec
  have hY : OrthoCols (exOracle.stiefel exParams.d exParams.r) := exStiefel
  obtain ⟨A, M, m, h, hm, h0, s0, s1, ⟨Z, hZ⟩, g0, g1, ⟨s, hs, hs'⟩, hu⟩ := exAlignRun w
  obtain ⟨a', e, e', h'⟩ := C34_progress hsvd rfl hY h s1 hZ hm (by rw [h0]; decide) (by rw [h0]; exact hs) hs'
    (by rw [h0, hu]; decide) (by rw [h0, hu]; exact le_refl 2)
  have B0 : Function.update A 1 a' 0 = A 0 := Function.update_of_ne (by decide) _ _
  have B1 : Function.update A 1 a' 1 = a' := Function.update_self _ _ _
  have t0 : (Function.update A 1 a' 0).state = .INITIALIZED := by rw [B0]; exact s0
  have t1 : (Function.update A 1 a' 1).state = .INITIALIZED := by rw [B1]; exact e'
  have hn' : (Function.update A 1 a' 1).graph.n = 2 := by
    rw [B1]
    have hi := agReach_inv ((setup_inv hsvd rfl hY (seen_zero w) (setupRun_seen h)).robot 1).reach
    have top : SameTopology (A 1).graph a'.graph :=
      ((Agent.updateNeighborPoses_frame hi.reach e).2.mono Agent.weighting_quiet).topology fun _ h => h
    exact top.n.trans g1.n
  refine ⟨_, M, h', t0, t1, hn', fun i hi => (C34_aligned hsvd rfl hY h' t1).2 i (by rw [hn']; exact hi),
    C34_chain hsvd rfl hY h' t1, ?_⟩
  exact (C34_consistent hsvd rfl hY h' (exTrue_exact w 0 1 1 0) t0 t1
    (by show 1 < (Function.update A 1 a' 0).graph.n; rw [B0, g0.n]; decide)
    (by show 0 < (Function.update A 1 a' 1).graph.n; rw [hn']; decide)).1

end Dpgo.Props
