import Verif.Lemmas.AgentTotal
import Verif.Lemmas.SolverRun
import Verif.Spec.LocalInit
import Verif.Props.Odometry

/-! # The local trajectory computed by the configured method -/

namespace Dpgo

open Res Spec PoseGraph Matrix

theorem trustRegion_point {o : OptOracles} {p : OptParams} {g : PoseGraph ℝ} {r d n : Nat}
    (hr : g.r = r) (hd : g.d = d) (hn : g.n = n) (Q G Y : DMat ℝ) :
    trustRegion o p g Q G Y = Y ∨ ∃ k Δ Δm, trustRegion o p g Q G Y =
      DMat.ofMat (o.rtr r d n Q G p k Δ Δm (Y.toMat _ _)).X := by
  subst hr hd hn
  unfold trustRegion
  split
  · exact Or.inl rfl
  · split
    · obtain ⟨k, -, -, -, ⟨-, h⟩ | ⟨-, -, h⟩⟩ := retryLoop_spec
        (fun k Δ => o.rtr g.r g.d g.n Q G p k Δ Δ (Y.toMat _ _)) Y 11 0 p.RTRInitialRadius rfl
        (by omega)
      · exact Or.inr ⟨_, _, _, h⟩
      · exact Or.inl h
    · exact Or.inr ⟨_, _, _, rfl⟩

/-- The point returned by the single-robot solver. -/
theorem solvePGO_point {o : SolverOracles} {k : Nat} {p : OptParams} {id d n : Nat}
    {ms : List (Meas ℝ)} {P T : PArr ℝ} (h : OneRobot id d n ms) (hm : p.method = .RTR)
    (e : solvePGO o k p ms (some P) = ok T) :
    T.X = P.X ∨ ∃ Q G j Δ Δm,
      T.X = DMat.ofMat ((o.opt k).rtr d d n Q G p j Δ Δm (P.X.toMat _ _)).X := by
  obtain ⟨m, l, d', n', P', g₀, g, X, res, g', hms, h1, h2, h3, h4, h5, h6, h7, h8⟩ := solvePGO_ok e
  have h2 : P = P' := h2
  subst h2
  rw [oneRobot_dims h] at h1
  cases h1
  have hid : m.r1 = id := (h.ids m (by rw [hms]; simp)).1
  rw [hid] at h5
  obtain ⟨g₀', g1, e0, e1, hg⟩ := oneGraph h le_rfl
  rw [e0] at h5
  cases h5
  rw [e1] at h6
  cases h6
  have hX : T.X = X := by
    unfold PArr.setData at h8
    simp only [bind_eq_ok, check_eq_ok, beq_iff_eq] at h8
    obtain ⟨_, k1, _, k2, h8⟩ := h8
    cases h8
    rfl
  obtain ⟨Q, G, g2, -, hg2, -, -, -, -, -, -, -, -, -, -, -, ⟨g3, h9⟩, -⟩ := optimize_ok h7
  unfold optimizeWith at h9
  rw [hm] at h9
  simp only [Res.ok.injEq, Prod.mk.injEq] at h9
  rw [hX, ← h9.1]
  have hr : g2.r = d := by rw [hg2]; exact hg.team.r_eq
  have hd : g2.d = d := by rw [hg2]; exact hg.team.d_eq
  have hn : g2.n = n := by rw [hg2]; exact hg.n_eq
  rcases trustRegion_point (o := o.opt k) (p := p) hr hd hn Q G P.X with c | ⟨j, Δ, Δm, c⟩
  · exact Or.inl c
  · exact Or.inr ⟨Q, G, j, Δ, Δm, c⟩

/-- Going through a matrix with statically known size does not change a pose. -/
theorem rotM_through {r d n i : Nat} {P : PArr ℝ} (hi : i < n) :
    rotM r d ⟨r, d, n, DMat.ofMat (P.X.toMat r ((d + 1) * n))⟩ i = rotM r d P i := by
  ext a c
  have : i * (d + 1) + c < (d + 1) * n := by
    have h1 : (i + 1) * (d + 1) ≤ n * (d + 1) := Nat.mul_le_mul_right _ hi
    have := c.2
    rw [Nat.mul_comm (d + 1) n]
    rw [Nat.add_mul] at h1
    omega
  simp [rotM, DMat.ofMat, DMat.toMat, this]

theorem solvePGO_orthonormal {o : SolverOracles} {k : Nat} {p : OptParams} {id d n : Nat}
    {ms : List (Meas ℝ)} {P T : PArr ℝ} (h : OneRobot id d n ms) (hm : p.method = .RTR)
    (ho : StaysOnManifold (o.opt k)) (hP : Orthonormal d d n P)
    (e : solvePGO o k p ms (some P) = ok T) : Orthonormal d d n T := by
  rcases solvePGO_point h hm e with c | ⟨Q, G, j, Δ, Δm, c⟩
  · intro i hi
    have : rotM d d T i = rotM d d P i := by unfold rotM; rw [c]
    rw [this]; exact hP i hi
  · have := ho d d n Q G p j Δ Δm (P.X.toMat _ _) (fun i hi => by
      rw [rotM_through hi]; exact hP i hi)
    intro i hi
    have hT : rotM d d T i = rotM d d ⟨d, d, n, DMat.ofMat ((o.opt k).rtr d d n Q G p j Δ Δm
        (P.X.toMat _ _)).X⟩ i := by unfold rotM; rw [c]
    rw [hT]; exact this i hi

theorem Spec.Orthonormal.det {d n i : Nat} {T : PArr ℝ} (h : Orthonormal d d n T) (hi : i < n) :
    (rotM d d T i).det ≠ 0 := by
  intro c
  have := congrArg Matrix.det (h i hi)
  rw [det_mul, det_transpose, c, det_one] at this
  simp at this

namespace Spec

variable {ID r d : Nat} {g : PoseGraph ℝ}

theorem Complete.one (h : Complete d g) (hg : Reachable ID r d g) :
    OneRobot ID d g.n g.localMeasurements := by
  obtain ⟨⟨log, hi⟩, hid⟩ := Reachable.inv hg
  obtain ⟨-, -, hd, -⟩ := reach_dims hg
  have hloc : ∀ m ∈ g.localMeasurements, m ∈ log ∧ m.r1 = ID ∧ m.r2 = ID := by
    intro m hm
    unfold PoseGraph.localMeasurements at hm
    rcases List.mem_append.1 hm with c | c
    · rw [hi.odo, List.mem_filter, hid] at c
      simp only [isOdo, Bool.and_eq_true, beq_iff_eq] at c
      exact ⟨c.1, c.2.1.1, c.2.1.2⟩
    · rw [hi.priv, List.mem_filter, hid] at c
      simp only [isPriv, Bool.and_eq_true, beq_iff_eq] at c
      exact ⟨c.1, c.2.1.1, c.2.1.2⟩
  refine ⟨?_, h.dim, fun m hm => (hloc m hm).2, fun m hm => hi.wf m (hloc m hm).1, ?_, ?_, ?_, ?_⟩
  · unfold PoseGraph.localMeasurements
    simp [h.nonempty]
  · intro m hm
    have := hi.localDims m hm
    rw [hd] at this
    exact this
  · intro m hm c
    exact h.noSelf ⟨m, hm, c⟩
  · intro m hm
    obtain ⟨k1, k2, k3⟩ := hloc m hm
    have := hi.n_ub m k1
    rw [hid] at this
    simp only [ownIndices, k2, k3, if_true] at this
    exact ⟨this _ (by simp), this _ (by simp)⟩
  · have hl : 0 < g.odometry.length := List.length_pos_of_ne_nil h.nonempty
    refine ⟨g.odometry[g.odometry.length - 1], ?_, Or.inr ?_⟩
    · unfold PoseGraph.localMeasurements
      exact List.mem_append_left _ (List.getElem_mem _)
    · have := (h.con (g.odometry.length - 1) g.odometry[g.odometry.length - 1] (by simp)).2
      have := h.all
      omega

/-- The odometry trajectory. -/
theorem Complete.odo (h : Complete d g) (hg : Reachable ID r d g) :
    ∃ T, odometryInitialization g.odometry none = ok T ∧ ArrOk d d g.n T ∧ rotM d d T 0 = 1 ∧
      traV d d T 0 = 0 ∧ ∀ i m, g.odometry[i]? = some m → Satisfied d T i (i + 1) m := by
  have h1 := h.one hg
  have hlen : g.odometry.length + 1 < 2 ^ 64 := by
    have hl : 0 < g.odometry.length := List.length_pos_of_ne_nil h.nonempty
    have k1 := (h.con (g.odometry.length - 1) g.odometry[g.odometry.length - 1] (by simp)).1
    have k2 := h1.wf g.odometry[g.odometry.length - 1] (by
      unfold PoseGraph.localMeasurements
      exact List.mem_append_left _ (List.getElem_mem _))
    unfold MeasWF at k2
    omega
  obtain ⟨T, e, k⟩ := Props.C28_chain h.nonempty h.dim (fun m hm => h1.dims m (by
    unfold PoseGraph.localMeasurements; exact List.mem_append_left _ hm)) h.con hlen
  rw [h.all] at k
  exact ⟨T, e, k⟩

theorem Complete.orthonormal (h : Complete d g) {T : PArr ℝ} (h0 : rotM d d T 0 = 1)
    (hR : ∀ m ∈ g.odometry, (m.R.toMat d d)ᵀ * m.R.toMat d d = 1)
    (hs : ∀ i m, g.odometry[i]? = some m → Satisfied d T i (i + 1) m) : Orthonormal d d g.n T := by
  intro i
  induction i with
  | zero => intro _; rw [h0]; simp
  | succ i ih =>
    intro hi
    have hl : i < g.odometry.length := by have := h.all; omega
    have k := (hs i g.odometry[i] (by simp [hl])).1
    rw [k, transpose_mul, Matrix.mul_assoc, ← Matrix.mul_assoc (rotM d d T i)ᵀ,
      ih (by omega), Matrix.one_mul]
    exact hR _ (List.getElem_mem _)

theorem Complete.chordal (h : Complete d g) (hg : Reachable ID r d g) {svd : SvdOracle}
    {qr : LsqOracle} (hq : LawfulLsq qr) :
    ∃ T, chordalInitialization svd qr g.localMeasurements = ok T ∧ ArrOk d d g.n T ∧
      rotM d d T 0 = 1 := by
  have h1 := h.one hg
  have hwf : ChordalWF d g.localMeasurements :=
    ⟨h1.nonempty, fun m hm => ⟨h1.dims m hm, (h.precise m hm).2, (h.precise m hm).1, by
      have := h1.wf m hm
      unfold MeasWF at this
      omega⟩⟩
  obtain ⟨T, -, e, hA, -, -, h0, -⟩ := chordal_spec svd hq h.dim hwf h1.num
  exact ⟨T, e, hA, h0⟩

end Spec

namespace Agent

/-- Rejecting measurements always succeeds. -/
theorem rejectOutliers_total {ID r d : Nat} {ms : List (Meas ℝ)} : ∀ {a : Agent},
    Reachable ID r d a.graph → ∃ b, a.rejectOutliers ms = ok b := by
  induction ms with
  | nil => intro a _; exact ⟨a, rfl⟩
  | cons m ms ih =>
    intro a hg
    unfold rejectOutliers
    rw [foldl_cons]
    by_cases hw : m.weight < (1 / 100000000 : ℝ)
    · rw [if_pos hw]
      obtain ⟨⟨log, hi⟩, -⟩ := Reachable.inv hg
      have : ∃ x b, a.setMeasurementWeight (PoseID.make m.r1 m.p1) (PoseID.make m.r2 m.p2) 0 false =
          ok (x, b) := by
        unfold setMeasurementWeight
        rcases hi.find_spec (PoseID.make m.r1 m.p1) (PoseID.make m.r2 m.p2) with ⟨h, -⟩ | ⟨p, m', h, -⟩
        · rw [h]; exact ⟨_, _, rfl⟩
        · rw [h]; exact ⟨_, _, rfl⟩
      obtain ⟨x, b, e⟩ := this
      obtain ⟨g', h', rfl⟩ := setMeasurementWeight_form e
      obtain ⟨c, hc⟩ := ih (a := { a with graph := g' }) (PoseGraph.Reachable.snoc hg
        (op := .writeWeight (PoseID.make m.r1 m.p1) (PoseID.make m.r2 m.p2) 0 false) trivial h')
      refine ⟨c, ?_⟩
      rw [e]
      exact hc
    · rw [if_neg hw]
      exact ih hg

variable {ID r d : Nat} {a : Agent} {o : AgentOracles}

/-- The configured method yields a trajectory with one pose per pose of the graph and an invertible
first rotation; with the robust method the weights may fail to be numbers. -/
theorem localInitialization_total (h : Complete d a.graph) (hg : Reachable ID r d a.graph)
    (hc : a.params.initMethod = .Chordal → LawfulLsq o.qr)
    (hr : a.params.initMethod = .GNC_TLS → (∀ k, StaysOnManifold (o.opt k)) ∧
      ∀ m ∈ a.graph.odometry, (m.R.toMat d d)ᵀ * m.R.toMat d d = 1) :
    (∃ T b, a.localInitialization o = ok (T, b) ∧ ArrOk d d a.graph.n T ∧
      (rotM d d T 0).det ≠ 0) ∨
    (a.params.initMethod = .GNC_TLS ∧ a.localInitialization o = nonfinite) := by
  unfold localInitialization
  cases hm : a.params.initMethod with
  | Odometry =>
    obtain ⟨T, e, hA, h0, -⟩ := h.odo hg
    refine Or.inl ⟨T, a, ?_, hA, by rw [h0]; simp⟩
    simp only [e, ok_bind]
  | Chordal =>
    obtain ⟨T, e, hA, h0⟩ := h.chordal hg (svd := o.svd) (hc hm)
    refine Or.inl ⟨T, a, ?_, hA, by rw [h0]; simp⟩
    simp only [e, ok_bind]
  | GNC_TLS =>
    obtain ⟨P, e, hA, h0, -, hs⟩ := h.odo hg
    obtain ⟨ho, hR⟩ := hr hm
    have hP := h.orthonormal h0 hR hs
    have h1 := h.one hg
    simp only [e, ok_bind]
    rcases solveRobustPGO_total (o := { o.toSolverOracles with opt := fun k => o.opt (a.calls + k) })
      (p := gncInitParams) (T0 := some P) rfl rfl (by norm_num [gncInitParams])
      (by norm_num [gncInitParams]) hA h1 h.precise with ⟨T, ms, e1⟩ | ⟨e1, -⟩
    · obtain ⟨b, hb⟩ := rejectOutliers_total (ms := ms) hg
      obtain ⟨-, hw, -, k, e2⟩ := solveRobustPGO_ok e1
      have h2 : OneRobot ID d a.graph.n ms := by
        have := oneRobot_reweighted (oneRobot_reweighted h1 (same_one _)) (reweighted_same hw)
        exact this
      refine Or.inl ⟨T, { b with calls := b.calls + gncInitParams.robust.GNCMaxNumIters + 2 }, ?_,
        solvePGO_arr h2 e2, (solvePGO_orthonormal h2 rfl
        (fun r d n => ho _ r d n) hP e2).det ?_⟩
      · simp only [e1, ok_bind, hb]
      · have := h.all; omega
    · refine Or.inr ⟨trivial, ?_⟩
      simp only [e1]
      rfl

/-- A trajectory with too few poses ends the program. -/
theorem normalize_short {k : Nat} {T : PArr ℝ} (hT : ArrOk d d k T) (hk : 0 < k)
    (hd : a.graph.d = d) (hm : k < a.graph.n) (hdet : (rotM d d T 0).det ≠ 0) :
    a.normalizeTrajectory T = abort := by
  unfold normalizeTrajectory Agent.dimension Agent.numPoses
  rw [hd]
  obtain ⟨out, h1, h2, -⟩ := Props.C18_make (K := ℝ) d d a.graph.n (le_refl _)
  obtain ⟨M0, P0, e1, e2, hP, r0, t0⟩ := single_ok hT hk
  obtain ⟨V, v1, v2, -⟩ := Props.C17_inverse_value d P0 hP (by rw [r0]; exact hdet)
  have loop := foldl_range_total (f := normalizeStep P0 T) (n := k) (b := out)
    (P := fun _ S => ArrOk d d a.graph.n S) h2 ?_
  · obtain ⟨S, l1, -⟩ := loop
    rw [h1, ok_bind, e1, ok_bind, e2, ok_bind]
    have hr : List.range a.graph.n = List.range k ++
        k :: (List.range (a.graph.n - (k + 1))).map (k + 1 + ·) := by
      rw [show a.graph.n = (k + 1) + (a.graph.n - (k + 1)) by omega, List.range_add,
        List.range_succ]
      simp
    have hp : T.poseAt k = abort := by
      unfold PArr.poseAt
      rw [hT.2.2.1]
      simp [check]
    rw [hr, foldl_append, l1, ok_bind', foldl_cons]
    unfold normalizeStep
    rw [hp]
    rfl
  · intro i hi S hS
    obtain ⟨Mk, Pk, f1, f2, hPk, -⟩ := single_ok hT hi
    obtain ⟨C, c1, c2, -⟩ := Props.C17_mul d V Pk v2 hPk
    obtain ⟨M, S', s1, s2, s3, -⟩ := put_ok hS (lt_trans hi hm) c2
    refine ⟨S', ?_, s3⟩
    unfold normalizeStep
    rw [f1, ok_bind, f2, ok_bind, v1, ok_bind, c1, ok_bind, s1, ok_bind, s2]

/-- A trajectory of the wrong size is not used. -/
theorem choose_other {T : PArr ℝ} (h : ¬ (T.d = a.graph.d ∧ T.n = a.graph.n)) :
    a.chooseTrajectory o (some T) = a.chooseTrajectory o none := by
  unfold chooseTrajectory
  exact if_neg h

theorem choose_none {T : PArr ℝ} {b : Agent} (e : a.localInitialization o = ok (T, b))
    (hd : T.d = a.graph.d) : a.chooseTrajectory o none = ok (T, b) := by
  unfold chooseTrajectory
  obtain ⟨g', k, hs, rfl, -⟩ := localInitialization_form e
  simp only [e, ok_bind]
  have : T.d = g'.d := hd.trans (hs.topology weighting_quiet).d.symm
  rw [show T.d = Agent.dimension { a with graph := g', calls := k } from this]
  simp

theorem init_other {T : PArr ℝ} (h : ¬ (T.d = a.graph.d ∧ T.n = a.graph.n)) :
    a.init o (some T) = a.init o none := by
  unfold init
  simp only
  rw [choose_other (a := a.endOptimizationLoop) h]

theorem resync_graph (a : Agent) : a.resync.graph = a.graph := by
  unfold resync
  split <;> rfl

end Agent

/-- A normalised trajectory starts at the identity. -/
theorem normal_start {d n : Nat} {S T : PArr ℝ} (hn : 0 < n) (hdet : (rotM d d T 0).det ≠ 0)
    (h : ∀ i < n, rotM d d S i = (rotM d d T 0)⁻¹ * rotM d d T i ∧
      traV d d S i = (rotM d d T 0)⁻¹ *ᵥ (traV d d T i - traV d d T 0)) :
    rotM d d S 0 = 1 ∧ traV d d S 0 = 0 := by
  rw [(h 0 hn).1, (h 0 hn).2, sub_self, mulVec_zero,
    nonsing_inv_mul _ (isUnit_iff_ne_zero.2 hdet)]
  exact ⟨rfl, rfl⟩

/-- Normalising keeps relative poses. -/
theorem normal_relative {d n : Nat} {S T : PArr ℝ} (hdet : (rotM d d T 0).det ≠ 0)
    (h : ∀ i < n, rotM d d S i = (rotM d d T 0)⁻¹ * rotM d d T i ∧
      traV d d S i = (rotM d d T 0)⁻¹ *ᵥ (traV d d T i - traV d d T 0)) :
    SameRelative d n S T := by
  intro i hi j hj
  have hu := isUnit_iff_ne_zero.2 hdet
  have hinv : (rotM d d S i)⁻¹ = (rotM d d T i)⁻¹ * rotM d d T 0 := by
    rw [(h i hi).1, Matrix.mul_inv_rev, nonsing_inv_nonsing_inv _ hu]
  rw [hinv, (h j hj).1, (h j hj).2, (h i hi).2]
  refine ⟨?_, ?_⟩
  · rw [Matrix.mul_assoc, ← Matrix.mul_assoc (rotM d d T 0), mul_nonsing_inv _ hu, Matrix.one_mul]
  · rw [← mulVec_sub, mulVec_mulVec, Matrix.mul_assoc, mul_nonsing_inv _ hu, Matrix.mul_one]
    congr 1
    abel

end Dpgo
