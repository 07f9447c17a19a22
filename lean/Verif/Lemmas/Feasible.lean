import Verif.Lemmas.AgentStart
import Verif.Lemmas.RobustAvg
import Verif.Props.Projection
import Verif.Spec.Feasible

/-! # Functions that return feasible poses -/

namespace Dpgo

open Res Spec Matrix PArr

/-! ### Odometry -/

theorem odometry_feasible {d : Nat} {odo : List (Meas ℝ)} {T : PArr ℝ} (hdim : ∀ m ∈ odo, MeasDim d m)
    (hR : ∀ m ∈ odo, OrthoCols (m.R.toMat d d)) (e : odometryInitialization odo none = ok T) :
    ArrOk d d T.n T ∧ Orthonormal d d T.n T := by
  rcases Props.C28_sound_partial hdim with c | ⟨T', n, e', hT, h0, -, h⟩
  · rw [e] at c; cases c
  · rw [e] at e'
    cases e'
    have hn : T.n = n := hT.2.2.1
    rw [hn]
    refine ⟨hT, fun i => ?_⟩
    induction i with
    | zero => intro _; rw [h0]; simp
    | succ i ih =>
      intro hi
      obtain ⟨m, hm, -, -, hs⟩ := h i hi
      rw [hs.1, transpose_mul, Matrix.mul_assoc, ← Matrix.mul_assoc (rotM d d T i)ᵀ,
        ih (by omega), Matrix.one_mul]
      exact hR _ (List.mem_of_getElem? hm)

/-! ### Chordal initialisation -/

theorem chordal_feasible {svd : SvdOracle} (hsvd : LawfulSvd svd) {qr : LsqOracle} {ms : List (Meas ℝ)}
    {T : PArr ℝ} (e : chordalInitialization svd qr ms = ok T) :
    ArrOk T.d T.d T.n T ∧ Orthonormal T.d T.d T.n T := by
  unfold chordalInitialization at e
  simp only [bind_eq_ok, check_eq_ok, exists_and_left, exists_const, beq_iff_eq] at e
  obtain ⟨⟨d, n⟩, -, B, -, -, Rc, hRc, tc, -, -, -, out, ho, e⟩ := e
  simp only at hRc ho e
  obtain ⟨out', h1, h2, -⟩ := make_ok (K := ℝ) (n := n) (le_refl d)
  rw [h1] at ho
  cases ho
  obtain ⟨k1, k2, rfl⟩ := Agent.setData_form e
  have hd : out.d = d := h2.2.1
  have hn : out.n = n := h2.2.2.1
  have hr : out.r = d := h2.1
  refine ⟨⟨hr.trans hd.symm, rfl, rfl, k1.trans (hr.trans hd.symm), k2⟩, ?_⟩
  show Orthonormal out.d out.d out.n _
  have k : ∀ i < n, OrthoCols (rotM d d (PArr.mk out.r out.d out.n ((List.range n).foldl
      (chordalAssemble d Rc tc) (DMat.zero d (n * (d + 1))))) i) := ?_
  · rw [hd, hn]; rw [hd, hn] at k; exact k
  intro i hi
  obtain ⟨Rc', l1, -, -, l2⟩ := chordalProject_loop (d := d) svd (N := n) (n - 1) 1 (DMat.mk d (d * n) _)
    ⟨rfl, rfl⟩ (by omega)
  rw [l1] at hRc
  cases hRc
  have hval : rotM d d (PArr.mk out.r out.d out.n ((List.range n).foldl (chordalAssemble d Rc tc)
      (DMat.zero d (n * (d + 1))))) i = (Rc.block 0 (i * d) d d).toMat d d := by
    ext a c
    have := ((chordalAssemble_loop (d := d) Rc tc (DMat.zero d (n * (d + 1))) n).2.2 i hi).1 a c a.2 c.2
    simpa [rotM, DMat.block, DMat.toMat] using this
  rw [hval, l2 i]
  split
  · exact (rotProj_spec (hsvd _ _ _ le_rfl)).1.1
  · have h0 : i = 0 := by omega
    subst h0
    have one : ∀ f : Nat → Nat → ℝ, ((DMat.mk d (d * n) fun r j =>
        if j < d then (if r = j then 1 else 0) else f r j).block 0 (0 * d) d d).toMat d d = 1 := by
      intro f
      ext a c
      simp [DMat.block, DMat.toMat, Matrix.one_apply, Fin.ext_iff]
    rw [one]; simp [OrthoCols]

/-! ### The solvers -/

theorem orthonormal_through {r d n : Nat} {Y : DMat ℝ} (h : Orthonormal r d n ⟨r, d, n, Y⟩) :
    Orthonormal r d n ⟨r, d, n, DMat.ofMat (Y.toMat r ((d + 1) * n))⟩ := by
  intro i hi
  have := rotM_through (r := r) (d := d) (P := ⟨r, d, n, Y⟩) hi
  rw [this]
  exact h i hi

theorem gradientDescent_point {o : OptOracles} {p : OptParams} {g g' : PoseGraph ℝ} {Q G Y Z : DMat ℝ}
    (e : gradientDescent o p g Q G Y = ok (Z, g')) :
    ∃ V, Z = DMat.ofMat (o.retr g.r g.d g.n (Y.toMat _ _) V) := by
  unfold gradientDescent at e
  by_cases hb : p.RGDUsePreconditioner = true
  · simp only [if_pos hb, bind_eq_ok] at e
    obtain ⟨⟨V, g3⟩, -, e⟩ := e
    simp only [Res.ok.injEq, Prod.mk.injEq] at e
    exact ⟨_, e.1.symm⟩
  · simp only [if_neg hb, ok_bind, Res.ok.injEq, Prod.mk.injEq] at e
    exact ⟨_, e.1.symm⟩

theorem optimize_feasible {o : OptOracles} {p : OptParams} {g g' : PoseGraph ℝ} {Y Z : DMat ℝ}
    {res : OptResult} (h1 : p.method = .RTR → StaysOnManifold o)
    (h2 : p.method = .RGD → RetractsToManifold o)
    (hY : Orthonormal g.r g.d g.n ⟨g.r, g.d, g.n, Y⟩) (e : optimize o p g Y = ok (Z, res, g')) :
    Orthonormal g.r g.d g.n ⟨g.r, g.d, g.n, Z⟩ := by
  obtain ⟨Q, G, g1, -, rfl, -, -, -, -, -, -, -, -, -, -, -, ⟨g2, h3⟩, -⟩ := optimize_ok e
  unfold optimizeWith at h3
  cases hm : p.method with
  | RTR =>
    rw [hm] at h3
    simp only [Res.ok.injEq, Prod.mk.injEq] at h3
    rw [← h3.1]
    rcases trustRegion_point (o := o) (p := p) (g := { g with Q := some Q, G := some G }) rfl rfl rfl Q G Y
      with c | ⟨j, Δ, Δm, c⟩
    · rw [c]; exact hY
    · rw [c]; exact h1 hm _ _ _ _ _ _ _ _ _ _ (orthonormal_through hY)
  | RGD =>
    rw [hm] at h3
    obtain ⟨V, h3⟩ := gradientDescent_point h3
    rw [h3]
    exact h2 hm _ _ _ _ _ (orthonormal_through hY)

theorem setMeasurements_dims {g g' : PoseGraph ℝ} {ms : List (Meas ℝ)} (e : g.setMeasurements ms = ok g') :
    g'.r = g.r ∧ g'.d = g.d := by
  unfold PoseGraph.setMeasurements at e
  refine foldl_induction (P := fun h : PoseGraph ℝ => h.r = g.r ∧ h.d = g.d) ?_ _ g.empty _ ⟨rfl, rfl⟩ e
  intro h m h' ih e
  obtain ⟨k1, -, k2⟩ := PoseGraph.addMeasurement_d e
  exact ⟨k2.trans ih.1, k1.trans ih.2⟩

theorem solvePGO_feasible {o : SolverOracles} {k : Nat} {p : OptParams} {ms : List (Meas ℝ)} {P T : PArr ℝ}
    (hm : p.method = .RTR) (ho : StaysOnManifold (o.opt k)) (hP : ArrOk P.d P.d P.n P)
    (h : Orthonormal P.d P.d P.n P) (e : solvePGO o k p ms (some P) = ok T) :
    T.d = P.d ∧ T.n = P.n ∧ ArrOk P.d P.d P.n T ∧ Orthonormal P.d P.d P.n T := by
  obtain ⟨m, l, d, n, P', g₀, g, X, res, g', -, -, h2, h3, h4, h5, h6, h7, h8⟩ := solvePGO_ok e
  have h2 : P = P' := h2
  subst h2
  obtain ⟨k1, k2, rfl⟩ := Agent.setData_form h8
  obtain ⟨k3, k4⟩ := setMeasurements_dims h6
  have g0 : g₀.r = d ∧ g₀.d = d := by
    unfold PoseGraph.new at h5
    simp only [bind_eq_ok, check_eq_ok, exists_and_left, exists_const] at h5
    obtain ⟨-, h5⟩ := h5
    cases h5
    exact ⟨rfl, rfl⟩
  obtain ⟨-, -, -, -, -, -, -, -, -, y1, y2, -⟩ := optimize_ok h7
  have hr : g.r = P.d := by rw [k3, g0.1, h3]
  have hd : g.d = P.d := by rw [k4, g0.2, h3]
  have hn : g.n = P.n := by
    rw [hP.2.2.2.2, hd] at y2
    exact (Nat.eq_of_mul_eq_mul_left (by omega) y2).symm
  have key := optimize_feasible (o := o.opt k) (fun _ => ho) (fun c => by rw [hm] at c; cases c)
    (by rw [hr, hd, hn]; exact h) h7
  rw [hr, hd, hn] at key
  exact ⟨rfl, rfl, ⟨hP.1, rfl, rfl, k1.trans hP.1, k2⟩, key⟩

theorem solveRobustPGO_feasible {o : SolverOracles} {p : RobustPGOParams} {ms ms' : List (Meas ℝ)}
    {P T : PArr ℝ} (hm : p.opt.method = .RTR) (ho : ∀ k, StaysOnManifold (o.opt k))
    (hP : ArrOk P.d P.d P.n P) (h : Orthonormal P.d P.d P.n P)
    (e : solveRobustPGO o p ms (some P) = ok (T, ms')) :
    T.d = P.d ∧ T.n = P.n ∧ ArrOk P.d P.d P.n T ∧ Orthonormal P.d P.d P.n T := by
  unfold solveRobustPGO at e
  simp only [bind_eq_ok, check_eq_ok, exists_and_left, exists_const] at e
  obtain ⟨_, -, _, -, _, -, _, ms2, -, T', e', e⟩ := e
  cases e
  exact solvePGO_feasible hm (ho _) hP h e'

/-! ### Averaging -/

theorem weightedSum_shape {r c : Nat} {l : List (ℝ × DMat ℝ)} {M : DMat ℝ} (e : weightedSum r c l = ok M) :
    M.rows = r ∧ M.cols = c := by
  unfold weightedSum at e
  refine foldl_induction (P := fun M : DMat ℝ => M.rows = r ∧ M.cols = c) ?_ _ _ _ ⟨rfl, rfl⟩ e
  intro M p M' h e
  simp only [bind_eq_ok, require_eq_ok, exists_and_left, exists_const] at e
  obtain ⟨-, e⟩ := e
  cases e
  exact h

/-- A square matrix with orthonormal columns. -/
def SquareOrtho (R : DMat ℝ) : Prop := R.cols = R.rows ∧ OrthoCols (R.toMat R.rows R.rows)

theorem rotationAveraging_feasible {svd : SvdOracle} (hsvd : LawfulSvd svd) {Rs : List (DMat ℝ)}
    {kappa : List ℝ} {R : DMat ℝ} (e : singleRotationAveraging svd Rs kappa = ok R) : SquareOrtho R := by
  unfold singleRotationAveraging at e
  cases Rs with
  | nil => cases e
  | cons R0 l =>
    simp only [bind_eq_ok] at e
    obtain ⟨M, hM, e⟩ := e
    have hs := weightedSum_shape hM
    rw [rotation_ok hs] at e
    cases e
    refine ⟨rfl, ?_⟩
    show OrthoCols ((DMat.ofMat (rotProj _)).toMat R0.rows R0.rows)
    rw [DMat.toMat_ofMat]
    exact (rotProj_spec (hsvd _ _ _ le_rfl)).1.1

theorem gncLoop_est {E : Type} {P : E → Prop} {n : Nat} {solve : List ℝ → Res E} {resid : E → Res (List ℝ)}
    (hs : ∀ w e, solve w = ok e → P e) : ∀ (fuel i : Nat) (c : RobustCost) (e : E) (w : List ℝ)
    {out : GncOut E}, P e → gncLoop n solve resid fuel i c e w = ok out → P out.est
  | 0, i, c, e, w, out, he, h => by cases h; exact he
  | fuel + 1, i, c, e, w, out, _, h => by
    unfold gncLoop at h
    simp only [bind_eq_ok] at h
    obtain ⟨e', h1, rs, -, w', -, h⟩ := h
    split at h
    · cases h; exact hs _ _ h1
    · exact gncLoop_est hs fuel _ _ _ _ (hs _ _ h1) h

theorem robustRotation_feasible {svd : SvdOracle} (hsvd : LawfulSvd svd) {Rs : List (DMat ℝ)}
    {kappa : List ℝ} {thr : ℝ} {R : DMat ℝ} {inl : List Nat}
    (e : robustSingleRotationAveraging svd Rs kappa thr = ok (R, inl)) : SquareOrtho R := by
  unfold robustSingleRotationAveraging at e
  simp only [bind_eq_ok, check_eq_ok, exists_and_left, exists_const] at e
  obtain ⟨-, -, -, R0, h0, out, h, e⟩ := e
  cases e
  have hR0 := rotationAveraging_feasible hsvd h0
  unfold robustAverage at h
  simp only [bind_eq_ok] at h
  obtain ⟨rs, -, h⟩ := h
  split at h
  · cases h; exact hR0
  · exact gncLoop_est (fun w e => rotationAveraging_feasible hsvd) _ _ _ _ _ hR0 h

namespace Agent

variable {o : AgentOracles} {a : Agent}

theorem twoStage_feasible (hsvd : LawfulSvd o.svd) {nid : Nat} {dict : PoseDict ℝ} {W : PArr ℝ}
    (e : a.computeRobustNeighborTransformTwoStage o nid dict = ok (some W)) :
    ArrOk a.graph.d a.graph.d 1 W ∧ OrthoCols (rotM a.graph.d a.graph.d W 0) := by
  unfold computeRobustNeighborTransformTwoStage at e
  simp only [bind_eq_ok] at e
  obtain ⟨⟨Rs, ts⟩, -, e⟩ := e
  simp only at e
  split at e
  · cases e
  simp only [bind_eq_ok] at e
  obtain ⟨⟨R, inl⟩, hR, e⟩ := e
  simp only at e
  split at e
  · cases e
  simp only [bind_eq_ok] at e
  obtain ⟨us, -, t, -, I, hI, A, hA, B, hB, e⟩ := e
  cases e
  have hRo := robustRotation_feasible hsvd hR
  obtain ⟨I', i1, i2, -⟩ := Props.C17_identity_value (K := ℝ) a.graph.d
  have hI : PArr.identity a.graph.d = ok I := hI
  rw [i1] at hI
  cases hI
  have hAf := hA
  have hBf := hB
  unfold PArr.setRotation at hA
  simp only [bind_eq_ok, check_eq_ok, require_eq_ok, exists_and_left, exists_const, Bool.and_eq_true,
    beq_iff_eq] at hA
  obtain ⟨-, -, ⟨s1, s2⟩, -⟩ := hA
  unfold PArr.setTranslation at hB
  simp only [bind_eq_ok, check_eq_ok, require_eq_ok, exists_and_left, exists_const, Bool.and_eq_true,
    beq_iff_eq] at hB
  obtain ⟨-, -, ⟨s3, s4⟩, -⟩ := hB
  rw [i2.1] at s1
  rw [i2.2.1] at s2
  rw [setRotation_ok i2 zero_lt_one ⟨s1, s2⟩] at hAf
  cases hAf
  rw [i2.1] at s3
  have hA' : ArrOk a.graph.d a.graph.d 1 { I with X := I.X.setBlock 0 (0 * (a.graph.d + 1)) R } := i2
  rw [setTranslation_ok hA' zero_lt_one ⟨s3, s4⟩] at hBf
  cases hBf
  refine ⟨i2, ?_⟩
  rw [rotM_setTranslation _ _ _ ⟨s3, s4⟩, rotM_setRotation _ _ _ ⟨s1, s2⟩, if_pos rfl]
  obtain ⟨-, r2⟩ := hRo
  rw [s1] at r2
  exact r2

/-! ### The local trajectory -/

theorem localInitialization_feasible (hsvd : LawfulSvd o.svd)
    (hrtr : a.params.initMethod = .GNC_TLS → ∀ k, StaysOnManifold (o.opt k))
    (hdim : ∀ m ∈ a.graph.odometry, MeasDim a.graph.d m)
    (hR : ∀ m ∈ a.graph.odometry, OrthoCols (m.R.toMat a.graph.d a.graph.d)) {T : PArr ℝ} {b : Agent}
    (e : a.localInitialization o = ok (T, b)) :
    ArrOk T.d T.d T.n T ∧ Orthonormal T.d T.d T.n T := by
  unfold localInitialization at e
  cases hm : a.params.initMethod with
  | Odometry =>
    simp only [hm, bind_eq_ok] at e
    obtain ⟨T', e', e⟩ := e
    cases e
    obtain ⟨h1, h2⟩ := odometry_feasible hdim hR e'
    have : T.d = a.graph.d := h1.2.1
    rw [this]; exact ⟨h1, h2⟩
  | Chordal =>
    simp only [hm, bind_eq_ok] at e
    obtain ⟨T', e', e⟩ := e
    cases e
    exact chordal_feasible hsvd e'
  | GNC_TLS =>
    simp only [hm, bind_eq_ok] at e
    obtain ⟨P, e', ⟨T', ms⟩, e2, c, -, e⟩ := e
    cases e
    obtain ⟨h1, h2⟩ := odometry_feasible hdim hR e'
    have hd : P.d = a.graph.d := h1.2.1
    rw [← hd] at h1 h2
    obtain ⟨k1, k2, k3, k4⟩ := solveRobustPGO_feasible
      (o := { o.toSolverOracles with opt := fun k => o.opt (a.calls + k) }) (p := gncInitParams) rfl
      (fun k => hrtr hm (a.calls + k)) h1 h2 e2
    rw [k1, k2]; exact ⟨k3, k4⟩

/-- A normalised trajectory has as many poses as the graph, relative to the first one. -/
theorem normalize_value {T S : PArr ℝ} (hT : ArrOk a.graph.d a.graph.d T.n T)
    (h : Orthonormal a.graph.d a.graph.d T.n T) (e : a.normalizeTrajectory T = ok S) :
    Orthonormal a.graph.d a.graph.d a.graph.n S := by
  have h0 : 0 < T.n := by
    unfold normalizeTrajectory at e
    simp only [bind_eq_ok] at e
    obtain ⟨out, -, M, hM, -⟩ := e
    unfold PArr.poseAt at hM
    simp only [bind_eq_ok, check_eq_ok, exists_and_left, exists_const, decide_eq_true_eq] at hM
    exact hM.1
  have hle : a.graph.n ≤ T.n := by
    by_contra c
    rw [normalize_short hT h0 rfl (by omega) (h.det h0)] at e
    cases e
  obtain ⟨S', e', -, k⟩ := normalize_le hT h0 rfl rfl hle (h.det h0)
  rw [e] at e'
  cases e'
  intro i hi
  have hu := inv_eq_left_inv (h 0 h0)
  have hc : rotM a.graph.d a.graph.d T 0 * (rotM a.graph.d a.graph.d T 0)ᵀ = 1 :=
    mul_eq_one_comm.1 (h 0 h0)
  rw [(k i hi).1, hu, transpose_mul, transpose_transpose, Matrix.mul_assoc, ← Matrix.mul_assoc _ _ (rotM _ _ T i),
    hc, Matrix.one_mul]
  exact h i (by omega)

end Agent

end Dpgo
