import Verif.Lemmas.SolverRun
import Verif.Lemmas.Gradient
import Verif.Lemmas.LeastSquares
import Verif.Lemmas.Svd
import Verif.Props.Chordal

/-! # C55, C65 and the solver part of C27: the optimiser and the single-robot solvers -/

namespace Dpgo.Props

open Res Spec PoseGraph

/-! ### C55 -/

/-- **C55.** The retry loop stops after at most 12 runs.  Run number `i` uses a quarter of the previous
radius; all runs but the last were rejected; the result is the point of the last run if that was
accepted, and the starting point if all 12 were rejected. -/
theorem C55_retry {r d n : Nat} (run : Nat → ℝ → RtrOut r d n) (Y : DMat ℝ) (ρ : ℝ) :
    ∃ k ≤ 11, (retryLoop run Y ρ 0).radii = (List.range (k + 1)).map (fun i => ρ / 4 ^ i) ∧
      (∀ i < k, (run i (ρ / 4 ^ i)).accepted = false) ∧
      (((run k (ρ / 4 ^ k)).accepted = true ∧
        (retryLoop run Y ρ 0).Y = DMat.ofMat (run k (ρ / 4 ^ k)).X) ∨
       (k = 11 ∧ (run k (ρ / 4 ^ k)).accepted = false ∧ (retryLoop run Y ρ 0).Y = Y)) := by
  obtain ⟨k, h1, h2, h3, h4⟩ := retryLoop_spec run Y 11 0 ρ rfl (by omega)
  simp only [Nat.zero_add] at h1 h3 h4
  exact ⟨k, h1, h2, h3, h4⟩

/-- Three rejections, then acceptance: four radii. -/
example (Y : DMat ℝ) (X : LVar 2 2 4) :
    (retryLoop (fun k _ => ⟨decide (3 ≤ k), X⟩) Y 64 0).radii = [64, 16, 4, 1] := by
  obtain ⟨k, -, h2, h3, h4⟩ := C55_retry (fun k _ => ⟨decide (3 ≤ k), X⟩) Y 64
  have hk : k = 3 := by
    rcases h4 with ⟨h4, -⟩ | ⟨rfl, h4, -⟩
    · have h5 : 3 ≤ k := by simpa using h4
      by_contra hne
      have := h3 3 (by omega)
      simp at this
    · simp at h4
  subst hk
  rw [h2]
  simp only [List.range_succ, List.range_zero, List.nil_append, List.map_cons, List.map_nil,
    List.cons_append]
  norm_num

/-- **C55.** If every run is rejected, the optimiser with one iteration returns its input unchanged and
reports the same value before and after. -/
theorem C55_rejected {o : OptOracles} {p : OptParams} {g g' : PoseGraph ℝ} {Y Z : DMat ℝ}
    {res : OptResult} (hm : p.method = .RTR) (h1 : p.RTRIterations = 1)
    (hrej : ∀ r d n Q G p k Δ Δmax (V : LVar r d n), (o.rtr r d n Q G p k Δ Δmax V).accepted = false)
    (e : optimize o p g Y = ok (Z, res, g')) : Z = Y ∧ res.fOpt = res.fInit := by
  obtain ⟨Q, G, g1, -, rfl, -, -, -, -, -, -, -, -, f1, f2, -, ⟨g2, h3⟩, -⟩ := optimize_ok e
  have hZ : Z = Y := by
    unfold optimizeWith at h3
    rw [hm] at h3
    simp only [Res.ok.injEq, Prod.mk.injEq] at h3
    obtain ⟨rfl, -⟩ := h3
    unfold trustRegion
    split
    · rfl
    · obtain ⟨k, -, -, -, h4⟩ := C55_retry
        (fun k Δ => o.rtr g.r g.d g.n Q G p k Δ Δ (Y.toMat _ _)) Y p.RTRInitialRadius
      rcases h4 with ⟨h4, -⟩ | ⟨-, -, h4⟩
      · rw [hrej] at h4; cases h4
      · exact h4
  exact ⟨hZ, by rw [f1, f2, hZ]⟩

/-- **C55.** Whatever graph, start and solver runs: the trust-region optimiser never returns a point
with a larger objective, nor with a larger cost. -/
theorem C55_descent {o : OptOracles} {p : OptParams} {id r d : Nat} {g g' : PoseGraph ℝ}
    {Y Z : DMat ℝ} {res : OptResult} (ho : LawfulRtr o) (hm : p.method = .RTR)
    (hg : Reachable id r d g) (hQ : g.Q = none) (hG : g.G = none)
    (e : optimize o p g Y = ok (Z, res, g')) :
    res.fOpt ≤ res.fInit ∧ graphCost g Z ≤ graphCost g Y := by
  have h1 := optimize_rtr ho hm e
  have h2 := optimize_cost hg hQ hG e
  exact ⟨h1, by rw [h2.1, h2.2] at h1; linarith⟩

/-- **C55.** The reported values are, up to the same constant, the costs at the input and at the
returned point, for either method. -/
theorem C55_report {o : OptOracles} {p : OptParams} {id r d : Nat} {g g' : PoseGraph ℝ}
    {Y Z : DMat ℝ} {res : OptResult} (hg : Reachable id r d g) (hQ : g.Q = none) (hG : g.G = none)
    (e : optimize o p g Y = ok (Z, res, g')) :
    res.fInit - res.fOpt = graphCost g Y - graphCost g Z ∧ res.success = true ∧
      Z.rows = Y.rows ∧ Z.cols = Y.cols := by
  obtain ⟨h1, h2⟩ := optimize_cost hg hQ hG e
  obtain ⟨Q, G, g1, -, -, -, -, -, -, hr, hc, hr', hc', -, -, hs, -⟩ := optimize_ok e
  exact ⟨by rw [h1, h2]; ring, hs, hr'.trans hr.symm, hc'.trans hc.symm⟩

/-- **C55.** The reported gradient norms are those of the projections, at the input and at the returned
point, of the Euclidean gradient of the cost, for either method. -/
theorem C55_gradient_norms {o : OptOracles} {p : OptParams} {id r d : Nat} {g g' : PoseGraph ℝ}
    {Y Z : DMat ℝ} {res : OptResult} (hg : Reachable id r d g) (hQ : g.Q = none) (hG : g.G = none)
    (e : optimize o p g Y = ok (Z, res, g')) :
    ∃ GrY GrZ, GraphGradient g Y GrY ∧ GraphGradient g Z GrZ ∧
      res.gradNormInit = PArr.norm (DMat.ofMat (o.proj g.r g.d g.n (Y.toMat _ _) (GrY.toMat _ _))) ∧
      res.gradNormOpt = PArr.norm (DMat.ofMat (o.proj g.r g.d g.n (Z.toMat _ _) (GrZ.toMat _ _))) := by
  obtain ⟨Q, G, g1, e1, rfl, -, -, -, -, y1, y2, z1, z2, -, -, -, -, -, n1, n2⟩ := optimize_ok e
  obtain ⟨f', e2⟩ := problemF_resize (Z := Z) e1 (z1.trans y1.symm) (z2.trans y2.symm)
  exact ⟨_, _, graph_gradient hg hQ hG e1 rfl rfl, graph_gradient hg hQ hG e2 rfl rfl, n1, n2⟩

/-- **C55.** Gradient descent moves from its input along the negative projected gradient of the cost, scaled
by the step size; with the preconditioner switched on, along the projection of what the preconditioner
makes of it (or of the gradient itself if the factorisation failed). -/
theorem C55_gradient_step {o : OptOracles} {p : OptParams} {id r d : Nat} {g g' : PoseGraph ℝ}
    {Y Z : DMat ℝ} {res : OptResult} (hm : p.method = .RGD) (hg : Reachable id r d g) (hQ : g.Q = none)
    (hG : g.G = none) (e : optimize o p g Y = ok (Z, res, g')) :
    ∃ Gr V, GraphGradient g Y Gr ∧
      Z = DMat.ofMat (o.retr g.r g.d g.n (Y.toMat _ _) ((-p.RGDStepsize) • V)) ∧
      (p.RGDUsePreconditioner = false → V = o.proj g.r g.d g.n (Y.toMat _ _) (Gr.toMat _ _)) ∧
      (p.RGDUsePreconditioner = true → ∃ W,
        V = o.proj g.r g.d g.n (Y.toMat _ _) W ∧
        (W = o.proj g.r g.d g.n (Y.toMat _ _) (Gr.toMat _ _) ∨
          ∃ P, W = o.cholSolve g.r g.d g.n P (o.proj g.r g.d g.n (Y.toMat _ _) (Gr.toMat _ _)))) := by
  obtain ⟨Q, G, g1, e1, rfl, -, -, -, -, -, -, -, -, -, -, -, ⟨g2, e2⟩, -⟩ := optimize_ok e
  refine ⟨eucGrad Q G Y, ?_⟩
  have hgr := graph_gradient hg hQ hG e1 rfl rfl
  unfold optimizeWith at e2
  rw [hm] at e2
  simp only [gradientDescent] at e2
  split at e2
  · rename_i hp
    rw [bind_eq_ok] at e2
    obtain ⟨⟨V, g3⟩, hV, e2⟩ := e2
    cases e2
    refine ⟨V, hgr, rfl, fun c => (by rw [hp] at c; cases c), fun _ => ?_⟩
    unfold preConditioner at hV
    rw [bind_eq_ok] at hV
    obtain ⟨⟨b, g4⟩, -, hV⟩ := hV
    simp only [Res.ok.injEq, Prod.mk.injEq] at hV
    refine ⟨_, hV.1.symm, ?_⟩
    cases b <;> cases g4.precon
    · exact Or.inl rfl
    · exact Or.inl rfl
    · exact Or.inl rfl
    · exact Or.inr ⟨_, rfl⟩
  · rename_i hp
    cases e2
    exact ⟨_, hgr, rfl, fun _ => rfl, fun c => absurd c hp⟩

/-! ### C27, solver part -/

/-- **C27** (part of the claim that holds for `solveRobustPGO`).  Only weights change; a measurement
with a fixed weight of 1 is returned unchanged.  Missing: other fixed weights are overwritten, see
`C27_solver_violated`. -/
theorem C27_solver_partial {o : SolverOracles} {p : RobustPGOParams} {T0 : Option (PArr ℝ)}
    {ms ms' : List (Meas ℝ)} {T : PArr ℝ} (e : solveRobustPGO o p ms T0 = ok (T, ms')) :
    List.Forall₂ (fun m m' => SameButWeight m m' ∧ (m.fixedWeight = true → m'.weight = 1) ∧
      (m.fixedWeight = true → m.weight = 1 → m' = m)) ms ms' := by
  obtain ⟨-, h1, -⟩ := solveRobustPGO_ok e
  unfold Reweighted at h1
  rw [List.forall₂_map_left_iff] at h1
  refine h1.imp fun m m' h => ⟨?_, fun hf => ?_, fun hf hw => ?_⟩
  · have := h.1
    unfold SameButWeight at *
    rw [this]
  · rw [h.2 hf]
  · rw [h.2 hf, ← hw]

/-! ### C65 -/

/-- **C65.** On a well-formed problem `solvePGO` always returns a trajectory of the right shape. -/
theorem C65_total {o : SolverOracles} {p : OptParams} {id d n : Nat} {ms : List (Meas ℝ)}
    {T0 : Option (PArr ℝ)} (k : Nat) (h : OneRobot id d n ms) (hp : Precise ms)
    (hs : StartOk o d n T0) (hm : p.method = .RTR) :
    ∃ T, solvePGO o k p ms T0 = ok T ∧ ArrOk d d n T := by
  obtain ⟨P, hP, hA⟩ := startOk_startsAt h hp hs
  obtain ⟨T, e⟩ := solvePGO_total (k := k) h hm hP hA
  exact ⟨T, e, solvePGO_arr h e⟩

/-- **C65.** Its weighted cost is no larger than at the starting point. -/
theorem C65_descent {o : SolverOracles} {k : Nat} {p : OptParams} {id d n : Nat}
    {ms : List (Meas ℝ)} {T0 : Option (PArr ℝ)} {T : PArr ℝ} (h : OneRobot id d n ms)
    (ho : LawfulRtr (o.opt k)) (hm : p.method = .RTR) (e : solvePGO o k p ms T0 = ok T) :
    ∃ P, StartsAt o ms T0 P ∧ pgoCost d ms T ≤ pgoCost d ms P := by
  obtain ⟨P, h1, -, -, -, -, -, -, -, -, h2⟩ := solvePGO_descent h ho hm e
  exact ⟨P, h1, h2⟩

/-- **C65.** `solveRobustPGO` on a well-formed problem returns, unless the largest residual of the
first estimate is exactly half the squared threshold, when the computed weights are not numbers. -/
theorem C65_robust_total {o : SolverOracles} {p : RobustPGOParams} {T0 : Option (PArr ℝ)}
    {id d n : Nat} {ms : List (Meas ℝ)} (hm : p.opt.method = .RTR)
    (ht : p.robust.costType = .GNC_TLS) (hb : 0 < p.robust.GNCBarc) (hmu : 0 < p.robust.GNCMuStep)
    (hs : StartOk o d n T0) (h : OneRobot id d n ms) (hp : Precise ms) :
    (∃ T ms', solveRobustPGO o p ms T0 = ok (T, ms')) ∨
    (solveRobustPGO o p ms T0 = nonfinite ∧ ∃ T rs, solvePGO o 0 p.opt ms T0 = ok T ∧
      pgoResiduals T (ms.map fun m => { m with weight := 1 }) = ok rs ∧
      2 * maxCoeff rs = p.robust.GNCBarc ^ 2 ∧ ∃ m ∈ ms, m.fixedWeight = false) :=
  solveRobustPGO_total hm ht hb hmu hs h hp

/-- **C65.** What it returns: a trajectory of the right shape whose cost under the returned weights is
no larger than at the start, and weights between 0 and 1. -/
theorem C65_robust {o : SolverOracles} {p : RobustPGOParams} {T0 : Option (PArr ℝ)} {id d n : Nat}
    {ms ms' : List (Meas ℝ)} {T : PArr ℝ} (ho : ∀ k, LawfulRtr (o.opt k)) (hm : p.opt.method = .RTR)
    (hb : 0 < p.robust.GNCBarc) (hmu : 0 < p.robust.GNCMuStep) (h : OneRobot id d n ms)
    (e : solveRobustPGO o p ms T0 = ok (T, ms')) :
    ArrOk d d n T ∧ List.Forall₂ SameButWeight ms ms' ∧ (∀ m ∈ ms', 0 ≤ m.weight ∧ m.weight ≤ 1) ∧
    ∃ P, StartsAt o ms' T0 P ∧ pgoCost d ms' T ≤ pgoCost d ms' P := by
  obtain ⟨-, h1, h2, k, h3⟩ := solveRobustPGO_ok e
  have hsame : List.Forall₂ SameButWeight ms ms' := by
    have a := reweighted_same h1
    rw [List.forall₂_map_left_iff] at a
    refine a.imp fun m m' h => ?_
    unfold SameButWeight at *
    rw [h]
  have h' := oneRobot_reweighted h hsame
  refine ⟨solvePGO_arr h' h3, hsame, fun m' hm' => ?_, C65_descent h' (ho k) hm h3⟩
  by_cases hf : m'.fixedWeight = true
  · have hw := C27_solver_partial e
    obtain ⟨i, hi, rfl⟩ := List.mem_iff_getElem.1 hm'
    have hl := hw.length_eq
    have a := hw.get (i := i) (by omega) hi
    have hf' : (ms.get ⟨i, by omega⟩).fixedWeight = true := by
      have b := a.1
      unfold SameButWeight at b
      exact (congrArg Meas.fixedWeight b).symm.trans hf
    have b : ms'[i].weight = 1 := a.2.1 hf'
    rw [b]
    simp
  · exact h2 hb hmu m' hm' (by simpa using hf)

/-! ## Examples: the unit square -/

theorem exSquare_one : OneRobot 0 2 4 exSquare := by
  refine ⟨by simp [exSquare], Or.inl rfl, fun m hm => ?_, fun m hm => ?_,
    fun m hm => (exSquare_wf.2 m hm).1, fun m hm => ?_, exSquare_n⟩ <;>
  · rcases exSquare_mem hm with rfl | rfl | rfl | rfl <;> norm_num [exSq, MeasWF]

theorem exSquare_precise : Precise exSquare := fun m hm => by
  rcases exSquare_mem hm with rfl | rfl | rfl | rfl <;> norm_num [exSq]

/-- A solver that stays where it is, rejecting the first two steps. -/
noncomputable def exOpt : OptOracles where
  proj _ _ _ _ V := V
  retr _ _ _ Y V := Y + V
  chol _ := true
  cholSolve _ _ _ _ V := V
  rtr _ _ _ _ _ _ k _ _ Y := ⟨decide (2 ≤ k), Y⟩

theorem exOpt_lawful : LawfulRtr exOpt := fun _ _ _ _ _ _ _ _ _ _ _ => le_rfl

/-- A solver that rejects everything. -/
noncomputable def exReject : OptOracles := { exOpt with rtr := fun _ _ _ _ _ _ _ _ _ Y => ⟨false, Y⟩ }

/-- Four poses at the origin. -/
noncomputable def exStart : PArr ℝ := ⟨2, 2, 4, ⟨2, 12, fun i j => if j % 3 = i then 1 else 0⟩⟩

/-- Non-vacuity of `C55_descent`, `C55_report` and `C55_rejected`: the graph of the square is reachable,
its caches are empty and the optimiser returns. -/
example : ∃ g, Reachable 0 2 2 g ∧ g.Q = none ∧ g.G = none ∧
    (∃ Z res g', optimize exOpt OptParams.default g exStart.X = ok (Z, res, g')) ∧
    ∃ Z res g', optimize exReject { OptParams.default with RTRIterations := 1 } g exStart.X =
      ok (Z, res, g') ∧ Z = exStart.X := by
  obtain ⟨g₀, g, -, -, hg⟩ := oneGraph exSquare_one le_rfl
  obtain ⟨v, g1, f⟩ := hg.problemF_total (by omega) (X := exStart.X) rfl rfl
  obtain ⟨Z, res, g', h1⟩ := optimize_total (o := exOpt) (p := OptParams.default) rfl f
  obtain ⟨Z2, res2, g2', h2⟩ := optimize_total (o := exReject)
    (p := { OptParams.default with RTRIterations := 1 }) rfl f
  exact ⟨g, hg.team.reach, hg.Q, hg.G, ⟨Z, res, g', h1⟩, Z2, res2, g2', h2,
    (C55_rejected rfl rfl (fun _ _ _ _ _ _ _ _ _ _ => rfl) h2).1⟩

/-- Non-vacuity of `C55_gradient_step` and `C55_gradient_norms`: gradient descent on the square. -/
example : ∃ g Z res g' Gr, Reachable 0 2 2 g ∧ g.Q = none ∧ g.G = none ∧
    optimize exOpt { OptParams.default with method := .RGD, RGDUsePreconditioner := false } g exStart.X =
      ok (Z, res, g') ∧ GraphGradient g exStart.X Gr := by
  obtain ⟨g₀, g, -, -, hg⟩ := oneGraph exSquare_one le_rfl
  obtain ⟨v, g1, f⟩ := hg.problemF_total (by omega) (X := exStart.X) rfl rfl
  obtain ⟨Q, G, rfl, -, hr, hc, hQr, hQc, hGr, hGc, -⟩ := problemF_full f
  have h1 : ∃ Z res g', optimize exOpt { OptParams.default with method := .RGD, RGDUsePreconditioner := false } g
      exStart.X = ok (Z, res, g') := by
    unfold optimize
    rw [f]
    simp only [ok_bind, quadraticMatrix, linearMatrix, optimizeWith, gradientDescent, Bool.false_eq_true, if_false]
    unfold problemF
    simp only [quadraticMatrix, linearMatrix, ok_bind, DMat.ofMat, hQr, hQc, hGr, hGc, hr, hc,
      beq_self_eq_true, Bool.and_self, check_true, require_true]
    exact ⟨_, _, _, rfl⟩
  obtain ⟨Z, res, g', e⟩ := h1
  obtain ⟨Gr, V, h, -⟩ := C55_gradient_step rfl hg.team.reach hg.Q hg.G e
  exact ⟨g, Z, res, g', Gr, hg.team.reach, hg.Q, hg.G, e, h⟩

/-- Non-vacuity of `C65_total` and `C65_descent`, from the chordal start. -/
example : ∃ o : SolverOracles, ∃ T P, solvePGO o 0 OptParams.default exSquare none = ok T ∧
    chordalInitialization o.svd o.qr exSquare = ok P ∧ pgoCost 2 exSquare T ≤ pgoCost 2 exSquare P := by
  obtain ⟨svd, -⟩ := exists_lawfulSvd
  obtain ⟨qr, hq⟩ := exists_lawfulLsq
  obtain ⟨T, e, -⟩ := C65_total (o := ⟨svd, qr, fun _ => exOpt⟩) (T0 := none)
    (p := OptParams.default) 0 exSquare_one exSquare_precise hq rfl
  obtain ⟨P, h1, h2⟩ := C65_descent exSquare_one exOpt_lawful rfl e
  exact ⟨_, T, P, e, h1, h2⟩

/-- Parameters of the robust solver. -/
noncomputable def exRobust : RobustPGOParams :=
  ⟨OptParams.default, RobustParams.default .GNC_TLS⟩

/-- **C27** (violation).  `solveRobustPGO` overwrites fixed weights: an edge with the fixed weight 1/2
comes back with the weight 1. -/
theorem C27_solver_violated : ∃ o p ms T0 T ms', solveRobustPGO o p ms T0 = ok (T, ms') ∧
    (∀ k, LawfulRtr (o.opt k)) ∧ OneRobot 0 2 4 ms ∧
    ∃ m ∈ ms, m.fixedWeight = true ∧ m.weight = 1 / 2 ∧
      ∀ m' ∈ ms', sameEnds m m' = true → m'.weight = 1 := by
  obtain ⟨svd, -⟩ := exists_lawfulSvd
  obtain ⟨qr, -⟩ := exists_lawfulLsq
  let ms : List (Meas ℝ) := exSquare.map fun m => { m with weight := 1 / 2, fixedWeight := true }
  have hmem : ∀ m ∈ ms, ∃ m0 ∈ exSquare, m = { m0 with weight := 1 / 2, fixedWeight := true } := by
    intro m hm
    obtain ⟨m0, h0, rfl⟩ := List.mem_map.1 hm
    exact ⟨m0, h0, rfl⟩
  have h : OneRobot 0 2 4 ms := by
    refine ⟨by simp [ms, exSquare], Or.inl rfl, fun m hm => ?_, fun m hm => ?_, fun m hm => ?_,
      fun m hm => ?_, fun m hm => ?_, ?_⟩
    · obtain ⟨m0, h0, rfl⟩ := hmem m hm; exact exSquare_one.ids m0 h0
    · obtain ⟨m0, h0, rfl⟩ := hmem m hm; exact exSquare_one.wf m0 h0
    · obtain ⟨m0, h0, rfl⟩ := hmem m hm; exact exSquare_one.dims m0 h0
    · obtain ⟨m0, h0, rfl⟩ := hmem m hm; exact exSquare_one.noSelf m0 h0
    · obtain ⟨m0, h0, rfl⟩ := hmem m hm; exact exSquare_n.1 m0 h0
    · exact ⟨{ exSq 2 3 with weight := 1 / 2, fixedWeight := true }, by simp [ms, exSquare],
        Or.inr rfl⟩
  have hp : Precise ms := by
    intro m hm
    obtain ⟨m0, h0, rfl⟩ := hmem m hm
    exact exSquare_precise m0 h0
  have hs : StartOk ⟨svd, qr, fun _ => exOpt⟩ 2 4 (some exStart) := ⟨rfl, rfl, rfl, rfl, rfl⟩
  have hfix : ∀ m ∈ ms, m.fixedWeight = true := by
    intro m hm
    obtain ⟨m0, h0, rfl⟩ := hmem m hm
    rfl
  rcases C65_robust_total (o := ⟨svd, qr, fun _ => exOpt⟩) (p := exRobust) (T0 := some exStart) rfl
    rfl (by norm_num [exRobust, RobustParams.default]) (by norm_num [exRobust, RobustParams.default])
    hs h hp with ⟨T, ms', e⟩ | ⟨-, T, rs, -, -, -, m, hm, hf⟩
  · refine ⟨_, _, ms, _, T, ms', e, fun _ => exOpt_lawful, h,
      { exSq 0 1 with weight := 1 / 2, fixedWeight := true }, by simp [ms, exSquare], rfl, rfl, ?_⟩
    intro m' hm' _
    obtain ⟨i, hi, rfl⟩ := List.mem_iff_getElem.1 hm'
    have a := C27_solver_partial e
    have hl := a.length_eq
    have b := a.get (i := i) (by omega) hi
    exact b.2.1 (hfix _ (List.get_mem _ _))
  · rw [hfix m hm] at hf; cases hf

/-- Non-vacuity of `C65_robust_total` and `C65_robust`: for one of the thresholds 5 and 6 the robust
solver returns on the square, none of whose weights is fixed. -/
example : ∃ o p T ms', (∀ k, LawfulRtr (o.opt k)) ∧ 0 < p.robust.GNCBarc ∧
    solveRobustPGO o p exSquare (some exStart) = ok (T, ms') ∧
    ∀ m ∈ ms', 0 ≤ m.weight ∧ m.weight ≤ 1 := by
  obtain ⟨svd, -⟩ := exists_lawfulSvd
  obtain ⟨qr, -⟩ := exists_lawfulLsq
  let o : SolverOracles := ⟨svd, qr, fun _ => exOpt⟩
  let q (c : ℝ) : RobustPGOParams :=
    ⟨OptParams.default, { RobustParams.default .GNC_TLS with GNCBarc := c }⟩
  have hs : StartOk o 2 4 (some exStart) := ⟨rfl, rfl, rfl, rfl, rfl⟩
  have hmu : ∀ c, 0 < (q c).robust.GNCMuStep := fun c => by norm_num [q, RobustParams.default]
  have tot : ∀ c : ℝ, 0 < c → _ := fun c (hc : 0 < c) => C65_robust_total (o := o) (p := q c)
    (T0 := some exStart) rfl rfl hc (hmu c) hs exSquare_one exSquare_precise
  have done : ∀ c, 0 < c → ∀ T ms', solveRobustPGO o (q c) exSquare (some exStart) = ok (T, ms') →
      ∀ m ∈ ms', 0 ≤ m.weight ∧ m.weight ≤ 1 := fun c hc T ms' e =>
    (C65_robust (fun _ => exOpt_lawful) rfl hc (hmu c) exSquare_one e).2.2.1
  rcases tot 5 (by norm_num) with ⟨T, ms', e⟩ | ⟨-, T, rs, e1, e2, e3, -⟩
  · exact ⟨o, q 5, T, ms', fun _ => exOpt_lawful, by norm_num [q], e, done 5 (by norm_num) T ms' e⟩
  rcases tot 6 (by norm_num) with ⟨T, ms', e⟩ | ⟨-, T', rs', e1', e2', e3', -⟩
  · exact ⟨o, q 6, T, ms', fun _ => exOpt_lawful, by norm_num [q], e, done 6 (by norm_num) T ms' e⟩
  exfalso
  have hT : T = T' := Res.ok.inj (e1.symm.trans e1')
  subst hT
  have hr : rs = rs' := Res.ok.inj (e2.symm.trans e2')
  subst hr
  rw [e3] at e3'
  norm_num [q] at e3'

end Dpgo.Props
