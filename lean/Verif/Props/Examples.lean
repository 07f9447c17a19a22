import Verif.Lemmas.ExamplesRun
import Verif.Props.Odometry
import Verif.Props.Solver
import Verif.Props.Demo

/-! # C74: the single-robot example programs -/

namespace Dpgo.Props

open Res Spec PoseGraph Example

section
variable {o : AgentOracles} {d n : Nat} {D : List (Meas ℝ)} {Rs : Nat → Matrix (Fin d) (Fin d) ℝ}
  {ts : Nat → Fin d → ℝ}

/-! ### The chordal example -/

/-- **C74.** The chordal example prints twice the cost of the chordal initialisation of the file. -/
theorem C74_chordal (h : OneRobot 0 d n D) (hp : Precise D) (hq : LawfulLsq o.qr) :
    ∃ T, chordalInitialization o.svd o.qr D = ok T ∧ ArrOk d d n T ∧
      chordalProgram o D = ok (2 * pgoCost d D T) := by
  obtain ⟨T, Rc, e, hT, -⟩ := chordal_spec o.svd hq h.dim (chordalWF h hp) h.num
  obtain ⟨g, e1, hg⟩ := centralGraph_ok h
  obtain ⟨g', e2⟩ := central_prints h hg hT
  refine ⟨T, e, hT, ?_⟩
  unfold chordalProgram
  simp only [e1, e, e2, ok_bind]

/-- **C74.** For noise-free measurements of a connected graph it prints 0. -/
theorem C74_chordal_exact (h : OneRobot 0 d n D) (hx : NoiseFree d n D Rs ts)
    (hl : ∀ i < n, Linked D i) (hs : LawfulSvd o.svd) (hq : LawfulLsq o.qr) :
    chordalProgram o D = ok 0 := by
  have hp : Precise D := fun m hm => ⟨(hx.pos m hm).1.le, (hx.pos m hm).2.le⟩
  obtain ⟨T, e, -, e1⟩ := C74_chordal h hp hq
  obtain ⟨T', e', -, hT⟩ := C64_exact hs hq h.dim (chordalWF h hp) h.num hx.pos hl Rs ts hx.rot hx.R hx.t
  rw [e] at e'
  cases e'
  rw [e1, pgoCost_zero (truth_satisfied hx hT h.num.1), mul_zero]

/-! ### The single-robot example -/

/-- **C74.** The single-robot example prints twice the cost, over the edges of the file, of the trajectory
it computes; that is at most twice the cost of the chordal initialisation it starts from. -/
theorem C74_single (h : Dataset d n D) (h2 : 2 ≤ n) (hq : LawfulLsq o.qr) (ho : ∀ k, LawfulRtr (o.opt k)) :
    ∃ T P, singleProgram o D = ok (2 * pgoCost d D T) ∧ ArrOk d d n T ∧
      chordalInitialization o.svd o.qr (odometryFirst D) = ok P ∧ pgoCost d D T ≤ pgoCost d D P := by
  have hu := dataset_unflag h
  obtain ⟨a, b, c, e1, e2, e3, hc⟩ := single_agent (o := o) hu h2 (unflag_free D)
  rw [sort_unflag] at e2
  have h1 := oneRobot_odometryFirst hu.toOneRobot
  obtain ⟨T, e4, hT⟩ := C65_total (o := o.toSolverOracles) (p := OptParams.default) (T0 := none) c.calls h1
    (precise_odometryFirst hu.precise) hq rfl
  obtain ⟨P, hP, hle⟩ := C65_descent h1 (ho _) rfl e4
  obtain ⟨g, e5, hg⟩ := centralGraph_ok h.toOneRobot
  obtain ⟨g', e6⟩ := central_prints h.toOneRobot hg hT
  have hP' : chordalInitialization o.svd o.qr (odometryFirst (D.map unflag)) = ok P := hP
  rw [odometryFirst_unflag, chordal_unflag] at hP'
  refine ⟨T, P, ?_, hT, hP', ?_⟩
  · have e7 : c.localPoseGraphOptimization o = ok T.X := by
      unfold Agent.localPoseGraphOptimization
      rw [hc, e4]
      rfl
    unfold singleProgram
    simp only [dimensionOf_eq h.toOneRobot, e5, e1, e2, e3, e7, e6, ok_bind]
  · rwa [pgoCost_odometryFirst, pgoCost_odometryFirst, pgoCost_unflag, pgoCost_unflag] at hle

/-- **C74.** For noise-free measurements it prints 0. -/
theorem C74_single_exact (h : Dataset d n D) (h2 : 2 ≤ n) (hx : NoiseFree d n D Rs ts)
    (hs : LawfulSvd o.svd) (hq : LawfulLsq o.qr) (ho : ∀ k, LawfulRtr (o.opt k)) : singleProgram o D = ok 0 := by
  obtain ⟨T, P, e, -, e1, hle⟩ := C74_single h h2 hq ho
  have h1 := oneRobot_odometryFirst h.toOneRobot
  have sub : ∀ m ∈ odometryFirst D, m ∈ D := fun m hm => mem_of_firstWins (mem_odometryFirst.1 hm)
  obtain ⟨P', e', -, hP⟩ := C64_exact hs hq h.dim (chordalWF h1 (precise_odometryFirst h.precise)) h1.num
    (fun m hm => hx.pos m (sub m hm)) (chain_linked h) Rs ts hx.rot (fun m hm => hx.R m (sub m hm))
    (fun m hm => hx.t m (sub m hm))
  rw [e1] at e'
  cases e'
  rw [pgoCost_zero (truth_satisfied hx hP h.num.1)] at hle
  have h0 := pgoCost_nonneg (d := d) h.precise (fun m hm => by rw [h.unit m hm]; exact zero_le_one) T
  rw [e, le_antisymm hle h0, mul_zero]

/-! ### The robust example -/

/-- **C74.** The robust example starts from the trajectory obtained by chaining the consecutive edges.  It
returns weights between 0 and 1 and a trajectory whose cost under these weights is no larger than that of
the start, unless the largest residual of its first estimate is exactly 25/2, when the weights are not
numbers. -/
theorem C74_gnc {o : SolverOracles} (h : Dataset d n D) (h2 : 2 ≤ n) (ho : ∀ k, LawfulRtr (o.opt k)) :
    ∃ P, ArrOk d d n P ∧ rotM d d P 0 = 1 ∧ traV d d P 0 = 0 ∧
      (∀ m ∈ firstWins D, m.p1 + 1 = m.p2 → Satisfied d P m.p1 m.p2 m) ∧
      ((∃ T ms', gncProgram o D = ok (T, ms') ∧ ArrOk d d n T ∧ List.Forall₂ SameButWeight D ms' ∧
          (∀ m ∈ ms', 0 ≤ m.weight ∧ m.weight ≤ 1) ∧ pgoCost d ms' T ≤ pgoCost d ms' P) ∨
        (gncProgram o D = nonfinite ∧ ∃ T rs, solvePGO o 0 gncParams.opt D (some P) = ok T ∧
          pgoResiduals T D = ok rs ∧ 2 * maxCoeff rs = 25)) := by
  obtain ⟨P, e1, hP, h0, h1, hch⟩ := odometry_start h h2
  refine ⟨P, hP, h0, h1, hch, ?_⟩
  have hw : D.map (fun m => { m with weight := 1 }) = D := weight_one h
  have hb : 0 < gncParams.robust.GNCBarc := by norm_num [gncParams, RobustParams.default]
  have hmu : 0 < gncParams.robust.GNCMuStep := by norm_num [gncParams, RobustParams.default]
  rw [e1]
  rcases C65_robust_total (p := gncParams) (T0 := some P) rfl rfl hb hmu hP h.toOneRobot h.precise with
    ⟨T, ms', e⟩ | ⟨e, T, rs, e2, e3, e4, -⟩
  · obtain ⟨a1, a2, a3, Q, a4, a5⟩ := C65_robust ho rfl hb hmu h.toOneRobot e
    cases a4
    exact Or.inl ⟨T, ms', e, a1, a2, a3, a5⟩
  · rw [hw] at e3
    refine Or.inr ⟨e, T, rs, e2, e3, e4.trans ?_⟩
    norm_num [gncParams, RobustParams.default]

/-- **C74.** For noise-free measurements it keeps every measurement with weight 1 and returns a trajectory
satisfying all of them. -/
theorem C74_gnc_exact {o : SolverOracles} (h : Dataset d n D) (h2 : 2 ≤ n) (hx : NoiseFree d n D Rs ts)
    (ho : ∀ k, LawfulRtr (o.opt k)) :
    ∃ T, gncProgram o D = ok (T, D) ∧ ArrOk d d n T ∧ ∀ m ∈ D, Satisfied d T m.p1 m.p2 m := by
  obtain ⟨P, e1, hP, h0, h1, hch⟩ := odometry_start h h2
  have hw : D.map (fun m => { m with weight := 1 }) = D := weight_one h
  have truth : IsTruth d n Rs ts P := chain_truth hx h0 h1 fun i hi => by
    obtain ⟨m, hm, p1, p2, -⟩ := chain_edge h hi
    have := hch m hm (by rw [p1, p2])
    rw [p1, p2] at this
    exact ⟨m, mem_of_firstWins hm, p1, p2, this⟩
  have hP0 := pgoCost_zero (truth_satisfied hx truth h.num.1)
  have run : ∀ k, ∃ T, solvePGO o k gncParams.opt D (some P) = ok T ∧ ArrOk d d n T ∧
      ∀ m ∈ D, Satisfied d T m.p1 m.p2 m := by
    intro k
    obtain ⟨T, e, hT⟩ := C65_total (p := gncParams.opt) (T0 := some P) k h.toOneRobot h.precise hP rfl
    obtain ⟨Q, hQ, hle⟩ := C65_descent h.toOneRobot (ho k) rfl e
    cases hQ
    rw [hP0] at hle
    exact ⟨T, e, hT, satisfied_all hx h.num.1
      (satisfied_of_cost hx.pos (fun m hm => by rw [h.unit m hm]; exact zero_lt_one) hle)⟩
  obtain ⟨T1, r1, hT1, s1⟩ := run 0
  obtain ⟨T, r2, hT, s2⟩ := run (gncParams.robust.GNCMaxNumIters + 1)
  refine ⟨T, ?_, hT, s2⟩
  have hres := residuals_zero hT1 (l := D) fun m hm =>
    ⟨h.dims m hm, (h.num.1 m hm).1, (h.num.1 m hm).2, s1 m hm⟩
  have hmu : pgoMuInit gncParams.robust.GNCBarc 0 = .fin (-1) := by
    norm_num [pgoMuInit, gncParams, RobustParams.default]
  have hgr : ∀ solve, pgoGraduate solve gncParams.robust (.fin (-1)) D = ok D := fun solve => by
    simp only [pgoGraduate]
    rw [if_neg (by norm_num)]
  rw [e1]
  unfold solveRobustPGO
  rw [oneRobot_dims h.toOneRobot]
  rw [ok_bind, r1, ok_bind, hw]
  dsimp only
  rw [hres, ok_bind, maxCoeff_zero (fun x hx => List.eq_of_mem_replicate hx), hmu, hgr, show check (gncParams.robust.costType == CostType.GNC_TLS) = ok () from rfl,
    ok_bind, ok_bind, r2]
  rfl

/-! ### Files the programs cannot handle -/

/-- **C74** (limit).  If the poses of the file belong to a robot other than 0, all three programs stop
with a failed check. -/
theorem C74_foreign {so : SolverOracles} {id : Nat} (hid : id ≠ 0) (h : OneRobot id d n D)
    (h2 : 2 ≤ n) (hp : Precise D) (hc : Dataset d n (D.map ownMeas))
    (hq : LawfulLsq o.qr) :
    chordalProgram o D = abort ∧ singleProgram o D = abort ∧ gncProgram so D = abort := by
  obtain ⟨g, e, hg⟩ := foreign_graph hid h
  refine ⟨?_, ?_, ?_⟩
  · obtain ⟨T, Rc, e1, hT, -⟩ := chordal_spec o.svd hq h.dim (foreign_wf h hp) h.num
    unfold chordalProgram
    simp only [e, e1, ok_bind]
    rw [hg.1 (by omega) hT]
    rfl
  · have hf : ∀ m ∈ D.map ownMeas, m.fixedWeight = false := by
      intro m hm
      obtain ⟨x, -, rfl⟩ := List.mem_map.1 hm
      rfl
    obtain ⟨a, b, c, e1, e2, e3, hloc⟩ := single_agent (o := o) hc h2 hf
    rw [sort_own] at e2
    have h1 := oneRobot_odometryFirst hc.toOneRobot
    obtain ⟨T, e4, hT⟩ := C65_total (o := o.toSolverOracles) (p := OptParams.default) (T0 := none) c.calls h1
      (precise_odometryFirst hc.precise) hq rfl
    have e7 : c.localPoseGraphOptimization o = ok T.X := by
      unfold Agent.localPoseGraphOptimization
      rw [hloc, e4]
      rfl
    unfold singleProgram
    simp only [dimensionOf_eq h, e, e1, e2, e3, e7, ok_bind]
    rw [hg.1 (by omega) hT]
    rfl
  · have hne : D.isEmpty = false := by
      cases D with
      | nil => exact absurd rfl h.nonempty
      | cons => rfl
    unfold gncProgram
    simp only [hne, e, Bool.not_false, check_true, ok_bind]
    rw [hg.2]
    rfl

/-- **C74** (limit).  A file without an edge between consecutive poses is ignored by the agent, and the
single-robot example stops with a failed check. -/
theorem C74_no_odometry (h : OneRobot 0 d n D) (hno : ∀ m ∈ D, m.p1 + 1 ≠ m.p2) :
    singleProgram o D = abort := by
  obtain ⟨g, e, -⟩ := centralGraph_ok h
  obtain ⟨a, e1, ha, -⟩ := new_total (o := o) (p := AgentParams.default d d) le_rfl 0
  have hodo : (D.foldl sortStep ([], [])).1 = [] := sort_none h hno
  have e2 : ∀ l, a.setMeasurements [] l [] = ok a := fun l => by
    unfold Agent.setMeasurements
    rw [ha.running, ha.state]
    rfl
  have e3 : a.init o none = ok { a with running := false } := by
    unfold Agent.init
    rw [if_neg (by rw [ha.state]; simp)]
    exact if_pos ha.empty
  have e4 : Agent.localPoseGraphOptimization o { a with running := false } = abort := by
    unfold Agent.localPoseGraphOptimization
    rw [newcomer_local e1]
    rfl
  unfold singleProgram
  simp only [dimensionOf_eq h, e, e1, hodo, e2, e3, e4, ok_bind]
  rfl

end

/-! ## Examples -/

/-- The unit square is noise-free. -/
theorem exSquare_noiseFree : NoiseFree 2 4 exSquare exSqR exSqT := by
  have e2 : exSqR 2 = !![-1, 0; 0, -1] := by
    unfold exSqR
    rw [pow_two]
    simp
  have e3 : exSqR 3 = !![0, 1; -1, 0] := by
    change (!![0, -1; 1, 0] : Matrix (Fin 2) (Fin 2) ℝ) ^ (2 + 1) = _
    rw [pow_succ]
    change exSqR 2 * _ = _
    rw [e2]
    simp
  have e1 : exSqR 1 = !![0, -1; 1, 0] := pow_one _
  have e0 : exSqR 0 = 1 := pow_zero _
  refine ⟨fun m hm => ?_, fun i hi => ⟨?_, ?_⟩, fun m hm => ?_, fun m hm => ?_⟩
  · rcases exSquare_mem hm with rfl | rfl | rfl | rfl <;> norm_num [exSq]
  · interval_cases i
    · rw [e0]; simp
    · rw [e1]; ext i j; fin_cases i <;> fin_cases j <;> simp [Matrix.mul_apply, Fin.sum_univ_two]
    · rw [e2]; ext i j; fin_cases i <;> fin_cases j <;> simp [Matrix.mul_apply, Fin.sum_univ_two]
    · rw [e3]; ext i j; fin_cases i <;> fin_cases j <;> simp [Matrix.mul_apply, Fin.sum_univ_two]
  · unfold exSqR
    rw [Matrix.det_pow]
    simp [Matrix.det_fin_two]
  · rcases exSquare_mem hm with rfl | rfl | rfl | rfl <;> rw [exSq_mat]
    · exact pow_succ _ 0
    · exact pow_succ _ 1
    · exact pow_succ _ 2
    · change exSqR 0 = exSqR 3 * _
      rw [e0, e3]
      ext i j; fin_cases i <;> fin_cases j <;> simp [Matrix.mul_apply, Fin.sum_univ_two]
  · rcases exSquare_mem hm with rfl | rfl | rfl | rfl <;> rw [exSq_vec]
    · change exSqT 1 = exSqT 0 + Matrix.mulVec (exSqR 0) _
      rw [e0]; ext i; fin_cases i <;> simp [exSqT]
    · change exSqT 2 = exSqT 1 + Matrix.mulVec (exSqR 1) _
      rw [e1]; ext i; fin_cases i <;> simp [exSqT]
    · change exSqT 3 = exSqT 2 + Matrix.mulVec (exSqR 2) _
      rw [e2]; ext i; fin_cases i <;> simp [exSqT]
    · change exSqT 0 = exSqT 3 + Matrix.mulVec (exSqR 3) _
      rw [e3]; ext i; fin_cases i <;> simp [exSqT]

/-- Non-vacuity of the theorems above: on the unit square the first two programs print 0 and the third one
keeps all four edges. -/
example : ∃ o : AgentOracles, chordalProgram o exSquare = ok 0 ∧ singleProgram o exSquare = ok 0 ∧
    ∃ T, gncProgram o.toSolverOracles exSquare = ok (T, exSquare) := by
  obtain ⟨svd, hs⟩ := exists_lawfulSvd
  obtain ⟨qr, hq⟩ := exists_lawfulLsq
  obtain ⟨T, e, -⟩ := C74_gnc_exact (o := (exDemo svd qr).toSolverOracles) exSquare_dataset (by omega)
    exSquare_noiseFree (fun _ => exOpt_lawful)
  exact ⟨exDemo svd qr, C74_chordal_exact exSquare_one exSquare_noiseFree exSquare_linked hs hq,
    C74_single_exact exSquare_dataset (by omega) exSquare_noiseFree hs hq
      (fun _ => exOpt_lawful), T, e⟩

/-- The square with the poses of robot 1. -/
noncomputable def exForeign : List (Meas ℝ) := exSquare.map fun m => { m with r1 := 1, r2 := 1 }

theorem exForeign_own : exForeign.map ownMeas = exSquare := by
  simp [exForeign, exSquare, exSq, ownMeas, Meas.make, u32]

/-- Non-vacuity of `C74_foreign`. -/
example : ∃ o : AgentOracles, chordalProgram o exForeign = abort ∧ singleProgram o exForeign = abort ∧
    gncProgram o.toSolverOracles exForeign = abort := by
  obtain ⟨svd, -⟩ := exists_lawfulSvd
  obtain ⟨qr, hq⟩ := exists_lawfulLsq
  have hmem : ∀ m ∈ exForeign, ∃ x ∈ exSquare, m = { x with r1 := 1, r2 := 1 } := fun m hm => by
    obtain ⟨x, hx, rfl⟩ := List.mem_map.1 hm
    exact ⟨x, hx, rfl⟩
  have h : OneRobot 1 2 4 exForeign := by
    refine ⟨by simp [exForeign, exSquare], Or.inl rfl, fun m hm => ?_, fun m hm => ?_, fun m hm => ?_,
      fun m hm => ?_, fun m hm => ?_, { exSq 2 3 with r1 := 1, r2 := 1 }, by simp [exForeign, exSquare],
      Or.inr rfl⟩ <;> obtain ⟨x, hx, rfl⟩ := hmem m hm
    · exact ⟨rfl, rfl⟩
    · obtain ⟨-, -, a, b⟩ := exSquare_one.wf x hx
      exact ⟨by norm_num, by norm_num, a, b⟩
    · exact exSquare_one.dims x hx
    · exact exSquare_one.noSelf x hx
    · exact exSquare_one.num.1 x hx
  have hp : Precise exForeign := fun m hm => by
    obtain ⟨x, hx, rfl⟩ := hmem m hm
    exact exSquare_precise x hx
  obtain ⟨a, b, c⟩ := C74_foreign (o := exDemo svd qr) (so := (exDemo svd qr).toSolverOracles) one_ne_zero h (by omega)
    hp (by rw [exForeign_own]; exact exSquare_dataset) hq
  exact ⟨_, a, b, c⟩

/-- Non-vacuity of `C74_no_odometry`: two edges that skip a pose or go back. -/
example (o : AgentOracles) : singleProgram o [exSq 0 2, exSq 2 1] = abort := by
  have hmem : ∀ m ∈ [exSq 0 2, exSq 2 1], m = exSq 0 2 ∨ m = exSq 2 1 := fun m hm => by simpa using hm
  refine C74_no_odometry (d := 2) (n := 3) ⟨by simp, Or.inl rfl, fun m hm => ?_, fun m hm => ?_, fun m hm => ?_,
    fun m hm => ?_, ⟨fun m hm => ?_, exSq 0 2, by simp, Or.inr rfl⟩⟩ (fun m hm => ?_) <;>
    rcases hmem m hm with rfl | rfl <;> norm_num [exSq, MeasWF, MeasDim]

end Dpgo.Props
