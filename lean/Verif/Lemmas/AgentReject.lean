import Verif.Lemmas.AgentStart
import Verif.Lemmas.AgentExample

/-! # Rejection of loop closures during initialisation -/

namespace Dpgo

open Res Spec PoseGraph

namespace PoseGraph

/-- Weight writes do not affect where a measurement is found. -/
theorem find_writeWeight {K : Type} (g : PoseGraph K) (p : MPtr) (w : K) (f : Bool)
    (src dst : PoseID) :
    (g.writeWeight p w f).findMeasurement src dst = g.findMeasurement src dst := by
  have hi : (g.writeWeight p w f).edgeIndex = g.edgeIndex := by cases p <;> rfl
  unfold findMeasurement
  rw [hi]
  cases g.edgeIndex.get? ⟨src, dst⟩ with
  | none => rfl
  | some i =>
    simp only [deref_writeWeight]
    generalize (if EdgeID.isOdometry ⟨src, dst⟩ = true then MPtr.odo i else
      if EdgeID.isPrivateLoopClosure ⟨src, dst⟩ = true then MPtr.priv i else MPtr.shared i) = q
    cases g.deref q with
    | none => simp
    | some m => by_cases h : q = p <;> simp [h]

end PoseGraph

noncomputable section

namespace Agent

/-- Some measurement of `ms` with a vanishing weight is stored at `q`. -/
def Hit (g : PoseGraph ℝ) (ms : List (Meas ℝ)) (q : MPtr) : Prop :=
  ∃ m ∈ ms, m.weight < (1 / 100000000 : ℝ) ∧
    g.findMeasurement (PoseID.make m.r1 m.p1) (PoseID.make m.r2 m.p2) = ok (some q)

/-- What rejecting outliers leaves behind. -/
theorem rejectOutliers_spec : ∀ {ms : List (Meas ℝ)} {a b : Agent}, a.rejectOutliers ms = ok b →
    ∀ q m, a.graph.deref q = some m →
      (Hit a.graph ms q → b.graph.deref q = some { m with weight := 0, fixedWeight := false }) ∧
      (¬ Hit a.graph ms q → b.graph.deref q = some m)
  | [], a, b, e, q, m, hq => by
    cases e
    exact ⟨fun ⟨_, h, _⟩ => (by cases h), fun _ => hq⟩
  | m0 :: ms, a, b, e, q, m, hq => by
    unfold rejectOutliers at e
    rw [foldl_cons, bind_eq_ok'] at e
    obtain ⟨c, hc, e⟩ := e
    have e : c.rejectOutliers ms = ok b := e
    by_cases hw : m0.weight < (1 / 100000000 : ℝ)
    · rw [if_pos hw] at hc
      unfold setMeasurementWeight at hc
      simp only [bind_eq_ok] at hc
      obtain ⟨⟨x, c'⟩, ⟨p, hp, h1⟩, hc⟩ := hc
      cases hc
      have ih := rejectOutliers_spec e q
      cases p with
      | none =>
        cases h1
        have hit : Hit a.graph (m0 :: ms) q ↔ Hit a.graph ms q := by
          constructor
          · rintro ⟨m', h, k1, k2⟩
            rcases List.mem_cons.1 h with rfl | h
            · rw [hp] at k2; cases k2
            · exact ⟨m', h, k1, k2⟩
          · rintro ⟨m', h, k⟩
            exact ⟨m', List.mem_cons_of_mem _ h, k⟩
        rw [hit]
        exact ih m hq
      | some p =>
        cases h1
        have hitg : ∀ l, Hit (a.graph.writeWeight p 0 false) l q ↔ Hit a.graph l q := by
          intro l
          unfold Hit
          simp only [find_writeWeight]
        simp only [deref_writeWeight, hitg] at ih
        by_cases hqp : q = p
        · subst hqp
          simp only [if_true, hq, Option.map_some] at ih
          obtain ⟨i1, i2⟩ := ih _ rfl
          have : b.graph.deref q = some { m with weight := 0, fixedWeight := false } := by
            by_cases hh : Hit a.graph ms q
            · exact i1 hh
            · exact i2 hh
          exact ⟨fun _ => this, fun c => absurd ⟨m0, by simp, hw, hp⟩ c⟩
        · simp only [hqp, if_false] at ih
          have hit : Hit a.graph (m0 :: ms) q ↔ Hit a.graph ms q := by
            constructor
            · rintro ⟨m', h, k1, k2⟩
              rcases List.mem_cons.1 h with rfl | h
              · rw [hp] at k2; cases k2; exact absurd rfl hqp
              · exact ⟨m', h, k1, k2⟩
            · rintro ⟨m', h, k⟩
              exact ⟨m', List.mem_cons_of_mem _ h, k⟩
          rw [hit]
          exact ih m hq
    · rw [if_neg hw] at hc
      cases hc
      have hit : Hit a.graph (m0 :: ms) q ↔ Hit a.graph ms q := by
        constructor
        · rintro ⟨m', h, k1, k2⟩
          rcases List.mem_cons.1 h with rfl | h
          · exact absurd k1 hw
          · exact ⟨m', h, k1, k2⟩
        · rintro ⟨m', h, k⟩
          exact ⟨m', List.mem_cons_of_mem _ h, k⟩
      rw [hit]
      exact rejectOutliers_spec e q m hq

end Agent

/-! ### The graduated loop rejects a gross outlier -/

theorem pgoReweight_fixed {c : RobustCost} {T : PArr ℝ} {m : Meas ℝ} {r w : ℝ}
    (hm : m.fixedWeight = false) (hr : pgoResidual T m = ok r) (hw : sqrtWeight c r = ok w) :
    ∀ {fx : List (Meas ℝ)}, (∀ x ∈ fx, x.fixedWeight = true) →
      pgoReweight c T (fx ++ [m]) = ok (fx ++ [{ m with weight := w }])
  | [], _ => by simp [pgoReweight, hm, hr, hw]
  | x :: fx, h => by
    have ih := pgoReweight_fixed hm hr hw (fx := fx) fun y hy => h y (List.mem_cons_of_mem _ hy)
    rw [List.cons_append, pgoReweight, if_pos (h x (by simp)), ok_bind, ih]
    rfl

theorem pgoUndecided_fixed {m : Meas ℝ} (hm : m.fixedWeight = false) {fx : List (Meas ℝ)}
    (h : ∀ x ∈ fx, x.fixedWeight = true) :
    pgoUndecided (fx ++ [m]) = 0 ↔ decided m.weight = true := by
  unfold pgoUndecided
  have : fx.filter (fun m => !m.fixedWeight && !decided m.weight) = [] := by
    rw [List.filter_eq_nil_iff]
    intro x hx
    simp [h x hx]
  rw [List.filter_append, this]
  by_cases hd : decided m.weight = true <;> simp [List.filter, hm, hd]

theorem pgoLoop_rejects {barc : ℝ} (hb : 0 < barc) {solve : Nat → List (Meas ℝ) → Res (PArr ℝ)}
    {fx : List (Meas ℝ)} (hfx : ∀ x ∈ fx, x.fixedWeight = true) {m : Meas ℝ}
    (hm : m.fixedWeight = false)
    (hs : ∀ i w, ∃ T r, solve i (fx ++ [{ m with weight := w }]) = ok T ∧ 4 * barc ^ 2 ≤ r ∧
      pgoResidual T { m with weight := w } = ok r) :
    ∀ (fuel i : Nat) (c : RobustCost) (w : ℝ), GncCost barc c →
      c.iter + (fuel + 1) ≤ c.params.GNCMaxNumIters → 1 / 3 ≤ c.mu * c.params.GNCMuStep ^ fuel →
      ∃ w', pgoLoop solve (fuel + 1) i c (fx ++ [{ m with weight := w }]) =
        ok (fx ++ [{ m with weight := w' }]) ∧ w' < 1 / 100000000
  | fuel, i, c, w, hc, hit, hmu => by
    obtain ⟨T, r, e1, hr, e2⟩ := hs i w
    have hb2 : 0 < barc ^ 2 := by positivity
    have hr0 : 0 ≤ r := by linarith
    have e3 := sqrtWeight_ok hb hc hr0
    set w' := RobustCost.gncForm barc c.mu (Real.sqrt r) with hw'
    have hhalf : w' ≤ 1 / 2 := by
      apply gncForm_le_half hb hc.mu
      apply Real.le_sqrt_of_sq_le
      linarith
    have e4 := pgoReweight_fixed (m := { m with weight := w }) hm e2 e3 hfx
    unfold pgoLoop
    rw [e1, ok_bind, e4, ok_bind]
    have hu := pgoUndecided_fixed (m := { m with weight := w' }) hm hfx
    by_cases hd : decided w' = true
    · rw [if_pos (hu.2 hd)]
      refine ⟨w', rfl, ?_⟩
      unfold decided at hd
      simp only [decide_eq_true_eq] at hd
      rcases hd with hd | hd
      · simpa [wTol] using hd
      · norm_num [wTol] at hd; linarith
    · rw [if_neg (fun x => hd (hu.1 x))]
      cases fuel with
      | zero =>
        exfalso
        apply hd
        have : w' = 0 := by
          rw [hw']
          apply RobustCost.gncForm_high hb hc.mu
          rw [Real.sq_sqrt hr0]
          refine le_trans ?_ hr
          unfold upperSq
          rw [div_le_iff₀ hc.mu]
          simp at hmu
          nlinarith
        rw [this]
        norm_num [decided, wTol]
      | succ f =>
        have hup : c.update = { c with iter := c.iter + 1, mu := c.params.GNCMuStep * c.mu } := by
          unfold RobustCost.update
          rw [if_neg (by simp [hc.type])]
          simp only
          rw [if_neg (by omega)]
        have hup' := hc.update
        rw [hup] at hup' ⊢
        refine pgoLoop_rejects hb hfx hm hs f (i + 1) _ w' hup' (by simp only; omega) ?_
        simp only
        rw [pow_succ] at hmu
        linarith

/-! ### Three poses in a row and a wrong loop closure -/

namespace Props

/-- Odometry that is trusted. -/
def exTrusted (i : Nat) : Meas ℝ := { exI 1 1 i (i + 1) with fixedWeight := true }

/-- A loop closure that is ten units off. -/
def exWrong : Meas ℝ := { exI 1 1 0 2 with t := ⟨2, 1, fun i _ => if i = 0 then 10 else 0⟩ }

/-- Robust local initialisation and robust distributed optimisation, in a team of two. -/
def exWary : AgentParams :=
  { AgentParams.default 2 3 with
    numRobots := 2, initMethod := .GNC_TLS, robust := RobustParams.default .GNC_TLS }

/-- All poses are the identity. -/
structure AllOne (T : PArr ℝ) : Prop where
  ok : ArrOk 2 2 3 T
  rot : ∀ i < 3, rotM 2 2 T i = 1
  tra : ∀ i < 3, traV 2 2 T i = 0

theorem AllOne.entry {T : PArr ℝ} (h : AllOne T) {i a c : Nat} (hi : i < 3) (ha : a < 2) (hc : c < 3) :
    T.X.v a (i * 3 + c) = if a = c then 1 else 0 := by
  by_cases h2 : c < 2
  · have := congrFun (congrFun (h.rot i hi) ⟨a, ha⟩) ⟨c, h2⟩
    simpa [rotM, Matrix.one_apply] using this
  · have hc : c = 2 := by omega
    subst hc
    have := congrFun (h.tra i hi) ⟨a, ha⟩
    rw [if_neg (by omega)]
    simpa [traV] using this

theorem AllOne.residual {T : PArr ℝ} (h : AllOne T) {m : Meas ℝ} (h1 : m.p1 < 3) (h2 : m.p2 < 3)
    (hR : m.R = DMat.one 2 2) (ht : m.t.rows = 2 ∧ m.t.cols = 1) (hk : m.kappa = 1) (hτ : m.tau = 1) :
    pgoResidual T m = Res.ok (m.t.v 0 0 ^ 2 + m.t.v 1 0 ^ 2) := by
  have z := @AllOne.entry T h
  unfold pgoResidual
  simp only [PArr.rotationAt_ok h.ok h1, PArr.translationAt_ok h.ok h1, PArr.rotationAt_ok h.ok h2,
    PArr.translationAt_ok h.ok h2, ok_bind]
  have hb : ∀ (A : DMat ℝ) i j r c, (A.block i j r c).cols = c := fun _ _ _ _ _ => rfl
  simp only [hb, hR, ht.1, ht.2, DMat.one, beq_self_eq_true, Bool.and_self, require_true, ok_bind]
  unfold measurementError
  congr 1
  simp only [hR, hk, hτ, DMat.normSq, DMat.sub, DMat.mul, DMat.block, DMat.one, ht.2,
    Finset.sum_range_succ, Finset.sum_range_zero]
  have y : ∀ i < 3, (T.X.v 0 (i * 3) = 1 ∧ T.X.v 0 (i * 3 + 1) = 0 ∧ T.X.v 0 (i * 3 + 2) = 0) ∧
      T.X.v 1 (i * 3) = 0 ∧ T.X.v 1 (i * 3 + 1) = 1 ∧ T.X.v 1 (i * 3 + 2) = 0 := by
    intro i hi
    refine ⟨⟨?_, ?_, ?_⟩, ?_, ?_, ?_⟩
    · simpa using z (c := 0) hi (show 0 < 2 by omega) (by omega)
    · simpa using z (c := 1) hi (show 0 < 2 by omega) (by omega)
    · simpa using z (c := 2) hi (show 0 < 2 by omega) (by omega)
    · simpa using z (c := 0) hi (show 1 < 2 by omega) (by omega)
    · simpa using z (c := 1) hi (show 1 < 2 by omega) (by omega)
    · simpa using z (c := 2) hi (show 1 < 2 by omega) (by omega)
  obtain ⟨⟨a1, a2, a3⟩, a4, a5, a6⟩ := y m.p1 h1
  obtain ⟨⟨b1, b2, b3⟩, b4, b5, b6⟩ := y m.p2 h2
  simp [a1, a2, a3, a4, a5, a6, b1, b2, b3, b4, b5, b6]
  ring

theorem AllOne.of_odometry {P : PArr ℝ} (hA : ArrOk 2 2 3 P) (h0 : rotM 2 2 P 0 = 1)
    (t0 : traV 2 2 P 0 = 0)
    (hs : ∀ (i : Nat) m, [exTrusted 0, exTrusted 1][i]? = some m → Satisfied 2 P i (i + 1) m) :
    AllOne P := by
  have hR : ∀ i, (exTrusted i).R.toMat 2 2 = 1 := by
    intro i
    ext a c
    fin_cases a <;> fin_cases c <;> simp [exTrusted, exI, DMat.one]
  have ht : ∀ i, colV 2 (exTrusted i).t = 0 := by
    intro i
    ext a
    simp [exTrusted, exI, colV, DMat.zero]
  obtain ⟨r1, t1⟩ := hs 0 _ rfl
  obtain ⟨r2, t2⟩ := hs 1 _ rfl
  rw [h0, hR, Matrix.mul_one] at r1
  rw [t0, ht, Matrix.mulVec_zero, add_zero] at t1
  simp only [Nat.zero_add] at r1 t1
  rw [r1, hR, Matrix.mul_one] at r2
  rw [t1, ht, Matrix.mulVec_zero, add_zero] at t2
  refine ⟨hA, fun i hi => ?_, fun i hi => ?_⟩
  · rcases (by omega : i = 0 ∨ i = 1 ∨ i = 2) with rfl | rfl | rfl
    exacts [h0, r1, r2]
  · rcases (by omega : i = 0 ∨ i = 1 ∨ i = 2) with rfl | rfl | rfl
    exacts [t0, t1, t2]

theorem AllOne.solve {P T : PArr ℝ} (h : AllOne P) {ms : List (Meas ℝ)} {o : SolverOracles} {k : Nat}
    {p : OptParams} (ho : o.opt k = exOpt) (h1 : OneRobot 1 2 3 ms) (hm : p.method = .RTR)
    (e : solvePGO o k p ms (some P) = Res.ok T) : AllOne T := by
  have hx : ∀ i < 3, ∀ a < 2, ∀ c < 3, T.X.v a (i * 3 + c) = P.X.v a (i * 3 + c) := by
    intro i hi a ha c hc
    rcases solvePGO_point h1 hm e with c' | ⟨Q, G, j, Δ, Δm, c'⟩
    · rw [c']
    · rw [c', ho]
      have : i * 3 + c < 3 * 3 := by omega
      have e' : (exOpt.rtr 2 2 3 Q G p j Δ Δm (DMat.toMat 2 ((2 + 1) * 3) P.X)).X =
        DMat.toMat 2 ((2 + 1) * 3) P.X := rfl
      rw [e']
      simp only [DMat.ofMat, DMat.toMat, Matrix.of_apply]
      rw [dif_pos ⟨ha, by omega⟩]
  refine ⟨solvePGO_arr h1 e, fun i hi => ?_, fun i hi => ?_⟩
  · rw [← h.rot i hi]
    ext a c
    exact hx i hi a a.2 c (by have := c.2; omega)
  · rw [← h.tra i hi]
    ext a
    exact hx i hi a a.2 2 (by omega)

/-- The measurements the robust solver works on. -/
def exLocal (w : ℝ) : List (Meas ℝ) := [exTrusted 0, exTrusted 1] ++ [{ exWrong with weight := w }]

theorem exLocal_one (w : ℝ) : OneRobot 1 2 3 (exLocal w) := by
  have mem : ∀ m ∈ exLocal w, m = exTrusted 0 ∨ m = exTrusted 1 ∨ m = { exWrong with weight := w } := by
    intro m hm
    simpa [exLocal] using hm
  refine ⟨by simp [exLocal], Or.inl rfl, ?_, ?_, ?_, ?_, ?_, exTrusted 1, by simp [exLocal], Or.inr rfl⟩
  all_goals
    intro m hm
    rcases mem m hm with rfl | rfl | rfl
  all_goals simp [exTrusted, exWrong, exI, MeasWF, MeasDim, DMat.one, DMat.zero]

theorem exLocal_solve {o : SolverOracles} (ho : ∀ k, o.opt k = exOpt) {P : PArr ℝ} (hP : AllOne P)
    {p : OptParams} (hm : p.method = .RTR) (k : Nat) (w : ℝ) :
    ∃ T, solvePGO o k p (exLocal w) (some P) = Res.ok T ∧ AllOne T := by
  obtain ⟨T, e⟩ := solvePGO_total (k := k) (o := o) (exLocal_one w) hm (T0 := some P) (P := P) rfl hP.ok
  exact ⟨T, e, hP.solve (ho k) (exLocal_one w) hm e⟩

theorem exWrong_residual {T : PArr ℝ} (h : AllOne T) (w : ℝ) :
    pgoResidual T { exWrong with weight := w } = Res.ok 100 := by
  rw [h.residual (show 0 < 3 by omega) (show 2 < 3 by omega) rfl ⟨rfl, rfl⟩ rfl rfl]
  norm_num [exWrong]

/-- The robust solver rejects the wrong loop closure. -/
theorem exLocal_rejects {o : SolverOracles} (ho : ∀ k, o.opt k = exOpt) {P : PArr ℝ} (hP : AllOne P) :
    ∃ T w, solveRobustPGO o Agent.gncInitParams (exLocal 1) (some P) = Res.ok (T, exLocal w) ∧
      w < 1 / 100000000 := by
  have hm : Agent.gncInitParams.opt.method = .RTR := rfl
  obtain ⟨T0, e0, h0⟩ := exLocal_solve ho hP hm 0 1
  have hrs : pgoResiduals T0 (exLocal 1) = Res.ok [0, 0, 100] := by
    have t : ∀ i < 2, pgoResidual T0 (exTrusted i) = Res.ok 0 := by
      intro i hi
      have hp1 : (exTrusted i).p1 = i := rfl
      have hp2 : (exTrusted i).p2 = i + 1 := rfl
      rw [h0.residual (by omega) (by omega) rfl ⟨rfl, rfl⟩ rfl rfl]
      norm_num [exTrusted, exI, DMat.zero]
    simp only [exLocal, List.cons_append, List.nil_append, pgoResiduals, t 0 (by omega),
      t 1 (by omega), exWrong_residual h0, ok_bind]
  have hmax : maxCoeff [0, 0, 100] = 100 := by norm_num [maxCoeff]
  have hmu : pgoMuInit Agent.gncInitParams.robust.GNCBarc 100 = .fin (1 / 7) := by
    have hb : Agent.gncInitParams.robust.GNCBarc = 5 := rfl
    unfold pgoMuInit
    rw [hb]
    norm_num
  have hmap : (exLocal 1).map (fun m => { m with weight := 1 }) = exLocal 1 := rfl
  have loop := pgoLoop_rejects (barc := 5) (by norm_num)
    (solve := fun i ms => solvePGO o (i + 1) Agent.gncInitParams.opt ms (some P))
    (fx := [exTrusted 0, exTrusted 1]) (by simp [exTrusted]) (m := exWrong) rfl
    (fun i w => by
      obtain ⟨T, e, hT⟩ := exLocal_solve ho hP hm (i + 1) w
      exact ⟨T, 100, e, by norm_num, exWrong_residual hT w⟩) 9 0
    (RobustCost.new { Agent.gncInitParams.robust with GNCInitMu := 1 / 7 }) 1
    (by
      simp only [RobustCost.new, RobustCost.reset, Agent.gncInitParams, RobustParams.default]
      exact ⟨rfl, rfl, by norm_num, by norm_num⟩)
    (by simp [RobustCost.new, RobustCost.reset, Agent.gncInitParams, RobustParams.default])
    (by
      simp only [RobustCost.new, RobustCost.reset, Agent.gncInitParams, RobustParams.default]
      norm_num)
  obtain ⟨w, e1, hw⟩ := loop
  obtain ⟨T, e2, -⟩ := exLocal_solve ho hP hm 11 w
  refine ⟨T, w, ?_, hw⟩
  unfold solveRobustPGO
  have hg : pgoGraduate (fun i ms => solvePGO o (i + 1) Agent.gncInitParams.opt ms (some P))
      Agent.gncInitParams.robust (.fin (1 / 7)) (exLocal 1) = Res.ok (exLocal w) := by
    unfold pgoGraduate
    simp only
    rw [if_pos (by norm_num)]
    exact e1
  rw [oneRobot_dims (exLocal_one 1), ok_bind, e0, ok_bind]
  simp only [hmap, hrs, ok_bind, hmax, hmu, hg]
  have h11 : Agent.gncInitParams.robust.GNCMaxNumIters + 1 = 11 := rfl
  rw [h11, e2]
  rfl

theorem exTrusted_orth : ∀ m ∈ [exTrusted 0, exTrusted 1],
    (m.R.toMat 2 2).transpose * m.R.toMat 2 2 = (1 : Matrix (Fin 2) (Fin 2) ℝ) := by
  intro m hm
  have : m.R = DMat.one 2 2 := by
    rcases (by simpa using hm : m = exTrusted 0 ∨ m = exTrusted 1) with rfl | rfl <;> rfl
  have h1 : (DMat.one 2 2 : DMat ℝ).toMat 2 2 = 1 := by
    ext i j
    fin_cases i <;> fin_cases j <;> simp [DMat.one]
  rw [this, h1]; simp

theorem exOracle_manifold : ∀ k, StaysOnManifold (exOracle.opt k) :=
  fun _ _ _ _ _ _ _ _ _ _ _ h => h

/-- The two-pose robot's own measurements are complete. -/
theorem exTwo_complete {g : PoseGraph ℝ} (hG : ExGraph g) (ho : g.odometry = [exI 0 0 0 1]) :
    Complete 2 g := by
  have hl : g.localMeasurements = [exI 0 0 0 1] := by
    unfold PoseGraph.localMeasurements
    rw [ho, hG.priv]; rfl
  refine ⟨Or.inl rfl, by rw [ho]; simp, ?_, by rw [ho, hG.n]; rfl, ?_, ?_⟩
  · rw [ho]
    intro i m hm
    match i, hm with
    | 0, hm => cases hm; exact ⟨rfl, rfl⟩
  · rintro ⟨m, hm, hs⟩
    rw [hl, List.mem_singleton] at hm
    subst hm
    cases hs
  · intro m hm
    rw [hl, List.mem_singleton] at hm
    subst hm
    simp [exI]

theorem exWary_graph : ∃ g0 g1 g2 g3 : PoseGraph ℝ, PoseGraph.new 1 3 2 = Res.ok g0 ∧
    g0.addMeasurement (exTrusted 0) = Res.ok g1 ∧ g1.addMeasurement (exTrusted 1) = Res.ok g2 ∧
    g2.addMeasurement exWrong = Res.ok g3 ∧ g3.n = 3 ∧ g3.d = 2 ∧
    g3.odometry = [exTrusted 0, exTrusted 1] ∧ g3.privateLcs = [exWrong] ∧ g3.sharedLcs = [] ∧
    g3.findMeasurement (PoseID.make 1 0) (PoseID.make 1 2) = Res.ok (some (.priv 0)) :=
  ⟨_, _, _, _, rfl, rfl, rfl, rfl, rfl, rfl, rfl, rfl, rfl, rfl⟩

/-- The robot with its measurements, before and after `initialize`. -/
theorem exRejected : ∃ (a b : Agent), AgReach exOracle 1 exWary a ∧ a.state = .WAIT_FOR_DATA ∧
    a.graph.odometry = [exTrusted 0, exTrusted 1] ∧ a.graph.privateLcs = [exWrong] ∧
    Complete 2 a.graph ∧ a.YLift = some (DMat.zero 3 2) ∧ a.init exOracle none = Res.ok b ∧
    b.state = .WAIT_FOR_INITIALIZATION ∧ b.YLift = some (DMat.zero 3 2) ∧
    b.graph.privateLcs = [{ exWrong with weight := 0 }] := by
  obtain ⟨g0, g1, g2, g3, e0, e1, e2, e3, gn, gd, go, gp, gs, gf⟩ := exWary_graph
  obtain ⟨X, hX, -, -⟩ := PArr.make_ok (K := ℝ) (r := 3) (d := 2) (n := 1) (by omega)
  have hnew : ∃ a0, Agent.new exOracle 1 exWary = Res.ok a0 ∧ a0.graph = g0 ∧
      a0.state = .WAIT_FOR_DATA ∧ a0.params = exWary ∧ a0.r = 3 ∧ a0.d = 2 := by
    unfold Agent.new
    rw [show exWary.r = 3 from rfl, show exWary.d = 2 from rfl, hX, e0]
    simp only [ok_bind, if_neg (show ¬ (1 = 0) by omega)]
    exact ⟨_, rfl, rfl, rfl, rfl, rfl, rfl⟩
  obtain ⟨a0, n0, n1, n2, n3, n4, n5⟩ := hnew
  have r0 : AgReach exOracle 1 exWary a0 := ⟨a0, [], n0, by simp, rfl⟩
  have r1 := agReach_snoc (op := .addMeasurement (exTrusted 0)) (a' := { a0 with graph := g1 }) r0
    (by simp [AgOpWF, exTrusted, exI, MeasWF])
    (by simp only [Agent.step, Agent.addMeasurement, n2, ne_eq, not_true_eq_false, if_false, n1, e1,
      ok_bind])
  have r2 := agReach_snoc (op := .addMeasurement (exTrusted 1)) (a' := { a0 with graph := g2 }) r1
    (by simp [AgOpWF, exTrusted, exI, MeasWF])
    (by simp only [Agent.step, Agent.addMeasurement, n2, ne_eq, not_true_eq_false, if_false, e2,
      ok_bind])
  have r3 := agReach_snoc (op := .addMeasurement exWrong) (a' := { a0 with graph := g3 }) r2
    (by simp [AgOpWF, exWrong, exI, MeasWF])
    (by simp only [Agent.step, Agent.addMeasurement, n2, ne_eq, not_true_eq_false, if_false, e3,
      ok_bind])
  have r4 := agReach_snoc (op := .setLiftingMatrix (DMat.zero 3 2))
    (a' := { a0 with graph := g3, YLift := some (DMat.zero 3 2) }) r3 trivial
    (by
      simp only [Agent.step, Agent.setLiftingMatrix, n4, n5, DMat.zero, beq_self_eq_true, check_true,
        ok_bind])
  set a : Agent := { a0 with graph := g3, YLift := some (DMat.zero 3 2) } with ha
  have hinv := agReach_inv r4
  have hloc : a.graph.localMeasurements = exLocal 1 := by
    unfold PoseGraph.localMeasurements
    show g3.odometry ++ g3.privateLcs = _
    rw [go, gp]
    rfl
  have mem : ∀ m ∈ exLocal 1, m = exTrusted 0 ∨ m = exTrusted 1 ∨ m = exWrong := by
    intro m hm
    simpa [exLocal, exWrong, exI] using hm
  have hcomp : Complete 2 a.graph := by
    refine ⟨Or.inl rfl, ?_, ?_, ?_, ?_, ?_⟩
    · show g3.odometry ≠ []
      rw [go]; simp
    · show Consecutive g3.odometry
      rw [go]
      intro i m hm
      match i, hm with
      | 0, hm => cases hm; exact ⟨rfl, rfl⟩
      | 1, hm => cases hm; exact ⟨rfl, rfl⟩
    · show g3.odometry.length + 1 = g3.n
      rw [go, gn]; rfl
    · rintro ⟨m, hm, hs⟩
      rw [hloc] at hm
      rcases mem m hm with rfl | rfl | rfl <;> simp [exTrusted, exWrong, exI] at hs
    · intro m hm
      rw [hloc] at hm
      rcases mem m hm with rfl | rfl | rfl <;> simp [exTrusted, exWrong, exI]
  obtain ⟨P, p1, p2, p3, p4, p5⟩ := hcomp.odo hinv.reach
  have hP : AllOne P := by
    have hn3 : a.graph.n = 3 := gn
    rw [hn3] at p2
    refine AllOne.of_odometry p2 p3 p4 fun i m hm => p5 i m ?_
    show g3.odometry[i]? = some m
    rw [go]; exact hm
  -- local initialisation
  have hrun : ({ a with running := false } : Agent).params.initMethod = .GNC_TLS := by
    show a0.params.initMethod = _
    rw [n3]; rfl
  obtain ⟨T, w, s1, s2⟩ := exLocal_rejects
    (o := { exOracle.toSolverOracles with opt := fun k => exOracle.opt (a.calls + k) })
    (fun _ => rfl) hP
  obtain ⟨b, hb⟩ := Agent.rejectOutliers_total (ms := exLocal w) (a := { a with running := false })
    hinv.reach
  have hli : ({ a with running := false } : Agent).localInitialization exOracle =
      Res.ok (T, { b with calls := b.calls + Agent.gncInitParams.robust.GNCMaxNumIters + 2 }) := by
    unfold Agent.localInitialization
    rw [hrun]
    have p1' : odometryInitialization ({ a with running := false } : Agent).graph.odometry none =
      Res.ok P := p1
    have s1' : solveRobustPGO
        { exOracle.toSolverOracles with opt := fun k => exOracle.opt (a.calls + k) }
        Agent.gncInitParams ({ a with running := false } : Agent).graph.localMeasurements (some P) =
        Res.ok (T, exLocal w) := by
      rw [show ({ a with running := false } : Agent).graph.localMeasurements =
        a.graph.localMeasurements from rfl, hloc]
      exact s1
    simp only [p1', ok_bind]
    rw [s1', ok_bind]
    simp only [hb, ok_bind]
  have hR : ∀ m ∈ a.graph.odometry,
      (m.R.toMat 2 2).transpose * m.R.toMat 2 2 = (1 : Matrix (Fin 2) (Fin 2) ℝ) := by
    show ∀ m ∈ g3.odometry, _
    rw [go]; exact exTrusted_orth
  rcases Agent.localInitialization_total (o := exOracle) (a := { a with running := false }) hcomp
    hinv.reach (fun h => by rw [hrun] at h; cases h) (fun _ => ⟨exOracle_manifold, hR⟩)
    with ⟨T', b', e', hA, hdet⟩ | ⟨-, e'⟩
  · rw [hli] at e'
    cases e'
    have hTd : T.d = ({ a with running := false } : Agent).graph.d := by rw [hA.2.1]; exact gd.symm
    have hch := Agent.choose_none hli hTd
    obtain ⟨c, S, i1, -, -, -, -, i2⟩ := Agent.init_chosen (o := exOracle) (TI := none) hinv n2
      hch hA (by show 0 < g3.n; rw [gn]; omega) hdet
      (fun h => by cases h) (fun h => by rcases h with h | h <;> cases h)
    rw [if_neg (by rintro (h | h) <;> cases h)] at i2
    obtain ⟨gb, kb, hgb, hb', -⟩ := Agent.localInitialization_form hli
    have hbg : b.graph.privateLcs = [{ exWrong with weight := 0 }] := by
      have hd0 : g3.deref (.priv 0) = some exWrong := by
        show g3.privateLcs[0]? = _
        rw [gp]; rfl
      have hs := (Agent.rejectOutliers_spec hb (.priv 0) exWrong hd0).1
        ⟨{ exWrong with weight := w }, by simp [exLocal], s2, gf⟩
      have hl : b.graph.privateLcs.length = 1 := by
        have t := (hgb.topology Agent.weighting_quiet).privateLcs
        have hbg : b.graph = gb := congrArg Agent.graph hb'
        rw [hbg]
        have := congrArg List.length t
        simp only [List.length_map] at this
        rw [this]
        show g3.privateLcs.length = 1
        rw [gp]; rfl
      have hs : b.graph.privateLcs[0]? = some { exWrong with weight := 0 } := hs
      match hq : b.graph.privateLcs, hl with
      | [x], _ => rw [hq] at hs; simpa using hs
    refine ⟨a, c, r4, n2, go, gp, hcomp, rfl, i1, i2, ?_⟩
    rcases Agent.init_form hinv.reach i1 with ⟨x, -⟩ | ⟨-, x, -⟩ | ⟨-, -, T2, S', X2, b2, c2, x, hT, -, hc, hf⟩
    · exact absurd n2 x
    · exact absurd (show g3.n = 0 from x) (by rw [gn]; omega)
    · rw [hch] at x
      cases x
      have hbY : b.YLift = some (DMat.zero 3 2) := congrArg Agent.YLift hb'
      have hbp : b.params = exWary := (congrArg Agent.params hb').trans n3
      have hbi : b.id = 1 := (congrArg Agent.id hb').trans hinv.id
      rcases hc with ⟨-, rfl⟩ | ⟨hc, -⟩
      · rcases hf with ⟨-, rfl⟩ | ⟨hf, -⟩
        · exact ⟨hbY, hbg⟩
        · have hf : a0.params.asynchronous = true := hf
          rw [n3] at hf; cases hf
      · have hc : b.id = 0 ∨ ¬ b.params.multirobotInit = true := hc
        rw [hbi, hbp] at hc
        rcases hc with h | h
        · cases h
        · exact absurd rfl h
  · rw [hli] at e'; cases e'

/-- Used by the examples: the robust local initialisation succeeds on three poses with a wrong loop
closure. -/
theorem exWary_local : ∃ (a b : Agent) (T : PArr ℝ), AgReach exOracle 1 exWary a ∧ a.state = .WAIT_FOR_DATA ∧
    Agent.localInitialization exOracle { a with running := false } = ok (T, b) ∧
    ArrOk 2 2 a.graph.n T ∧ (rotM 2 2 T 0).det ≠ 0 ∧ a.graph.privateLcs = [exWrong] := by
  obtain ⟨a, c, ha, hs, ho, hl, hc, -, e, -⟩ := exRejected
  rcases Agent.localInitialization_total (o := exOracle) (a := { a with running := false }) hc
    (agReach_inv ha).reach (fun h => by
      have h : a.params.initMethod = .Chordal := h
      rw [(agReach_inv ha).params] at h; cases h) (fun _ => ⟨exOracle_manifold, by
      show ∀ m ∈ a.graph.odometry, _
      rw [ho]; exact exTrusted_orth⟩) with ⟨T, b, e', hA, hdet⟩ | ⟨-, e'⟩
  · exact ⟨a, b, T, ha, hs, e', hA, hdet, hl⟩
  · exfalso
    rcases Agent.init_form (agReach_inv ha).reach e with ⟨x, -⟩ | ⟨-, x, -⟩ | ⟨-, -, T, S, X, b, c, x, -⟩
    · exact x hs
    · have x : a.graph.n = 0 := x
      have := hc.all
      omega
    · obtain ⟨-, g', k, -, -, ⟨S', hS, -⟩ | ⟨-, h⟩⟩ := Agent.chooseTrajectory_form x
      · cases hS
      · rw [e'] at h; cases h

end Props

end

end Dpgo
