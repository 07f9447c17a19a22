import Verif.Lemmas.AgentInv
import Verif.Lemmas.AgentWeights
import Verif.Props.Poses

/-! # Values of normalisation, alignment and lifting of a local trajectory -/

namespace Dpgo

open Res Spec PArr Matrix

/-- Total-correctness rule for loops over `0 … n-1`. -/
theorem foldl_range_total {β : Type} {f : β → Nat → Res β} {P : Nat → β → Prop} {b : β} (h0 : P 0 b) :
    ∀ {n : Nat}, (∀ k < n, ∀ c, P k c → ∃ c', f c k = ok c' ∧ P (k + 1) c') →
      ∃ c, Res.foldl f b (List.range n) = ok c ∧ P n c
  | 0, _ => ⟨b, rfl, h0⟩
  | n + 1, h => by
    obtain ⟨c, e, hc⟩ := foldl_range_total h0 (n := n) fun k hk => h k (by omega)
    obtain ⟨c', e', hc'⟩ := h n (by omega) c hc
    refine ⟨c', ?_, hc'⟩
    rw [List.range_succ, foldl_append, e, ok_bind', foldl_cons, e']
    rfl

section
variable {K : Type} [Field K]

omit [Field K] in
theorem rot_single {d : Nat} {M : DMat K} {T : PArr K} {i : Nat}
    (h : M.toMat d d = rotM d d T i) : rotM d d ⟨d, d, 1, M⟩ 0 = rotM d d T i := by
  rw [← h]; ext a c; simp [rotM, DMat.toMat]

omit [Field K] in
theorem tra_single {d : Nat} {M : DMat K} {T : PArr K} {i : Nat}
    (h : (fun a : Fin d => M.v a d) = traV d d T i) : traV d d ⟨d, d, 1, M⟩ 0 = traV d d T i := by
  rw [← h]; ext a; simp [traV]

/-- A single pose taken out of an array. -/
theorem single_ok {d n i : Nat} {T : PArr K} (hT : ArrOk d d n T) (hi : i < n) :
    ∃ M P, T.poseAt i = ok M ∧ ofMatrix M = ok P ∧ ArrOk d d 1 P ∧ rotM d d P 0 = rotM d d T i ∧
      traV d d P 0 = traV d d T i := by
  obtain ⟨-, -, M, hM, m1, m2, m3, m4⟩ := Props.C18_read d d n i T hT hi
  exact ⟨M, _, hM, ofMatrix_ok ⟨m1, m2⟩, ⟨rfl, rfl, rfl, m1, by rw [m2, Nat.mul_one]⟩, rot_single m3,
    tra_single m4⟩

omit [Field K] in
/-- Writing a single pose into an array. -/
theorem put_ok {d n i : Nat} {T P : PArr K} (hT : ArrOk d d n T) (hi : i < n) (hP : ArrOk d d 1 P) :
    ∃ M T', P.poseAt 0 = ok M ∧ T.setPose i M = ok T' ∧ ArrOk d d n T' ∧
      rotM d d T' i = rotM d d P 0 ∧ traV d d T' i = traV d d P 0 ∧
      (∀ j, j ≠ i → rotM d d T' j = rotM d d T j ∧ traV d d T' j = traV d d T j) := by
  obtain ⟨-, -, M, hM, m1, m2, m3, m4⟩ := Props.C18_read d d 1 0 P hP (by omega)
  obtain ⟨T', h1, h2, h3, h4, h5⟩ := Props.C18_write_pose d d n i T hT hi M ⟨m1, m2⟩
  exact ⟨M, T', hM, h1, h2, h3.trans m3, h4.trans m4, h5⟩

end

namespace Agent

/-- Values of the normalised trajectory. -/
theorem normalize_le {a : Agent} {d n k : Nat} {T : PArr ℝ} (hT : ArrOk d d k T) (h0 : 0 < k)
    (hd : a.graph.d = d) (hm : a.graph.n = n) (hnk : n ≤ k) (hdet : (rotM d d T 0).det ≠ 0) :
    ∃ S, a.normalizeTrajectory T = ok S ∧ ArrOk d d n S ∧ ∀ i < n,
      rotM d d S i = (rotM d d T 0)⁻¹ * rotM d d T i ∧
      traV d d S i = (rotM d d T 0)⁻¹ *ᵥ (traV d d T i - traV d d T 0) := by
  unfold normalizeTrajectory Agent.dimension Agent.numPoses
  rw [hd, hm]
  obtain ⟨out, h1, h2, -⟩ := Props.C18_make (K := ℝ) d d n (le_refl _)
  obtain ⟨M0, P0, e1, e2, hP, r0, t0⟩ := single_ok hT h0
  obtain ⟨V, v1, v2, v3, v4⟩ := Props.C17_inverse_value d P0 hP (by rw [r0]; exact hdet)
  rw [r0] at v3
  rw [r0, t0] at v4
  have loop := foldl_range_total (f := normalizeStep P0 T) (n := n) (b := out)
    (P := fun k S => ArrOk d d n S ∧ ∀ i < k,
      rotM d d S i = (rotM d d T 0)⁻¹ * rotM d d T i ∧
      traV d d S i = (rotM d d T 0)⁻¹ *ᵥ (traV d d T i - traV d d T 0))
    ⟨h2, fun i hi => absurd hi (by omega)⟩ ?_
  · obtain ⟨S, l1, l2, l3⟩ := loop
    refine ⟨S, ?_, l2, l3⟩
    rw [h1, ok_bind, e1, ok_bind, e2, ok_bind, l1]
  · rintro k hk S ⟨hS, hv⟩
    obtain ⟨Mk, Pk, f1, f2, hPk, rk, tk⟩ := single_ok hT (lt_of_lt_of_le hk hnk)
    obtain ⟨C, c1, c2, c3, c4⟩ := Props.C17_mul d V Pk v2 hPk
    obtain ⟨M, S', s1, s2, s3, s4, s5, s6⟩ := put_ok hS hk c2
    refine ⟨S', ?_, s3, ?_⟩
    · unfold normalizeStep
      rw [f1, ok_bind, f2, ok_bind, v1, ok_bind, c1, ok_bind, s1, ok_bind, s2]
    · intro i hi
      by_cases hik : i = k
      · subst hik
        rw [s4, s5, c3, c4, v3, v4, rk, tk]
        refine ⟨rfl, ?_⟩
        rw [mulVec_sub]; rfl
      · rw [(s6 i hik).1, (s6 i hik).2]
        exact hv i (by omega)

theorem normalize_ok {a : Agent} {d n : Nat} {T : PArr ℝ} (hT : ArrOk d d n T) (hn : 0 < n)
    (hd : a.graph.d = d) (hm : a.graph.n = n) (hdet : (rotM d d T 0).det ≠ 0) :
    ∃ S, a.normalizeTrajectory T = ok S ∧ ArrOk d d n S ∧ ∀ i < n,
      rotM d d S i = (rotM d d T 0)⁻¹ * rotM d d T i ∧
      traV d d S i = (rotM d d T 0)⁻¹ *ᵥ (traV d d T i - traV d d T 0) :=
  normalize_le hT hn hd hm le_rfl hdet

/-- Values of the lifted trajectory. -/
theorem liftTrajectory_ok {a : Agent} {r d n : Nat} {Y : DMat ℝ} {T W : PArr ℝ}
    (hT : a.TLocalInit = some T) (hTok : ArrOk d d n T) (hW : ArrOk d d 1 W) (hm : a.graph.n = n)
    (hY : Y.rows = r ∧ Y.cols = d) (hX : ArrOk r d n a.X) :
    ∃ X, a.liftTrajectory Y W = ok X ∧ ArrOk r d n X ∧ ∀ i < n,
      rotM r d X i = Y.toMat r d * (rotM d d W 0 * rotM d d T i) ∧
      traV r d X i = Y.toMat r d *ᵥ (rotM d d W 0 *ᵥ traV d d T i + traV d d W 0) := by
  have loop := foldl_range_total (f := globalStep W) (n := n) (b := T)
    (P := fun k S => ArrOk d d n S ∧ (∀ i < k,
      rotM d d S i = rotM d d W 0 * rotM d d T i ∧
      traV d d S i = rotM d d W 0 *ᵥ traV d d T i + traV d d W 0) ∧
      ∀ i, k ≤ i → rotM d d S i = rotM d d T i ∧ traV d d S i = traV d d T i)
    ⟨hTok, fun i hi => absurd hi (by omega), fun i _ => ⟨rfl, rfl⟩⟩ ?_
  · obtain ⟨S, l1, l2, l3, -⟩ := loop
    have hrow := l2.2.2.2.1
    have hcol := l2.2.2.2.2
    have hset : a.X.setData (Y.mul S.X) = ok { a.X with X := Y.mul S.X } :=
      setData_ok hX ⟨hY.1, hcol⟩
    have hok : ArrOk r d n { a.X with X := Y.mul S.X } := ⟨hX.1, hX.2.1, hX.2.2.1, hY.1, hcol⟩
    refine ⟨{ a.X with X := Y.mul S.X }, ?_, hok, ?_⟩
    · unfold liftTrajectory Agent.numPoses
      rw [hT, hm]
      simp only
      rw [l1, ok_bind, hY.2, hrow, hset]
      simp
    · intro i hi
      rw [← (l3 i hi).1, ← (l3 i hi).2]
      constructor
      · ext x y
        simp only [rotM, DMat.mul, hY.2, Matrix.of_apply, Matrix.mul_apply, DMat.toMat]
        exact Finset.sum_range fun k => Y.v x k * S.X.v k (i * (d + 1) + y)
      · ext x
        simp only [traV, DMat.mul, hY.2, mulVec, dotProduct, DMat.toMat, Matrix.of_apply]
        exact Finset.sum_range fun k => Y.v x k * S.X.v k (i * (d + 1) + d)
  · rintro k hk S ⟨hS, hv, hr⟩
    obtain ⟨Mk, Pk, f1, f2, hPk, rk, tk⟩ := single_ok hS hk
    obtain ⟨C, c1, c2, c3, c4⟩ := Props.C17_mul d W Pk hW hPk
    obtain ⟨M, S', s1, s2, s3, s4, s5, s6⟩ := put_ok hS hk c2
    refine ⟨S', ?_, s3, ?_, ?_⟩
    · unfold globalStep
      rw [f1, ok_bind, f2, ok_bind, c1, ok_bind, s1, ok_bind, s2]
    · intro i hi
      by_cases hik : i = k
      · subst hik
        rw [s4, s5, c3, c4, rk, tk, (hr i (le_refl _)).1, (hr i (le_refl _)).2]
        exact ⟨rfl, rfl⟩
      · rw [(s6 i hik).1, (s6 i hik).2]
        exact hv i (by omega)
    · intro i hi
      rw [(s6 i (by omega)).1, (s6 i (by omega)).2]
      exact hr i (by omega)

/-- `initializeInGlobalFrame` succeeds and gives every pose its value. -/
theorem initGlobal_ok {ID : Nat} {p : AgentParams} {a : Agent} {Y : DMat ℝ} {T W : PArr ℝ}
    (h : AgCore ID p a) (hs : a.state ≠ .WAIT_FOR_DATA) (hY : a.YLift = some Y)
    (hT : a.TLocalInit = some T) (hW : ArrOk p.d p.d 1 W) :
    ∃ a' X, a.initializeInGlobalFrame W = ok a' ∧ a'.state = .INITIALIZED ∧ a'.X = X ∧
      a'.XInit = some X ∧ a'.running = a.running ∧ a'.graph.n = a.graph.n ∧
      a'.YLift = a.YLift ∧ a'.TLocalInit = a.TLocalInit ∧
      ∀ i < a.graph.n,
        rotM p.r p.d X i = Y.toMat p.r p.d * (rotM p.d p.d W 0 * rotM p.d p.d T i) ∧
        traV p.r p.d X i =
          Y.toMat p.r p.d *ᵥ (rotM p.d p.d W 0 *ᵥ traV p.d p.d T i + traV p.d p.d W 0) := by
  obtain ⟨-, ⟨T', hT', hTok⟩, hX⟩ := h.data hs
  rw [hT] at hT'
  cases hT'
  obtain ⟨-, -, hd, -⟩ := h.dims
  obtain ⟨X, e1, e2, e3⟩ := liftTrajectory_ok (a := a.clearNeighborPoses) hT hTok hW rfl
    (h.lift Y hY) hX
  obtain ⟨⟨R, hR, r1, r2, -⟩, -, -⟩ := Props.C18_read p.d p.d 1 0 W hW (by omega)
  obtain ⟨ps, g', hps, hg'⟩ := weightsToOne_total h.reach
  have hrun : ∀ b : Agent, b.params = a.params → b.running = a.running →
      (if b.running = true then b.startOptimizationLoop else ok b) = ok b := by
    intro b h1 h2
    split
    · rename_i hb
      unfold startOptimizationLoop
      have hacc : (!b.params.acceleration) = true := by
        rw [h1, h.params, h.loop (h2 ▸ hb)]; rfl
      rw [hacc, check_true, ok_bind]
      cases b; cases hb; rfl
    · rfl
  have hW' : W.d = a.dimension := hW.2.1.trans hd.symm
  have fields : ∀ b : Agent, b.state = .INITIALIZED → b.X = X → b.XInit = some X →
      b.running = a.running → b.graph.n = a.graph.n → b.YLift = a.YLift →
      b.TLocalInit = a.TLocalInit → b.params = a.params →
      b.resync.state = .INITIALIZED ∧ b.resync.X = X ∧ b.resync.XInit = some X ∧
      b.resync.running = a.running ∧ b.resync.graph.n = a.graph.n ∧ b.resync.YLift = a.YLift ∧
      b.resync.TLocalInit = a.TLocalInit ∧ b.resync.params = a.params := by
    intro b h1 h2 h3 h4 h5 h6 h7 h8
    unfold resync
    split <;> exact ⟨h1, h2, h3, h4, h5, h6, h7, h8⟩
  unfold initializeInGlobalFrame
  rw [hY]
  simp only [hW', beq_self_eq_true, check_true, ok_bind, hR, checkRotationMatrix, r1, r2, e1,
    resetAcceleration_eq]
  by_cases hc : a.params.robust.costType = .L2
  · have hc' : a.clearNeighborPoses.params.robust.costType = .L2 := hc
    rw [if_neg (by simp [hc'])]
    obtain ⟨f1, f2, f3, f4, f5, f6, f7, f8⟩ := fields
      { a.clearNeighborPoses with X := X, XInit := some X, state := .INITIALIZED }
      rfl rfl rfl rfl rfl rfl rfl rfl
    exact ⟨_, X, hrun _ f8 f4, f1, f2, f3, f4, f5, hY ▸ f6, f7, e3⟩
  · have hc' : a.clearNeighborPoses.params.robust.costType ≠ .L2 := hc
    rw [if_pos hc']
    have hin : initializeRobustOptimization
        { a.clearNeighborPoses with X := X, XInit := some X, state := .INITIALIZED } =
        ok { a.clearNeighborPoses with
          X := X, XInit := some X, state := .INITIALIZED, cost := a.cost.reset, graph := g' } := by
      unfold initializeRobustOptimization
      simp only [clearNeighborPoses, hps, ok_bind, hg']
    rw [hin]
    simp only [ok_bind]
    have hn : g'.n = a.graph.n := ((weightsToOne_steps h.reach hg').mono weighting_quiet).topology
      (fun _ h => h) |>.n
    obtain ⟨f1, f2, f3, f4, f5, f6, f7, f8⟩ := fields
      { a.clearNeighborPoses with
          X := X, XInit := some X, state := .INITIALIZED, cost := a.cost.reset, graph := g' }
      rfl rfl rfl rfl hn rfl rfl rfl
    exact ⟨_, X, hrun _ f8 f4, f1, f2, f3, f4, f5, hY ▸ f6, f7, e3⟩

/-- `initialize` succeeds once the trajectory is chosen. -/
theorem init_chosen {o : AgentOracles} {ID : Nat} {p : AgentParams} {a b : Agent} {T : PArr ℝ}
    {TI : Option (PArr ℝ)} (h : AgInv ID p a) (hs : a.state = .WAIT_FOR_DATA)
    (hc : chooseTrajectory o { a with running := false } TI = ok (T, b))
    (hT : ArrOk p.d p.d a.graph.n T) (hn : 0 < a.graph.n) (hdet : (rotM p.d p.d T 0).det ≠ 0)
    (hasync : p.asynchronous = true → p.acceleration = false)
    (hY : ID = 0 ∨ p.multirobotInit = false → ∃ Y, a.YLift = some Y) :
    ∃ a' S, a.init o TI = ok a' ∧ a'.TLocalInit = some S ∧ ArrOk p.d p.d a.graph.n S ∧
      a'.graph.n = a.graph.n ∧
      (∀ i < a.graph.n, rotM p.d p.d S i = (rotM p.d p.d T 0)⁻¹ * rotM p.d p.d T i ∧
        traV p.d p.d S i = (rotM p.d p.d T 0)⁻¹ *ᵥ (traV p.d p.d T i - traV p.d p.d T 0)) ∧
      a'.state = if ID = 0 ∨ p.multirobotInit = false then .INITIALIZED
        else .WAIT_FOR_INITIALIZATION := by
  obtain ⟨-, g', k, hg, hb, -⟩ := chooseTrajectory_form hc
  have hinv : AgInv ID p b := by
    rw [hb]
    exact { h.endLoop.graph (hg.mono weighting_quiet) with }
  have hgn : b.graph.n = a.graph.n := by
    rw [hb]; exact ((hg.mono weighting_quiet).topology (fun _ h => h)).n
  have hbs : b.state = .WAIT_FOR_DATA := by rw [hb]; exact hs
  have hbY : b.YLift = a.YLift := by rw [hb]
  have hbr : b.running = false := by rw [hb]
  obtain ⟨-, dr, dd, drd⟩ := hinv.dims
  obtain ⟨S, n1, n2, n3⟩ := normalize_ok hT hn dd hgn hdet
  obtain ⟨X, x1, x2, -⟩ := make_ok (K := ℝ) (n := a.graph.n) drd
  have x1' : PArr.make b.relaxationRank b.dimension b.numPoses = ok X := by
    unfold relaxationRank dimension numPoses
    rw [dr, dd, hgn]; exact x1
  set c : Agent := { b with TLocalInit := some S, X := X, state := .WAIT_FOR_INITIALIZATION }
    with hcdef
  have hcc : AgCore ID p c := { hinv.toAgCore with
    noData := fun c => by cases c
    notInit := fun _ => hinv.notInit (by rw [hbs]; simp)
    data := fun _ => ⟨by show 0 < b.graph.n; rw [hgn]; exact hn,
      ⟨S, rfl, by show ArrOk p.d p.d b.graph.n S; rw [hgn]; exact n2⟩,
      by show ArrOk p.r p.d b.graph.n X; rw [hgn]; exact x2⟩ }
  have fin : ∀ e : Agent, e.params = p → ∃ f : Agent,
      (if e.params.asynchronous = true then e.startOptimizationLoop else ok e) = ok f ∧
      f.TLocalInit = e.TLocalInit ∧ f.graph = e.graph ∧ f.state = e.state := by
    intro e he
    split
    · rename_i hh
      have : (!e.params.acceleration) = true := by
        rw [he] at hh ⊢; rw [hasync hh]; rfl
      refine ⟨{ e with running := true }, ?_, rfl, rfl, rfl⟩
      unfold startOptimizationLoop
      rw [this]; rfl
    · exact ⟨e, rfl, rfl, rfl, rfl⟩
  have hidp : (b.id = 0 ∨ ¬ b.params.multirobotInit = true) ↔
      (ID = 0 ∨ p.multirobotInit = false) := by
    rw [hinv.id, hinv.params]; simp
  have hcond : ¬ (a.endOptimizationLoop.numPoses = 0) := by
    show ¬ a.graph.n = 0
    omega
  have pre : a.init o TI = (do
      let a ← if b.id = 0 ∨ ¬ b.params.multirobotInit = true then do
          let I ← PArr.identity b.d
          c.initializeInGlobalFrame I
        else ok c
      if a.params.asynchronous = true then a.startOptimizationLoop else ok a) := by
    unfold init
    rw [if_neg (by rw [hs]; simp)]
    simp only
    rw [if_neg hcond]
    have hc' : chooseTrajectory o a.endOptimizationLoop TI = ok (T, b) := hc
    rw [hc', ok_bind]
    simp only
    rw [n1, ok_bind, x1', ok_bind]
  rw [pre]
  by_cases hq : ID = 0 ∨ p.multirobotInit = false
  · obtain ⟨I, i1, i2, -⟩ := Props.C17_identity_value (K := ℝ) p.d
    obtain ⟨Y, hYY⟩ := hY hq
    obtain ⟨e, -, e1, e2, -, -, -, e5, -, e7, -⟩ := initGlobal_ok (a := c) hcc
      (fun x => by cases x) (hbY.trans hYY) rfl i2
    have hep : e.params = p := by
      obtain ⟨_, _, _, _, _, -, -, -, -, -, -, -, -, he⟩ := initializeInGlobalFrame_form hcc.reach e1
      rw [he, resync_params]; exact hinv.params
    obtain ⟨f, f1, f2, f3, f4⟩ := fin e hep
    refine ⟨f, S, ?_, f2.trans e7, n2, ?_, n3, ?_⟩
    · rw [if_pos (hidp.2 hq), hinv.d, i1, ok_bind, e1, ok_bind]; exact f1
    · rw [f3, e5]; exact hgn
    · rw [f4, e2, if_pos hq]
  · obtain ⟨f, f1, f2, f3, f4⟩ := fin c hinv.params
    refine ⟨f, S, ?_, f2, n2, ?_, n3, ?_⟩
    · rw [if_neg (fun x => hq (hidp.1 x)), ok_bind]; exact f1
    · rw [f3]; exact hgn
    · rw [f4, if_neg hq]

/-- A trajectory of the right size is chosen. -/
theorem choose_supplied {o : AgentOracles} {a : Agent} {T : PArr ℝ} (h1 : T.d = a.graph.d)
    (h2 : T.n = a.graph.n) : a.chooseTrajectory o (some T) = ok (T, a) := by
  unfold chooseTrajectory
  simp only
  rw [if_pos ⟨h1, h2⟩]

/-- Without logging, `reset` succeeds. -/
theorem reset_ok {o : AgentOracles} {a : Agent} (h : a.params.logData = false) :
    ∃ a', a.reset o = ok a' := by
  unfold Agent.reset Agent.endOptimizationLoop
  simp only [h, ok_bind]
  exact ⟨_, rfl⟩

end Agent

end Dpgo
