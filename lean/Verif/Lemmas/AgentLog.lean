import Verif.Spec.AgentLog
import Verif.Lemmas.Guess
import Verif.Lemmas.AgentFrames
import Verif.Lemmas.LoggerTraj

/-! # Lemmas for C81 -/

namespace Dpgo

open Res Spec Text

variable {L : LogEnv} {o : AgentOracles} {ID : Nat} {p : AgentParams} {a a' : Agent} {k k' : Disk}

namespace Agent

theorem liftTrajectory_eq (Y : DMat ℝ) (W : PArr ℝ) : a.liftTrajectory Y W = (do
    let T ← a.globalTrajectory W
    require (Y.cols == T.X.rows)
    a.X.setData (Y.mul T.X)) := by
  unfold liftTrajectory globalTrajectory
  cases a.TLocalInit <;> rfl

theorem inGlobalFrameLog_ok {r d : Nat} {W : PArr ℝ} (hg : Reachable ID r d a.graph) :
    a.inGlobalFrameLog L k W = ok (a', k') ↔ a.initializeInGlobalFrame W = ok a' ∧
      ∃ T, a.globalTrajectory W = ok T ∧ a.logPlaced L k T = ok k' := by
  unfold inGlobalFrameLog initializeInGlobalFrame
  cases hY : a.YLift with
  | none => simp
  | some Y =>
    simp only [liftTrajectory_eq, bind_eq_ok, check_eq_ok, require_eq_ok, exists_and_left, exists_const]
    have tail : ∀ (b : Agent) (T : PArr ℝ), b.params = a.params →
        b.graph.d = a.graph.d → b.graph.n = a.graph.n →
        ((do
          let c ← b.resetAcceleration
          let k ← c.logPlaced L k T
          let c ← c.restart
          ok (c, k)) = ok (a', k') ↔
        (do
          let c ← b.resetAcceleration
          if c.running = true then c.startOptimizationLoop else ok c) = ok a' ∧ a.logPlaced L k T = ok k') := by
      intro b T h2 h3 h4
      have q1 : b.resync.params = a.params := (resync_params b).trans h2
      have q2 : b.resync.graph = b.graph := by rw [resync_frame]
      have q : b.resync.logPlaced L k T = a.logPlaced L k T := by
        unfold logPlaced dimension numPoses
        rw [q1, q2, h3, h4]
      rw [resetAcceleration_eq, ok_bind, ok_bind, q]
      simp only [bind_eq_ok, Res.ok.injEq, Prod.mk.injEq]
      constructor
      · rintro ⟨k1, h, e, he, rfl, rfl⟩
        exact ⟨he, h⟩
      · rintro ⟨he, h⟩
        exact ⟨k', h, a', he, rfl, rfl⟩
    have mid : ∀ (b : Agent) (T : PArr ℝ), b.params = a.params → b.graph = a.graph →
        ((if b.params.robust.costType ≠ .L2 then do
            let c ← b.initializeRobustOptimization
            let c ← c.resetAcceleration
            let k ← c.logPlaced L k T
            let c ← c.restart
            ok (c, k)
          else do
            let c ← ok b
            let c ← c.resetAcceleration
            let k ← c.logPlaced L k T
            let c ← c.restart
            ok (c, k)) = ok (a', k') ↔
        (if b.params.robust.costType ≠ .L2 then do
            let c ← b.initializeRobustOptimization
            let c ← c.resetAcceleration
            if c.running = true then c.startOptimizationLoop else ok c
          else do
            let c ← ok b
            let c ← c.resetAcceleration
            if c.running = true then c.startOptimizationLoop else ok c) = ok a' ∧
          a.logPlaced L k T = ok k') := by
      intro b T h1 h2
      split
      · rw [bind_eq_ok, bind_eq_ok]
        constructor
        · rintro ⟨c, hc, e⟩
          obtain ⟨_, g', -, -, hs, rfl⟩ := initializeRobustOptimization_form (ID := ID) (r := r) (d := d)
            (by rw [h2]; exact hg) hc
          have ht := hs.topology weighting_quiet
          obtain ⟨e1, e2⟩ := (tail { b with cost := b.cost.reset, graph := g' } T h1 (by rw [← h2]; exact ht.d) (by rw [← h2]; exact ht.n)).1 e
          exact ⟨⟨_, hc, e1⟩, e2⟩
        · rintro ⟨⟨c, hc, e⟩, e'⟩
          obtain ⟨_, g', -, -, hs, rfl⟩ := initializeRobustOptimization_form (ID := ID) (r := r) (d := d)
            (by rw [h2]; exact hg) hc
          have ht := hs.topology weighting_quiet
          exact ⟨_, hc, (tail { b with cost := b.cost.reset, graph := g' } T h1 (by rw [← h2]; exact ht.d) (by rw [← h2]; exact ht.n)).2 ⟨e, e'⟩⟩
      · rw [ok_bind, ok_bind]
        exact tail b T h1 (by rw [h2]) (by rw [h2])
    constructor
    · rintro ⟨h1, R, h2, u, h3, T, h4, h5, X, h6, e⟩
      obtain ⟨e1, e2⟩ := (mid { a.clearNeighborPoses with X := X, XInit := some X, state := .INITIALIZED } T (by rfl) (by rfl)).1 e
      exact ⟨⟨h1, R, h2, u, h3, X, ⟨T, h4, h5, h6⟩, e1⟩, T, h4, e2⟩
    · rintro ⟨⟨h1, R, h2, u, h3, X, ⟨T, h4, h5, h6⟩, e1⟩, T', h4', e2⟩
      have h4'' : a.globalTrajectory W = ok T := h4
      rw [h4''] at h4'
      cases h4'
      exact ⟨h1, R, h2, u, h3, T, h4, h5, X, h6, (mid { a.clearNeighborPoses with X := X, XInit := some X, state := .INITIALIZED } T (by rfl) (by rfl)).2 ⟨e1, e2⟩⟩

theorem globalTrajectory_arr {d : Nat} {W T S : PArr ℝ} (hT : a.TLocalInit = some T) (h : ArrOk d d a.graph.n T)
    (e : a.globalTrajectory W = ok S) : ArrOk d d a.graph.n S := by
  unfold globalTrajectory at e
  rw [hT] at e
  refine foldl_induction (P := ArrOk d d a.graph.n) ?_ _ _ _ h e
  intro Q i Q' hQ e
  unfold globalStep at e
  simp only [bind_eq_ok] at e
  obtain ⟨_, -, _, -, _, -, _, -, e⟩ := e
  exact setPose_arr hQ e

/-- The robot now at `a'` has been placed with the trajectory `T`, whose file has been written. -/
def Placing (L : LogEnv) (p : AgentParams) (k : Disk) (a' : Agent) (k' : Disk) : Prop :=
  ∃ (T : PArr ℝ) (Y : DMat ℝ), a'.YLift = some Y ∧ Y.rows = p.r ∧ Y.cols = p.d ∧ a'.X.X = Y.mul T.X ∧
    ArrOk p.d p.d a'.graph.n T ∧
    (if p.logData then Logger.logTrajectory L.dir k p.d a'.graph.n T.X initialFile else ok k) = ok k'

theorem place_form (h : AgInv ID p a) {W : PArr ℝ} (e : a.inGlobalFrameLog L k W = ok (a', k')) :
    a.initializeInGlobalFrame W = ok a' ∧ Placing L p k a' k' := by
  obtain ⟨e1, T, e2, e3⟩ := (inGlobalFrameLog_ok h.reach).1 e
  refine ⟨e1, ?_⟩
  obtain ⟨Y, R, X, g', c, hY, -, -, -, hX, hs, -, -, rfl⟩ := initializeInGlobalFrame_form h.reach e1
  rw [liftTrajectory_eq, e2, ok_bind] at hX
  simp only [bind_eq_ok, require_eq_ok, exists_and_left, exists_const] at hX
  have ht := hs.topology weighting_quiet
  have hst : a.state ≠ .WAIT_FOR_DATA := by
    intro c
    unfold globalTrajectory at e2
    rw [h.noData c] at e2
    cases e2
  obtain ⟨-, ⟨T0, hT0, hTok⟩, -⟩ := h.data hst
  obtain ⟨-, -, hd, -⟩ := h.dims
  rw [resync_frame]
  obtain ⟨l1, l2⟩ := h.lift Y hY
  refine ⟨T, Y, hY, l1, l2, ?_, ?_, ?_⟩
  · have := hX.2
    unfold PArr.setData at this
    simp only [bind_eq_ok, check_eq_ok, exists_and_left, exists_const, Res.ok.injEq] at this
    rw [← this.2.2]
  · show ArrOk p.d p.d g'.n T
    rw [ht.n]
    exact globalTrajectory_arr hT0 hTok e2
  · show (if p.logData then Logger.logTrajectory L.dir k p.d g'.n T.X initialFile else ok k) = ok k'
    unfold logPlaced dimension numPoses at e3
    rw [h.params, hd] at e3
    rw [ht.n]
    exact e3

/-- Logging a trajectory of the right size succeeds. -/
theorem logTrajectory_total {d n : Nat} {T : PArr ℝ} (hT : ArrOk d d n T) (hd : d = 2 ∨ d = 3 ∧ 4 * n < 2 ^ 32)
    (f : Str) : ∃ k', Logger.logTrajectory L.dir k d n T.X f = ok k' := by
  unfold Logger.logTrajectory
  rcases hd with rfl | ⟨rfl, hn⟩
  · exact ⟨k, rfl⟩
  rw [if_neg (by norm_num), hT.2.2.2.1, hT.2.2.2.2, u32_of_lt (by omega)]
  simp only [decide_true, check_true, ok_bind]
  split
  · exact ⟨k, rfl⟩
  · rw [Logger.rows_eq fun i hi => Logger.trajRow_size hT.2.2.2.1
      (show T.X.cols = 4 * n by rw [hT.2.2.2.2]) (List.mem_range.1 hi)]
    exact ⟨_, rfl⟩

theorem place_total (h : AgInv ID p a) (hd : p.d = 2 ∨ p.d = 3 ∧ 4 * a.graph.n < 2 ^ 32) {W : PArr ℝ}
    (e : a.initializeInGlobalFrame W = ok a') : ∃ k', a.inGlobalFrameLog L k W = ok (a', k') := by
  obtain ⟨Y, R, X, g', c, hY, -, -, -, hX, hs, -, -, -⟩ := initializeInGlobalFrame_form h.reach e
  rw [liftTrajectory_eq] at hX
  simp only [bind_eq_ok, require_eq_ok, exists_and_left, exists_const] at hX
  obtain ⟨T, e2, -⟩ := hX
  have hst : a.state ≠ .WAIT_FOR_DATA := by
    intro c
    unfold globalTrajectory at e2
    rw [h.noData c] at e2
    cases e2
  obtain ⟨-, ⟨T0, hT0, hTok⟩, -⟩ := h.data hst
  obtain ⟨-, -, hdd, -⟩ := h.dims
  obtain ⟨k1, hk1⟩ := logTrajectory_total (L := L) (k := k) (globalTrajectory_arr hT0 hTok e2) hd initialFile
  by_cases hl : p.logData = true
  · refine ⟨k1, (inGlobalFrameLog_ok h.reach).2 ⟨e, T, e2, ?_⟩⟩
    unfold logPlaced dimension numPoses
    rw [h.params, hdd, if_pos hl]
    exact hk1
  · refine ⟨k, (inGlobalFrameLog_ok h.reach).2 ⟨e, T, e2, ?_⟩⟩
    unfold logPlaced
    rw [h.params, if_neg hl]

/-! ### Initialisation -/

/-- The agent in the middle of `initialize`. -/
theorem init_mid (h : AgInv ID p a) (hs : a.state = .WAIT_FOR_DATA) (hn : a.numPoses ≠ 0)
    {TI : Option (PArr ℝ)} {T S X : PArr ℝ} {b : Agent}
    (hT : a.endOptimizationLoop.chooseTrajectory o TI = ok (T, b)) (hS : b.normalizeTrajectory T = ok S)
    (hX : PArr.make b.relaxationRank b.dimension b.numPoses = ok X) :
    AgInv ID p { b with TLocalInit := some S, X := X, state := .WAIT_FOR_INITIALIZATION } ∧
      b.graph.n = a.graph.n := by
  obtain ⟨-, g', k, hg, rfl, -⟩ := Agent.chooseTrajectory_form hT
  have h0 : AgInv ID p a.endOptimizationLoop := h.endLoop
  have h1 := h0.graph (hg.mono Agent.weighting_quiet)
  have hno := h1.notInit (by show a.state ≠ _; rw [hs]; simp)
  have t := (hg.mono Agent.weighting_quiet).topology (fun _ h => h)
  obtain ⟨-, dr, dd, drd⟩ := h1.dims
  have hS' := AgInv.normalize_arr hS
  have hX' := make_arr (show g'.d ≤ g'.r by
    replace dr : g'.r = p.r := dr
    replace dd : g'.d = p.d := dd
    rw [dr, dd]; exact drd) hX
  replace hS' : ArrOk g'.d g'.d g'.n S := hS'
  replace dd : g'.d = p.d := dd
  replace dr : g'.r = p.r := dr
  rw [dd] at hS'
  rw [dd, dr] at hX'
  have hn' : 0 < g'.n := by rw [t.n]; exact Nat.pos_of_ne_zero hn
  exact ⟨{ h1 with
      noData := fun c => by cases c
      notInit := fun _ => hno
      data := fun _ => ⟨hn', ⟨S, rfl, hS'⟩, hX'⟩
      accel := fun c => by cases c }, t.n⟩

/-- Starting the loop of an asynchronous robot. -/
theorem startIf_form {b : Agent} (e : b.startIf = ok a') :
    a'.state = b.state ∧ a'.YLift = b.YLift ∧ a'.X = b.X ∧ a'.graph = b.graph := by
  unfold startIf at e
  split at e
  · obtain ⟨-, rfl⟩ := startOptimizationLoop_form e
    exact ⟨rfl, rfl, rfl, rfl⟩
  · cases e; exact ⟨rfl, rfl, rfl, rfl⟩

theorem firstPlace_form (h : AgInv ID p a) (hs : a.state = .WAIT_FOR_INITIALIZATION)
    (e : a.firstPlaceLog L k = ok (a', k')) :
    (if a.id = 0 ∨ ¬ a.params.multirobotInit = true then do
      let I ← PArr.identity a.d
      a.initializeInGlobalFrame I
     else ok a) = ok a' ∧ AgInv ID p a' ∧
    ((a'.state = .INITIALIZED ∧ Placing L p k a' k') ∨ (a'.state = .WAIT_FOR_INITIALIZATION ∧ k' = k)) := by
  unfold firstPlaceLog at e
  split at e
  · rename_i c
    rw [bind_eq_ok] at e
    obtain ⟨I, hI, e⟩ := e
    obtain ⟨e1, e2⟩ := place_form h e
    rw [if_pos c, hI, ok_bind]
    exact ⟨e1, h.initializeInGlobalFrame e1, Or.inl ⟨(initGlobal_guess h.reach e1).2, e2⟩⟩
  · rename_i c
    cases e
    rw [if_neg c]
    exact ⟨rfl, h, Or.inr ⟨hs, rfl⟩⟩

theorem firstPlace_total (h : AgInv ID p a) (hd : p.d = 2 ∨ p.d = 3 ∧ 4 * a.graph.n < 2 ^ 32)
    (e : (if a.id = 0 ∨ ¬ a.params.multirobotInit = true then do
      let I ← PArr.identity a.d
      a.initializeInGlobalFrame I
     else ok a) = ok a') : ∃ k', a.firstPlaceLog L k = ok (a', k') := by
  unfold firstPlaceLog
  split at e
  · rename_i c
    rw [bind_eq_ok] at e
    obtain ⟨I, hI, e⟩ := e
    obtain ⟨k', hk⟩ := place_total (L := L) (k := k) h hd e
    rw [if_pos c, hI, ok_bind]
    exact ⟨k', hk⟩
  · rename_i c
    cases e
    rw [if_neg c]
    exact ⟨k, rfl⟩

theorem Placing.congr {b : Agent} (h : Placing L p k b k') (h1 : a.YLift = b.YLift) (h2 : a.X = b.X)
    (h3 : a.graph = b.graph) : Placing L p k a k' := by
  unfold Placing
  rw [h1, h2, h3]
  exact h

theorem init_log_form (h : AgInv ID p a) {T : Option (PArr ℝ)} (e : a.initLog L o k T = ok (a', k')) :
    a.init o T = ok a' ∧
    ((a.state ≠ .INITIALIZED ∧ a'.state = .INITIALIZED ∧ Placing L p k a' k') ∨
     ((a.state = .INITIALIZED ∨ a'.state ≠ .INITIALIZED) ∧ k' = k)) := by
  unfold initLog at e
  unfold init
  split at e
  · rename_i hs
    cases e
    rw [if_pos hs]
    refine ⟨rfl, Or.inr ⟨?_, rfl⟩⟩
    by_cases c : a.state = .INITIALIZED
    · exact Or.inl c
    · exact Or.inr c
  rename_i hs
  rw [if_neg hs]
  simp only [ne_eq, not_not] at hs
  simp only at e ⊢
  split at e
  · rename_i hn
    cases e
    rw [if_pos hn]
    refine ⟨rfl, Or.inr ⟨Or.inr ?_, rfl⟩⟩
    show a.state ≠ .INITIALIZED
    rw [hs]; simp
  rename_i hn
  rw [if_neg hn]
  simp only [bind_eq_ok, Prod.exists] at e
  obtain ⟨T', b, hT, S, hS, X, hX, c, k1, hc, a1, e1, e⟩ := e
  simp only [Res.ok.injEq, Prod.mk.injEq] at e
  obtain ⟨rfl, rfl⟩ := e
  obtain ⟨hb, -⟩ := init_mid h hs hn hT hS hX
  obtain ⟨f1, -, f2⟩ := firstPlace_form hb rfl hc
  obtain ⟨g1, g2, g3, g4⟩ := startIf_form e1
  refine ⟨?_, ?_⟩
  · rw [hT, ok_bind]
    simp only
    rw [hS, ok_bind, hX, ok_bind]
    split at f1
    · rename_i c'
      rw [if_pos c']
      rw [bind_eq_ok] at f1
      obtain ⟨I, hI, f1⟩ := f1
      rw [hI, ok_bind, f1, ok_bind]
      exact e1
    · rename_i c'
      rw [if_neg c', ok_bind]
      cases f1
      exact e1
  · rcases f2 with ⟨f2, f3⟩ | ⟨f2, rfl⟩
    · refine Or.inl ⟨by rw [hs]; simp, g1.trans f2, ?_⟩
      exact f3.congr g2 g3 g4
    · exact Or.inr ⟨Or.inr (by rw [g1, f2]; simp), rfl⟩

theorem init_log_total (h : AgInv ID p a) (hd : p.d = 2 ∨ p.d = 3 ∧ 4 * a.graph.n < 2 ^ 32)
    {T : Option (PArr ℝ)} (e : a.init o T = ok a') : ∃ k', a.initLog L o k T = ok (a', k') := by
  unfold init at e
  unfold initLog
  split at e
  · rename_i hs
    cases e
    rw [if_pos hs]
    exact ⟨k, rfl⟩
  rename_i hs
  rw [if_neg hs]
  simp only [ne_eq, not_not] at hs
  simp only at e ⊢
  split at e
  · rename_i hn
    cases e
    rw [if_pos hn]
    exact ⟨k, rfl⟩
  rename_i hn
  rw [if_neg hn]
  simp only [bind_eq_ok, Prod.exists] at e
  obtain ⟨T', b, hT, S, hS, X, hX, e⟩ := e
  obtain ⟨hb, hbn⟩ := init_mid h hs hn hT hS hX
  have key : ∃ c, (if b.id = 0 ∨ ¬ b.params.multirobotInit = true then do
      let I ← PArr.identity b.d
      initializeInGlobalFrame { b with TLocalInit := some S, X := X, state := .WAIT_FOR_INITIALIZATION } I
     else ok { b with TLocalInit := some S, X := X, state := .WAIT_FOR_INITIALIZATION }) = ok c ∧
     (if c.params.asynchronous = true then c.startOptimizationLoop else ok c) = ok a' := by
    split at e
    · rename_i c'
      simp only [bind_eq_ok] at e
      obtain ⟨I, hI, c, hc, e⟩ := e
      exact ⟨c, by rw [if_pos c', hI, ok_bind]; exact hc, e⟩
    · rename_i c'
      rw [ok_bind] at e
      exact ⟨_, by rw [if_neg c'], e⟩
  obtain ⟨c, hc, hc'⟩ := key
  obtain ⟨k1, hk1⟩ := firstPlace_total (L := L) (k := k) hb (by rw [hbn]; exact hd) hc
  refine ⟨k1, ?_⟩
  rw [hT, ok_bind]
  simp only
  rw [hS, ok_bind, hX, ok_bind, hk1, ok_bind]
  simp only
  rw [show c.startIf = ok a' from hc', ok_bind]

/-! ### Messages -/

theorem try_log_form (h : AgInv ID p a) {nid : Nat} {dict : PoseDict ℝ}
    (e : a.tryInitializeLog L o k nid dict = ok (a', k')) :
    a.tryInitialize o nid dict = ok a' ∧
    ((a.state ≠ .INITIALIZED ∧ a'.state = .INITIALIZED ∧ Placing L p k a' k') ∨ (a' = a ∧ k' = k)) := by
  unfold tryInitializeLog at e
  unfold tryInitialize
  split at e
  · rename_i hs
    rw [bind_eq_ok] at e
    obtain ⟨q, hq, e⟩ := e
    rw [if_pos hs, hq, ok_bind]
    cases q with
    | none => cases e; exact ⟨rfl, Or.inr ⟨rfl, rfl⟩⟩
    | some T =>
      obtain ⟨e1, e2⟩ := place_form h e
      exact ⟨e1, Or.inl ⟨by rw [hs]; simp, (initGlobal_guess h.reach e1).2, e2⟩⟩
  · rename_i hs
    cases e
    rw [if_neg hs]
    exact ⟨rfl, Or.inr ⟨rfl, rfl⟩⟩

theorem try_log_total (h : AgInv ID p a) (hd : p.d = 2 ∨ p.d = 3 ∧ 4 * a.graph.n < 2 ^ 32) {nid : Nat}
    {dict : PoseDict ℝ} (e : a.tryInitialize o nid dict = ok a') :
    ∃ k', a.tryInitializeLog L o k nid dict = ok (a', k') := by
  unfold tryInitialize at e
  unfold tryInitializeLog
  split at e
  · rename_i hs
    rw [bind_eq_ok] at e
    obtain ⟨q, hq, e⟩ := e
    rw [if_pos hs, hq, ok_bind]
    cases q with
    | none => cases e; exact ⟨k, rfl⟩
    | some T => exact place_total h hd e
  · rename_i hs
    cases e
    rw [if_neg hs]
    exact ⟨k, rfl⟩

theorem deliver_log_form (h : AgInv ID p a) {nid : Nat} {dict : PoseDict ℝ}
    (e : a.updateNeighborPosesLog L o k nid dict = ok (a', k')) :
    a.updateNeighborPoses o nid dict = ok a' ∧
    ((a.state ≠ .INITIALIZED ∧ a'.state = .INITIALIZED ∧ Placing L p k a' k') ∨
     ((a.state = .INITIALIZED ∨ a'.state ≠ .INITIALIZED) ∧ k' = k)) := by
  have still : a.state = .INITIALIZED ∨ a.state ≠ .INITIALIZED := em _
  unfold updateNeighborPosesLog at e
  unfold updateNeighborPoses
  simp only [bind_eq_ok, check_eq_ok, exists_and_left, exists_const] at e
  obtain ⟨h1, e⟩ := e
  rw [h1, check_true, ok_bind]
  split at e
  · rename_i hc
    cases e
    rw [if_pos hc]
    exact ⟨rfl, Or.inr ⟨still, rfl⟩⟩
  rename_i hc
  rw [if_neg hc]
  simp only [bind_eq_ok, Prod.exists] at e
  obtain ⟨b, k1, hb, e⟩ := e
  obtain ⟨f1, f2⟩ := try_log_form h hb
  rw [f1, ok_bind]
  split at e
  · rename_i hs
    cases e
    rw [if_pos hs]
    refine ⟨rfl, ?_⟩
    rcases f2 with ⟨-, f2, -⟩ | ⟨rfl, rfl⟩
    · exact absurd f2 hs
    · exact Or.inr ⟨still, rfl⟩
  · rename_i hs
    simp only [bind_eq_ok] at e
    obtain ⟨s, h2, e⟩ := e
    cases e
    rw [if_neg hs, h2, ok_bind]
    refine ⟨rfl, ?_⟩
    rcases f2 with ⟨f2, f3, f4⟩ | ⟨rfl, rfl⟩
    · exact Or.inl ⟨f2, f3, f4.congr rfl rfl rfl⟩
    · exact Or.inr ⟨still, rfl⟩

theorem deliver_log_total (h : AgInv ID p a) (hd : p.d = 2 ∨ p.d = 3 ∧ 4 * a.graph.n < 2 ^ 32) {nid : Nat}
    {dict : PoseDict ℝ} (e : a.updateNeighborPoses o nid dict = ok a') :
    ∃ k', a.updateNeighborPosesLog L o k nid dict = ok (a', k') := by
  unfold updateNeighborPoses at e
  unfold updateNeighborPosesLog
  simp only [bind_eq_ok, check_eq_ok, exists_and_left, exists_const] at e
  obtain ⟨h1, e⟩ := e
  rw [h1, check_true, ok_bind]
  split at e
  · rename_i hc
    cases e
    rw [if_pos hc]
    exact ⟨k, rfl⟩
  rename_i hc
  rw [if_neg hc]
  rw [bind_eq_ok] at e
  obtain ⟨b, hb, e⟩ := e
  obtain ⟨k1, hk1⟩ := try_log_total (L := L) (k := k) h hd hb
  refine ⟨k1, ?_⟩
  rw [hk1, ok_bind]
  simp only
  split at e
  · rename_i hs
    cases e
    rw [if_pos hs]
  · rename_i hs
    rw [bind_eq_ok] at e
    obtain ⟨s, h2, e⟩ := e
    cases e
    rw [if_neg hs, h2, ok_bind]

/-! ### Reset -/

theorem reset_log_form (e : a.resetLog L o k = ok (a', k')) :
    a.reset o = ok a' ∧ (if a.params.logData then a.saveAll L o k else ok k) = ok k' := by
  have hq : ∀ q, a.endOptimizationLoop.saveAll L o k = ok q →
      ∃ T, a.endOptimizationLoop.getTrajectoryInGlobalFrame o = ok T := by
    intro q hq
    unfold saveAll at hq
    simp only [bind_eq_ok] at hq
    obtain ⟨_, -, T, hT, -⟩ := hq
    exact ⟨T, hT⟩
  unfold resetLog at e
  unfold reset
  simp only at e ⊢
  split at e
  · rename_i hl
    rw [bind_eq_ok] at e
    obtain ⟨k1, h1, e⟩ := e
    simp only [Res.ok.injEq, Prod.mk.injEq] at e
    obtain ⟨rfl, rfl⟩ := e
    obtain ⟨T, hT⟩ := hq _ h1
    refine ⟨?_, by rw [if_pos hl]; exact h1⟩
    rw [if_pos (show a.endOptimizationLoop.params.logData = true from hl), hT]
    rfl
  · rename_i hl
    rw [ok_bind] at e
    simp only [Res.ok.injEq, Prod.mk.injEq] at e
    obtain ⟨rfl, rfl⟩ := e
    refine ⟨?_, by rw [if_neg hl]⟩
    rw [if_neg (show ¬ a.endOptimizationLoop.params.logData = true from hl)]
    rfl

/-- Only the file at `path` may differ. -/
def OnlyAt (path : Str) (k k' : Disk) : Prop :=
  k'.writable = k.writable ∧ ∀ q, q ≠ path → k'.file q = k.file q

theorem OnlyAt.refl (path : Str) (k : Disk) : OnlyAt path k k := ⟨rfl, fun _ _ => rfl⟩

theorem OnlyAt.write (path : Str) (k : Disk) (text : Str) : OnlyAt path k (k.write path text) :=
  ⟨rfl, fun _ hq => if_neg hq⟩

theorem logMeasurements_only {ms : List (Meas ℝ)} {f : Str} (e : Logger.logMeasurements L.dir k ms f = ok k') :
    OnlyAt (L.dir ++ f) k k' ∧ (ms = [] → k' = k) := by
  unfold Logger.logMeasurements at e
  split at e
  · cases e
    exact ⟨.refl _ _, fun _ => rfl⟩
  simp only at e
  split at e
  · cases e
    exact ⟨.refl _ _, fun c => by cases c⟩
  split at e
  · cases e
    exact ⟨.write _ _ _, fun c => by cases c⟩
  · rw [bind_eq_ok] at e
    obtain ⟨text, -, e⟩ := e
    cases e
    exact ⟨.write _ _ _, fun c => by cases c⟩

theorem logTrajectory_only {d n : Nat} {T : DMat ℝ} {f : Str}
    (e : Logger.logTrajectory L.dir k d n T f = ok k') : OnlyAt (L.dir ++ f) k k' ∧ (d = 2 → k' = k) := by
  unfold Logger.logTrajectory at e
  split at e
  · cases e
    exact ⟨.refl _ _, fun _ => rfl⟩
  rename_i hd
  simp only [bind_eq_ok, check_eq_ok, exists_and_left, exists_const] at e
  obtain ⟨-, -, e⟩ := e
  split at e
  · cases e
    exact ⟨.refl _ _, fun c => absurd c hd⟩
  · rw [bind_eq_ok] at e
    obtain ⟨text, -, e⟩ := e
    cases e
    exact ⟨.write _ _ _, fun c => absurd c hd⟩

theorem writeMatrix_only (k : Disk) (M : DMat ℝ) (path : Str) : OnlyAt path k (writeMatrixToFile L k M path) := by
  unfold writeMatrixToFile
  split
  · exact .refl _ _
  · exact .write _ _ _

theorem trajectory_none (h : AgInv ID p a) (hs : ¬ (a.state = .INITIALIZED ∧ a.globalAnchor.isSome = true)) :
    a.getTrajectoryInGlobalFrame o = ok none := by
  unfold getTrajectoryInGlobalFrame
  cases hA : a.globalAnchor with
  | none => rfl
  | some Xa =>
    have hXa := h.anchor Xa hA
    obtain ⟨-, hr, hd, -⟩ := h.dims
    have hst : a.state ≠ .INITIALIZED := fun c => hs ⟨c, by rw [hA]; rfl⟩
    simp only [hXa.1, hXa.2.1, relaxationRank, dimension, hr, hd, beq_self_eq_true, check_true, ok_bind,
      if_pos hst]

/-- What `reset` writes, file by file. -/
theorem saveAll_form (h : AgInv ID p a) (e : a.saveAll L o k = ok k') :
    ∃ k1 k2, Logger.logMeasurements L.dir k a.graph.measurements measurementsFile = ok k1 ∧
      ((¬ (a.state = .INITIALIZED ∧ a.globalAnchor.isSome = true) ∧ k2 = k1) ∨
       (a.state = .INITIALIZED ∧ a.globalAnchor.isSome = true ∧ ∃ T,
          a.getTrajectoryInGlobalFrame o = ok (some T) ∧
          Logger.logTrajectory L.dir k1 p.d a.graph.n T optimizedFile = ok k2)) ∧
      k' = writeMatrixToFile L k2 a.X.X (L.dir ++ matrixFile) := by
  unfold saveAll at e
  rw [bind_eq_ok] at e
  obtain ⟨k1, h1, e⟩ := e
  by_cases hs : a.state = .INITIALIZED ∧ a.globalAnchor.isSome = true
  · obtain ⟨Xa, hXa⟩ := Option.isSome_iff_exists.1 hs.2
    obtain ⟨T, hT, -⟩ := globalFrame_ok (o := o) h hs.1 hXa
    rw [hT, ok_bind] at e
    simp only [bind_eq_ok] at e
    obtain ⟨k2, h2, e⟩ := e
    cases e
    obtain ⟨-, -, hd, -⟩ := h.dims
    refine ⟨k1, k2, h1, Or.inr ⟨hs.1, hs.2, T, hT, ?_⟩, rfl⟩
    rw [← hd]; exact h2
  · rw [trajectory_none h hs, ok_bind] at e
    simp only [ok_bind] at e
    cases e
    exact ⟨k1, k1, h1, Or.inl ⟨hs, rfl⟩, rfl⟩

theorem measurements_dims {r d : Nat} {g : PoseGraph ℝ} (hg : Reachable ID r d g) :
    ∀ m ∈ g.measurements, m.R.rows = d ∧ m.R.cols = d ∧ m.t.rows = d ∧ m.t.cols = 1 := by
  obtain ⟨⟨log, hi⟩, -⟩ := PoseGraph.Reachable.inv hg
  obtain ⟨-, -, hd, -⟩ := reach_dims hg
  intro m hm
  unfold PoseGraph.measurements at hm
  rw [hi.odo, hi.priv, hi.shared] at hm
  have : m ∈ log := by
    simp only [List.mem_append, List.mem_filter] at hm
    tauto
  have := hi.dims m this
  rw [hd] at this
  exact this

theorem saveAll_total (h : AgInv ID p a) (hd : p.d = 2 ∨ p.d = 3 ∧ 4 * a.graph.n < 2 ^ 32) :
    ∃ k', a.saveAll L o k = ok k' := by
  have hM : ∃ k1, Logger.logMeasurements L.dir k a.graph.measurements measurementsFile = ok k1 := by
    have hsz := measurements_dims h.reach
    unfold Logger.logMeasurements
    split
    · exact ⟨k, rfl⟩
    rename_i m0 l hm
    simp only
    split
    · exact ⟨k, rfl⟩
    split
    · exact ⟨_, rfl⟩
    rename_i c
    have h3 : p.d = 3 := by
      rcases hd with hd | hd
      · exact absurd ((hsz m0 (by rw [hm]; simp)).1.trans hd) c
      · exact hd.1
    rw [Logger.rows_eq fun m hm' => Logger.measRow_size (by have := hsz m hm'; rwa [h3] at this)]
    exact ⟨_, rfl⟩
  obtain ⟨k1, h1⟩ := hM
  obtain ⟨-, -, hdd, -⟩ := h.dims
  unfold saveAll
  rw [h1, ok_bind]
  by_cases hs : a.state = .INITIALIZED ∧ a.globalAnchor.isSome = true
  · obtain ⟨Xa, hXa⟩ := Option.isSome_iff_exists.1 hs.2
    obtain ⟨T, hT, hTok, -⟩ := globalFrame_ok (o := o) h hs.1 hXa
    obtain ⟨k2, h2⟩ := logTrajectory_total (L := L) (k := k1) hTok hd optimizedFile
    rw [hT, ok_bind]
    simp only
    unfold dimension numPoses
    rw [hdd]
    rw [show Logger.logTrajectory L.dir k1 p.d a.graph.n T optimizedFile = ok k2 from h2, ok_bind]
    exact ⟨_, rfl⟩
  · rw [trajectory_none h hs, ok_bind]
    exact ⟨_, rfl⟩

theorem reset_log_total (h : AgInv ID p a) (hd : p.d = 2 ∨ p.d = 3 ∧ 4 * a.graph.n < 2 ^ 32)
    (e : a.reset o = ok a') : ∃ k', a.resetLog L o k = ok (a', k') := by
  have e' := reset_form e
  unfold resetLog
  split
  · obtain ⟨k1, h1⟩ := saveAll_total (L := L) (o := o) (k := k) h.endLoop hd
    rw [h1, ok_bind, e']
    exact ⟨k1, rfl⟩
  · rw [e']
    exact ⟨k, rfl⟩

end Agent
end Dpgo
