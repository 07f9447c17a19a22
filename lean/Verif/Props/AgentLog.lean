import Verif.Lemmas.AgentLogFiles
import Verif.Lemmas.AgentExample
import Verif.Lemmas.AgentStart
import Verif.Props.Logger

/-!
# C81: what an agent leaves on the disk
-/

namespace Dpgo.Props

open Res Spec Text Logger

variable {L : LogEnv} {o : AgentOracles} {ID : Nat} {p : AgentParams} {k₀ k : Disk} {t : List Ev} {a : Agent}

/-- **C81** (logging changes nothing).  A logging robot goes through the same states as one without a disk. -/
theorem C81_same (h : LogHist L o ID p k₀ t a k) : Hist o ID p t a := h.hist

/-- **C81** (logging never fails).  In two or three dimensions, with a number of poses whose matrix can be
addressed, every history of calls is also one with logging, whatever the disk. -/
theorem C81_total (h : Hist o ID p t a) (hd : p.d = 2 ∨ p.d = 3 ∧ ∀ e ∈ t, 4 * e.before.graph.n < 2 ^ 32) :
    ∃ k, LogHist L o ID p k₀ t a k := by
  induction h with
  | new e => exact ⟨k₀, .new e⟩
  | call h hw e ih =>
    obtain ⟨k, hk⟩ := ih (hd.imp _root_.id fun c => ⟨c.1, fun x hx => c.2 x (by simp [hx])⟩)
    obtain ⟨k', hk'⟩ := stepLog_total (L := L) (k := k) (agReach_inv h.reach)
      (hd.imp _root_.id fun c => ⟨c.1, c.2 _ (List.mem_append_right _ (List.mem_singleton_self _))⟩) e
    exact ⟨k', .call hk hw hk'⟩

/-- **C81** (what is touched).  A file differs from what it was only if logging is on and a call wrote it: the
initial trajectory when the robot was placed, the measurements when it was reset with measurements, the optimised
trajectory when it was reset with an estimate and an anchor, the matrix when it was reset. -/
theorem C81_only (h : LogHist L o ID p k₀ t a k) {q : Str} (hq : k.file q ≠ k₀.file q) :
    p.logData = true ∧
    ((q = L.dir ++ "trajectory_initial.csv".toList ∧ ∃ e ∈ t, Places e) ∨
     (q = L.dir ++ "measurements.csv".toList ∧ ∃ e ∈ t, ResetsData e) ∨
     (q = L.dir ++ "trajectory_optimized.csv".toList ∧ ∃ e ∈ t, ResetsSolved e) ∨
     (q = L.dir ++ "X.txt".toList ∧ ∃ e ∈ t, Resets e)) := by
  by_contra c
  refine hq (LogHist.never h fun e he x => c ⟨x.1, ?_⟩)
  rcases x.2 with ⟨x1, x2⟩ | ⟨x1, x2⟩ | ⟨x1, x2⟩ | ⟨x1, x2⟩
  · exact Or.inl ⟨x1, e, he, x2⟩
  · exact Or.inr (Or.inl ⟨x1, e, he, x2⟩)
  · exact Or.inr (Or.inr (Or.inl ⟨x1, e, he, x2⟩))
  · exact Or.inr (Or.inr (Or.inr ⟨x1, e, he, x2⟩))

private theorem lastOf {kind : Ev → Prop} {f : Str} {e : Ev} (h : LastOf kind e t)
    (hk : ∀ x, writerOf L (L.dir ++ f) x ↔ kind x) : LastOf (writerOf L (L.dir ++ f)) e t := by
  obtain ⟨pre, post, h1, h2, h3⟩ := h
  exact ⟨pre, post, h1, (hk e).2 h2, fun x hx c => h3 x hx ((hk x).1 c)⟩

/-- **C81** (initial trajectory).  The file read back is the trajectory the robot was last placed with, to six
digits: whatever trajectory of rotations has the estimate after that call as its lifting. -/
theorem C81_initial (h : LogHist L o ID p k₀ t a k) (hd : p.d = 3) (hlog : p.logData = true)
    (hw : k₀.writable (L.dir ++ "trajectory_initial.csv".toList) = true) {e : Ev} (hl : LastOf Places e t)
    {Y T : DMat ℝ} (hY : e.after.YLift = some Y) (ho : OrthoCols (Y.toMat p.r 3)) (hT : Traj3 e.after.graph.n T)
    (hX : LiftOf p.r e.after.graph.n Y T e.after.X.X) :
    ∃ T', loadTrajectory L.dir k "trajectory_initial.csv".toList = ok T' ∧ LoggedTraj e.after.graph.n T T' := by
  obtain ⟨n1, n2, n3, n4, n5, n6⟩ := names_distinct (L := L)
  obtain ⟨S, h1, h2, h3⟩ := LogHist.last (q := L.dir ++ initialFile) (e := e)
    (Q := fun c => ∃ S, Traj3 e.after.graph.n S ∧ (∀ i < 3, ∀ j < 4 * e.after.graph.n, S.v i j = T.v i j) ∧
      4 * e.after.graph.n < 2 ^ 32 ∧ c =
        some (trajHeader ++ ['\n'] ++ (List.range e.after.graph.n).flatMap fun i => trajText S i ++ ['\n'])) h
    (lastOf hl fun x => by simp [writerOf, n1, n2, n3])
    (fun k k' hi hk e' => placed_file hi hd hlog (by rw [hk]; exact hw) e' hl.choose_spec.choose_spec.2.1 hY ho hT hX)
  obtain ⟨T', e1, e2⟩ := loadT_logged h1 h3
  exact ⟨T', e1, LoggedTraj.congr e2 h2⟩

/-- **C81** (measurements).  The file read back gives the measurements, with their weights, that the robot had
when it was last reset with measurements: same order, same endpoints, six digits. -/
theorem C81_measurements (h : LogHist L o ID p k₀ t a k) (hd : p.d = 3) (hlog : p.logData = true)
    (hw : k₀.writable (L.dir ++ "measurements.csv".toList) = true) {e : Ev} (hl : LastOf ResetsData e t)
    (hr : ∀ m ∈ e.before.graph.measurements, IsRot (m.R.toMat 3 3) ∧ SmallIds m) :
    ∃ ms, loadMeasurements k (L.dir ++ "measurements.csv".toList) true = ok ms ∧
      List.Forall₂ (Logged true) e.before.graph.measurements ms := by
  obtain ⟨n1, n2, n3, n4, n5, n6⟩ := names_distinct (L := L)
  obtain ⟨hop, hne⟩ := hl.choose_spec.choose_spec.2.1
  have key := LogHist.last (q := L.dir ++ measurementsFile) (e := e)
    (Q := fun c => (∀ m ∈ e.before.graph.measurements, Meas3 m) ∧ c = some (measHeader ++ ['\n'] ++
      e.before.graph.measurements.flatMap fun m => rowText m ++ ['\n'])) h
    (lastOf hl fun x => by simp [writerOf, n1.symm, n4, n5])
    (fun k k' hi hk e' => by
      rw [hop] at e'
      obtain ⟨k1, h1, h2⟩ := reset_meas hi (reset_files hi hlog e')
      have h3 : ∀ m ∈ e.before.graph.measurements, Meas3 m := by
        intro m hm
        obtain ⟨s1, s2, s3, s4⟩ := Agent.measurements_dims hi.reach m hm
        rw [hd] at s1 s2 s3
        exact ⟨s1, s2, (hr m hm).1, s3, s4⟩
      rw [log_eq (by rw [hk]; exact hw) hne h3] at h1
      cases h1
      refine ⟨h3, h2.trans ?_⟩
      simp [Disk.write])
  refine ⟨_, load_eq true key.2 fun m hm => (hr m hm).2, ?_⟩
  rw [List.forall₂_map_right_iff]
  exact List.forall₂_same.2 fun m hm => readBack_logged true (key.1 m hm)

/-- **C81** (optimised trajectory).  The file read back is what the robot answered to
`getTrajectoryInGlobalFrame` when it was last reset with an estimate and an anchor, to six digits. -/
theorem C81_optimized (h : LogHist L o ID p k₀ t a k) (hd : p.d = 3) (hlog : p.logData = true)
    (hsvd : LawfulSvd o.svd) (hw : k₀.writable (L.dir ++ "trajectory_optimized.csv".toList) = true) {e : Ev}
    (hl : LastOf ResetsSolved e t) :
    ∃ T T', e.before.getTrajectoryInGlobalFrame o = ok (some T) ∧
      loadTrajectory L.dir k "trajectory_optimized.csv".toList = ok T' ∧
      LoggedTraj e.before.graph.n T T' := by
  obtain ⟨n1, n2, n3, n4, n5, n6⟩ := names_distinct (L := L)
  obtain ⟨hop, hs⟩ := hl.choose_spec.choose_spec.2.1
  obtain ⟨T, hT, h3, hf⟩ := LogHist.last (q := L.dir ++ optimizedFile) (e := e)
    (Q := fun c => ∃ T, e.before.getTrajectoryInGlobalFrame o = ok (some T) ∧ Traj3 e.before.graph.n T ∧
      4 * e.before.graph.n < 2 ^ 32 ∧ c =
        some (trajHeader ++ ['\n'] ++ (List.range e.before.graph.n).flatMap fun i => trajText T i ++ ['\n'])) h
    (lastOf hl fun x => by simp [writerOf, n2.symm, n4.symm, n6])
    (fun k k' hi hk e' => by
      rw [hop] at e'
      obtain ⟨T, k1, k2, hT, hk1, h1, h2⟩ := reset_traj hi hs (reset_files hi hlog e')
      obtain ⟨Xa, hXa⟩ := Option.isSome_iff_exists.1 hs.2
      obtain ⟨M, hM, hMok, hMv⟩ := Agent.globalFrame_ok (o := o) hi hs.1 hXa
      rw [hT] at hM
      cases hM
      have h3 : Traj3 e.before.graph.n T := traj3_of hd hMok fun i hi => by
        rw [(hMv i hi).1]
        exact (rotProj_spec (hsvd _ _ _ le_rfl)).1
      rw [hd] at h1
      have hf := logTrajectory_file (by rw [hk1, hk]; exact hw) h3 h1
      exact ⟨T, hT, h3, hf.1, h2.trans hf.2⟩)
  obtain ⟨T', e1, e2⟩ := loadT_logged h3 hf
  exact ⟨T, T', hT, e1, e2⟩

/-- **C81** (matrix).  The file holds the text of the estimate, before rounding, at the last reset. -/
theorem C81_matrix (h : LogHist L o ID p k₀ t a k) (hlog : p.logData = true)
    (hw : k₀.writable (L.dir ++ "X.txt".toList) = true) {e : Ev} (hl : LastOf Resets e t) :
    k.file (L.dir ++ "X.txt".toList) = some (L.format e.before.X.X) := by
  obtain ⟨n1, n2, n3, n4, n5, n6⟩ := names_distinct (L := L)
  have hop : e.op = .reset := hl.choose_spec.choose_spec.2.1
  exact LogHist.last (q := L.dir ++ matrixFile) (e := e)
    (Q := fun c => c = some (L.format e.before.X.X)) h
    (lastOf hl fun x => by simp [writerOf, n3.symm, n5.symm, n6.symm])
    (fun k k' hi hk e' => by
      rw [hop] at e'
      exact reset_matrix hi (by rw [hk]; exact hw) (reset_files hi hlog e'))

/-- **C81** (the plane).  In two dimensions no trajectory file is ever written, and the measurement file of a
robot reset with measurements is empty. -/
theorem C81_planar (h : LogHist L o ID p k₀ t a k) (hd : p.d = 2) :
    k.file (L.dir ++ "trajectory_initial.csv".toList) = k₀.file (L.dir ++ "trajectory_initial.csv".toList) ∧
    k.file (L.dir ++ "trajectory_optimized.csv".toList) =
      k₀.file (L.dir ++ "trajectory_optimized.csv".toList) ∧
    (p.logData = true → k₀.writable (L.dir ++ "measurements.csv".toList) = true → ∀ e, LastOf ResetsData e t →
      loadMeasurements k (L.dir ++ "measurements.csv".toList) true = ok []) := by
  obtain ⟨n1, n2, n3, n4, n5, n6⟩ := names_distinct (L := L)
  refine ⟨?_, ?_, fun hlog hw e hl => ?_⟩
  · exact (planar_kept h hd).1
  · exact (planar_kept h hd).2
  · obtain ⟨hop, hne⟩ := hl.choose_spec.choose_spec.2.1
    have key := LogHist.last (q := L.dir ++ measurementsFile) (e := e) (Q := fun c => c = some []) h
      (lastOf hl fun x => by simp [writerOf, n1.symm, n4, n5])
      (fun k k' hi hk e' => by
        rw [hop] at e'
        obtain ⟨k1, h1, h2⟩ := reset_meas hi (reset_files hi hlog e')
        have hsz := Agent.measurements_dims hi.reach
        unfold logMeasurements at h1
        split at h1
        · rename_i c
          exact absurd c hne
        rename_i m l c
        have := (hsz m (by rw [c]; simp)).1
        simp only at h1
        rw [show k.writable (L.dir ++ measurementsFile) = true by rw [hk]; exact hw, this, hd] at h1
        simp only [Bool.not_true, Bool.false_eq_true, if_false, if_true] at h1
        cases h1
        refine h2.trans ?_
        simp [Disk.write])
    unfold loadMeasurements
    rw [show k.file (L.dir ++ "measurements.csv".toList) = some [] from key]
    rfl

/-- **C81** (a stale trajectory).  Resetting a robot without estimate or anchor replaces the measurements and the
matrix, but leaves the optimised trajectory of an earlier run in place. -/
theorem C81_stale (h : LogHist L o ID p k₀ t a k) {a' : Agent} {k' : Disk}
    (e : a.stepLog L o k .reset = ok (a', k'))
    (hs : ¬ (a.state = .INITIALIZED ∧ a.globalAnchor.isSome = true)) :
    k'.file (L.dir ++ "trajectory_optimized.csv".toList) = k.file (L.dir ++ "trajectory_optimized.csv".toList) := by
  obtain ⟨n1, n2, n3, n4, n5, n6⟩ := names_distinct (L := L)
  refine (stepLog_kept (agReach_inv h.hist.reach) e).2 _ fun c => ?_
  have c' : writerOf L (L.dir ++ optimizedFile) ⟨a, .reset, a'⟩ := c.2
  simp only [writerOf, n2.symm, n4.symm, n6, false_and, true_and, false_or, or_false] at c'
  exact hs c'.2

/-! ### A run -/

/-- Three dimensions, lifted to four, with logging. -/
noncomputable def exScribe : AgentParams := { AgentParams.default 3 4 with logData := true }

/-- An odometry measurement. -/
noncomputable def exHop : Meas ℝ := { exLog with r1 := 0, r2 := 0, p1 := 0, p2 := 1 }

/-- A robot with two poses is initialised with a given trajectory, anchored and reset, and logs on an empty disk
where everything can be written. -/
theorem exScribed (L : LogEnv) : ∃ (t : List Ev) (a : Agent) (k : Disk) (e1 e2 : Ev) (Y : DMat ℝ),
    LogHist L exOracle 0 exScribe ⟨fun _ => none, fun _ => true⟩ t a k ∧ LastOf Places e1 t ∧
    LastOf ResetsData e2 t ∧ LastOf ResetsSolved e2 t ∧ LastOf Resets e2 t ∧
    e2.before.graph.measurements = [exHop] ∧ e1.after.YLift = some Y ∧ OrthoCols (Y.toMat 4 3) ∧
    e1.after.graph.n = 2 ∧ LiftOf 4 2 Y exLogTraj e1.after.X.X ∧ a.state = .WAIT_FOR_DATA ∧
    a.graph.n = 2 := by
  obtain ⟨g0, g1, e0, e1, g2, g3, g4⟩ : ∃ g0 g1 : PoseGraph ℝ, PoseGraph.new 0 4 3 = ok g0 ∧
      g0.addMeasurement exHop = ok g1 ∧ g1.n = 2 ∧ g1.d = 3 ∧ g1.measurements = [exHop] :=
    ⟨_, _, rfl, rfl, rfl, rfl, rfl⟩
  have hnew : ∃ a0, Agent.new exOracle 0 exScribe = ok a0 ∧ a0.graph = g0 ∧ a0.state = .WAIT_FOR_DATA ∧
      a0.YLift = some (DMat.ofMat (exOracle.stiefel 3 4)) := by
    obtain ⟨X, hX, -, -⟩ := PArr.make_ok (K := ℝ) (r := 4) (d := 3) (n := 1) (by omega)
    unfold Agent.new
    rw [show exScribe.r = 4 from rfl, show exScribe.d = 3 from rfl, hX, e0]
    simp only [ok_bind, if_pos, Agent.setLiftingMatrix, DMat.ofMat, beq_self_eq_true, check_true]
    exact ⟨_, rfl, rfl, rfl, rfl⟩
  obtain ⟨a0, n0, n1, n2, n3⟩ := hnew
  have r2 := Hist.call (op := .addMeasurement exHop) (a' := { a0 with graph := g1 }) (.new n0)
    (by simp [AgOpWF, exHop, MeasWF])
    (by simp only [Agent.step, Agent.addMeasurement, n2, ne_eq, not_true_eq_false, if_false, n1, e1,
        ok_bind])
  generalize ha : ({ a0 with graph := g1 } : Agent) = a at r2
  have hg : a.graph = g1 := by rw [← ha]
  have hs : a.state = .WAIT_FOR_DATA := by rw [← ha]; exact n2
  have hY : a.YLift = some (DMat.ofMat (exOracle.stiefel 3 4)) := by rw [← ha]; exact n3
  have hi := agReach_inv r2.reach
  have hrot : rotM 3 3 (asPoses 3 2 exLogTraj) 0 = 1 := by
    ext x y
    fin_cases x <;> fin_cases y <;> simp [rotM, asPoses, exLogTraj]
  have htra : traV 3 3 (asPoses 3 2 exLogTraj) 0 = 0 := by
    ext x
    fin_cases x <;> simp [traV, asPoses, exLogTraj]
  have hTok : ArrOk 3 3 2 (asPoses 3 2 exLogTraj) := ⟨rfl, rfl, rfl, rfl, rfl⟩
  obtain ⟨a1, S, e, k1, k2, k3, kv, hst⟩ := Agent.init_chosen (o := exOracle) (TI := some (asPoses 3 2 exLogTraj))
    hi hs
    (Agent.choose_supplied (a := { a with running := false }) (by rw [hg]; exact g3.symm)
      (by rw [hg]; exact g2.symm))
    (by rw [hg, g2]; exact hTok) (by rw [hg, g2]; omega)
    (by show (rotM 3 3 (asPoses 3 2 exLogTraj) 0).det ≠ 0; rw [hrot]; simp) (fun c => by cases c)
    (fun _ => ⟨_, hY⟩)
  have e' : a.step exOracle (.init (some (asPoses 3 2 exLogTraj))) = ok a1 := e
  have r3 := Hist.call (op := .init (some (asPoses 3 2 exLogTraj))) r2 (fun P hP => by cases hP; exact hTok) e'
  have hs1 : a1.state = .INITIALIZED := by rw [hst, if_pos (Or.inl rfl)]
  have hY1 : a1.YLift = some (DMat.ofMat (exOracle.stiefel 3 4)) := by
    rw [Agent.step_frame hi e']; exact hY
  have hi1 := agReach_inv r3.reach
  have hL2 : ∀ x, AgInv 0 exScribe x → x.params.robust.costType = .L2 := fun x hx => by rw [hx.params]; rfl
  have keep : ∀ {x x' : Agent} {W : PArr ℝ}, x.initializeInGlobalFrame W = ok x' → Reachable 0 4 3 g1 →
      x.graph = g1 → x.params.robust.costType = .L2 → x'.graph = g1 := by
    intro x x' W hx hr h1 h2
    obtain ⟨_, _, _, g', _, -, -, -, -, -, -, hw, -, rfl⟩ :=
      Agent.initializeInGlobalFrame_form (h1.symm ▸ hr) hx
    rw [Agent.resync_graph]
    rcases hw with ⟨-, rfl, -⟩ | ⟨c, -⟩
    · exact h1
    · exact absurd h2 c
  have hg1 : a1.graph = g1 := by
    obtain ⟨c, -⟩ | ⟨-, c, -⟩ | ⟨-, -, T, S', X, b, c, h1, -, -, h2, h3⟩ := Agent.init_form hi.reach e
    · exact absurd hs c
    · change a.graph.n = 0 at c
      rw [hg, g2] at c
      cases c
    rw [Agent.choose_supplied (a := { a with running := false }) (by rw [hg]; exact g3.symm)
      (by rw [hg]; exact g2.symm)] at h1
    cases h1
    have hp : a.params.asynchronous = false := by rw [hi.params]; rfl
    rcases h3 with ⟨-, rfl⟩ | ⟨c, -⟩
    · rcases h2 with ⟨-, rfl⟩ | ⟨-, I, -, h2⟩
      · exact hg
      · exact keep h2 (hg ▸ hi.reach) hg (hL2 a hi)
    · rw [hp] at c
      cases c
  obtain ⟨I, hI, hIok, hIr, hIt⟩ : ∃ I : PArr ℝ, PArr.identity 3 = ok I ∧ ArrOk 3 3 1 I ∧ rotM 3 3 I 0 = 1 ∧
      traV 3 3 I 0 = 0 := C17_identity_value 3
  obtain ⟨a2, X, e2, q1, q2, -, -, -, q3, -, q5⟩ := Agent.initGlobal_ok hi1.toAgCore (by rw [hs1]; simp) hY1 k1 hIok
  have r4 := Hist.call (op := .initializeInGlobalFrame I) r3
    (by show ArrOk I.d I.d 1 I; rw [hIok.2.1]; exact hIok) (show a1.step exOracle _ = ok a2 from e2)
  have hi2 := agReach_inv r4.reach
  have hg2 : a2.graph = g1 := keep e2 (hg1 ▸ hi1.reach) hg1 (hL2 a1 hi1)
  obtain ⟨Xa, e3, -, -, -⟩ := Agent.setGlobalAnchor_ok (M := ⟨4, 4, fun i j => if i = j then 1 else 0⟩) hi2 rfl rfl
  have r5 := Hist.call (op := .setGlobalAnchor ⟨4, 4, fun i j => if i = j then 1 else 0⟩) r4 trivial
    (show a2.step exOracle _ = ok _ from e3)
  generalize ha3 : ({ a2 with globalAnchor := some Xa } : Agent) = a3 at r5
  have hs3 : a3.state = .INITIALIZED := by rw [← ha3]; exact q1
  have hA3 : a3.globalAnchor = some Xa := by rw [← ha3]
  have hg3 : a3.graph = g1 := by rw [← ha3]; exact hg2
  have hi3 := agReach_inv r5.reach
  obtain ⟨a4, e4⟩ : ∃ a4, a3.reset exOracle = ok a4 := by
    obtain ⟨M, hM, -⟩ := Agent.globalFrame_ok (o := exOracle) (a := a3.endOptimizationLoop) hi3.endLoop hs3 hA3
    unfold Agent.reset
    simp only [hM, show a3.endOptimizationLoop.params.logData = true by
      show a3.params.logData = true
      rw [hi3.params]; rfl, if_true, ok_bind]
    exact ⟨_, rfl⟩
  have r6 := Hist.call (op := .reset) r5 trivial (show a3.step exOracle .reset = ok a4 from e4)
  obtain ⟨k, hk⟩ := C81_total (L := L) (k₀ := ⟨fun _ => none, fun _ => true⟩) r6 (Or.inr ⟨rfl, by
    have h0 : a0.graph.n = 0 := by rw [n1]; cases e0; rfl
    simp only [List.nil_append, List.cons_append, List.mem_cons, List.not_mem_nil, or_false]
    rintro x (rfl | rfl | rfl | rfl | rfl)
    · show 4 * a0.graph.n < 2 ^ 32
      omega
    all_goals simp only [hg, hg1, hg2, hg3, g2]
    all_goals norm_num⟩)
  have hYo : OrthoCols ((DMat.ofMat (exOracle.stiefel 3 4)).toMat 4 3) := by
    rw [DMat.toMat_ofMat]
    unfold OrthoCols
    ext i j
    fin_cases i <;> fin_cases j <;> simp [exOracle, Matrix.mul_apply, Fin.sum_univ_four]
  refine ⟨_, a4, k, ⟨a1, .initializeInGlobalFrame I, a2⟩, ⟨a3, .reset, a4⟩, DMat.ofMat (exOracle.stiefel 3 4), hk,
    ⟨[⟨a0, .addMeasurement exHop, a⟩, ⟨a, .init (some (asPoses 3 2 exLogTraj)), a1⟩],
      [⟨a2, .setGlobalAnchor ⟨4, 4, fun i j => if i = j then 1 else 0⟩, a3⟩, ⟨a3, .reset, a4⟩], rfl, Or.inl ⟨I, rfl⟩, ?_⟩,
    ⟨_, [], rfl, ⟨rfl, ?_⟩, by simp⟩, ⟨_, [], rfl, ⟨rfl, hs3, by simp [hA3]⟩, by simp⟩,
    ⟨_, [], rfl, rfl, by simp⟩, by rw [hg3, g4], q3.trans hY1, hYo, by rw [hg2, g2], ?_,
    by have f := congrArg Agent.state (Agent.reset_form e4); exact f,
    by have f := congrArg Agent.graph (Agent.reset_form e4); rw [f]; exact hg3 ▸ g2⟩
  · intro x hx
    simp only [List.mem_cons, List.not_mem_nil, or_false] at hx
    rcases hx with rfl | rfl
    · rintro (⟨_, c⟩ | ⟨c, -⟩)
      · cases c
      · exact c q1
    · rintro (⟨_, c⟩ | ⟨c, -⟩)
      · cases c
      · exact c hs3
  · rw [hg3, g4]; simp
  · have hT1 : ∀ i < 2, rotM 4 3 X i = exOracle.stiefel 3 4 * rotM 3 3 (asPoses 3 2 exLogTraj) i ∧
        traV 4 3 X i = Matrix.mulVec (exOracle.stiefel 3 4) (traV 3 3 (asPoses 3 2 exLogTraj) i) := by
      intro i hi
      obtain ⟨u1, u2⟩ := q5 i (by rw [hg1, g2]; exact hi)
      obtain ⟨v1, v2⟩ := kv i (by rw [hg, g2]; exact hi)
      change rotM 4 3 X i = (DMat.ofMat (exOracle.stiefel 3 4)).toMat 4 3 * (rotM 3 3 I 0 * rotM 3 3 S i) at u1
      change traV 4 3 X i = Matrix.mulVec ((DMat.ofMat (exOracle.stiefel 3 4)).toMat 4 3)
        (Matrix.mulVec (rotM 3 3 I 0) (traV 3 3 S i) + traV 3 3 I 0) at u2
      change rotM 3 3 S i = (rotM 3 3 (asPoses 3 2 exLogTraj) 0)⁻¹ * rotM 3 3 (asPoses 3 2 exLogTraj) i at v1
      change traV 3 3 S i = Matrix.mulVec (rotM 3 3 (asPoses 3 2 exLogTraj) 0)⁻¹
        (traV 3 3 (asPoses 3 2 exLogTraj) i - traV 3 3 (asPoses 3 2 exLogTraj) 0) at v2
      rw [u1, u2, v1, v2, hrot, htra, hIr, hIt, DMat.toMat_ofMat]
      simp
    have entry : ∀ i : Fin 4, ∀ j < 8, X.X.v i j =
        ∑ c : Fin 3, exOracle.stiefel 3 4 i c * exLogTraj.v c j := by
      intro i j hj
      have R : ∀ n < 2, ∀ c : Fin 3, X.X.v i (n * 4 + c) =
          ∑ b : Fin 3, exOracle.stiefel 3 4 i b * exLogTraj.v b (n * 4 + c) := fun n hn c => by
        have := congrFun (congrFun (hT1 n hn).1 i) c
        simpa only [rotM, asPoses, Matrix.of_apply, Matrix.mul_apply] using this
      have t : ∀ n < 2, X.X.v i (n * 4 + 3) =
          ∑ b : Fin 3, exOracle.stiefel 3 4 i b * exLogTraj.v b (n * 4 + 3) := fun n hn => by
        have := congrFun (hT1 n hn).2 i
        simpa only [traV, asPoses, Matrix.mulVec, dotProduct] using this
      by_cases h3 : j % 4 = 3
      · have := t (j / 4) (by omega)
        rwa [show j / 4 * 4 + 3 = j by omega] at this
      · have := R (j / 4) (by omega) ⟨j % 4, by omega⟩
        simpa only [show j / 4 * 4 + j % 4 = j by omega] using this
    intro i hi j hj
    show a2.X.X.v i j = _
    rw [q2, entry ⟨i, hi⟩ j (by omega), Fin.sum_univ_three]
    simp [Finset.sum_range_succ, DMat.ofMat, exOracle, hi]

example (L : LogEnv) : ∃ (t : List Ev) (a : Agent) (k : Disk) (e1 e2 : Ev) (T1 T2 T2' : DMat ℝ) (ms : List (Meas ℝ)),
    LogHist L exOracle 0 exScribe ⟨fun _ => none, fun _ => true⟩ t a k ∧
    loadTrajectory L.dir k "trajectory_initial.csv".toList = ok T1 ∧ LoggedTraj 2 exLogTraj T1 ∧
    e2.before.getTrajectoryInGlobalFrame exOracle = ok (some T2) ∧
    loadTrajectory L.dir k "trajectory_optimized.csv".toList = ok T2' ∧ LoggedTraj e2.before.graph.n T2 T2' ∧
    loadMeasurements k (L.dir ++ "measurements.csv".toList) true = ok ms ∧ List.Forall₂ (Logged true) [exHop] ms ∧
    k.file (L.dir ++ "X.txt".toList) = some (L.format e2.before.X.X) ∧ LastOf Places e1 t := by
  obtain ⟨t, a, k, e1, e2, Y, h, l1, l2, l3, l4, hm, hY, ho, hn, hX, -⟩ := exScribed L
  obtain ⟨T1, u1, u2⟩ := C81_initial h rfl rfl rfl l1 hY ho (by rw [hn]; exact exLogTraj_traj)
    (by rw [hn]; exact hX)
  obtain ⟨T2, T2', v1, v2, v3⟩ := C81_optimized h rfl rfl exists_lawfulSvd.choose_spec rfl l3
  obtain ⟨ms, w1, w2⟩ := C81_measurements h rfl rfl rfl l2 (by
    rw [hm]
    intro m hm
    rw [List.mem_singleton.1 hm]
    exact ⟨exLog_meas.rot, by norm_num [exHop], by norm_num [exHop], by norm_num [exHop],
      by norm_num [exHop]⟩)
  rw [hn] at u2
  rw [hm] at w2
  exact ⟨t, a, k, e1, e2, T1, T2, T2', ms, h, u1, u2, v1, v2, v3, w1, w2, C81_matrix h rfl rfl l4, l1⟩

/-- The robot is reset once more: the trajectory of the first run is still there. -/
example (L : LogEnv) : ∃ (t : List Ev) (a a' : Agent) (k k' : Disk),
    LogHist L exOracle 0 exScribe ⟨fun _ => none, fun _ => true⟩ t a k ∧
    a.stepLog L exOracle k .reset = ok (a', k') ∧ (∃ T, loadTrajectory L.dir k' optimizedFile = ok T) ∧
    ¬ (a.state = .INITIALIZED ∧ a.globalAnchor.isSome = true) := by
  obtain ⟨t, a, k, e1, e2, Y, h, -, -, l3, -, -, -, -, -, -, hs, hn⟩ := exScribed L
  have hi := agReach_inv h.hist.reach
  obtain ⟨T2, T2', -, v2, -⟩ := C81_optimized h rfl rfl exists_lawfulSvd.choose_spec rfl l3
  obtain ⟨a', ha'⟩ : ∃ a', a.reset exOracle = ok a' := by
    have hT : a.endOptimizationLoop.getTrajectoryInGlobalFrame exOracle = ok none :=
      Agent.trajectory_none hi.endLoop (by show ¬ (a.state = _ ∧ _); rw [hs]; simp)
    unfold Agent.reset
    simp only [hT, show a.endOptimizationLoop.params.logData = true by
      show a.params.logData = true
      rw [hi.params]; rfl, if_true, ok_bind]
    exact ⟨_, rfl⟩
  have hns : ¬ (a.state = .INITIALIZED ∧ a.globalAnchor.isSome = true) := by rw [hs]; simp
  obtain ⟨k', hk'⟩ := stepLog_total (L := L) (k := k) hi (Or.inr ⟨rfl, by rw [hn]; norm_num⟩)
    (show a.step exOracle .reset = ok a' from ha')
  refine ⟨t, a, a', k, k', h, hk', ⟨T2', ?_⟩, hns⟩
  have hf := C81_stale h hk' hns
  unfold loadTrajectory at v2 ⊢
  rw [show k'.file (L.dir ++ optimizedFile) = _ from hf]
  exact v2

/-- In the plane a robot with a measurement is reset, and the file it leaves is empty. -/
example (L : LogEnv) : ∃ (t : List Ev) (a : Agent) (k : Disk) (e : Ev),
    LogHist L exOracle 0 { AgentParams.default 2 3 with logData := true } ⟨fun _ => none, fun _ => true⟩ t a k ∧
    LastOf ResetsData e t ∧ loadMeasurements k (L.dir ++ "measurements.csv".toList) true = ok [] := by
  obtain ⟨g0, g1, e0, e1, g4⟩ : ∃ g0 g1 : PoseGraph ℝ, PoseGraph.new 0 3 2 = ok g0 ∧
      g0.addMeasurement (exI 0 0 0 1) = ok g1 ∧ g1.measurements = [exI 0 0 0 1] := ⟨_, _, rfl, rfl, rfl⟩
  have hnew : ∃ a0, Agent.new exOracle 0 { AgentParams.default 2 3 with logData := true } = ok a0 ∧
      a0.graph = g0 ∧ a0.state = .WAIT_FOR_DATA := by
    obtain ⟨X, hX, -, -⟩ := PArr.make_ok (K := ℝ) (r := 3) (d := 2) (n := 1) (by omega)
    unfold Agent.new
    simp only [AgentParams.default]
    rw [hX, e0]
    simp only [ok_bind, if_pos, Agent.setLiftingMatrix, DMat.ofMat, beq_self_eq_true, check_true]
    exact ⟨_, rfl, rfl, rfl⟩
  obtain ⟨a0, n0, n1, n2⟩ := hnew
  have r2 := Hist.call (op := .addMeasurement (exI 0 0 0 1)) (a' := { a0 with graph := g1 }) (.new n0)
    (by simp [AgOpWF, exI, MeasWF])
    (by simp only [Agent.step, Agent.addMeasurement, n2, ne_eq, not_true_eq_false, if_false, n1, e1,
        ok_bind])
  generalize ha : ({ a0 with graph := g1 } : Agent) = a at r2
  have hg : a.graph = g1 := by rw [← ha]
  have hs : a.state = .WAIT_FOR_DATA := by rw [← ha]; exact n2
  have hi := agReach_inv r2.reach
  obtain ⟨a', ha'⟩ : ∃ a', a.reset exOracle = ok a' := by
    have hT : a.endOptimizationLoop.getTrajectoryInGlobalFrame exOracle = ok none :=
      Agent.trajectory_none hi.endLoop (by show ¬ (a.state = _ ∧ _); rw [hs]; simp)
    unfold Agent.reset
    simp only [hT, show a.endOptimizationLoop.params.logData = true by
      show a.params.logData = true
      rw [hi.params], if_true, ok_bind]
    exact ⟨_, rfl⟩
  have r3 := Hist.call (op := .reset) r2 trivial (show a.step exOracle .reset = ok a' from ha')
  obtain ⟨k, hk⟩ := C81_total (L := L) (k₀ := ⟨fun _ => none, fun _ => true⟩) r3 (Or.inl rfl)
  have hl : LastOf ResetsData ⟨a, .reset, a'⟩ ([] ++ [⟨a0, .addMeasurement (exI 0 0 0 1), a⟩] ++ [⟨a, .reset, a'⟩]) :=
    ⟨_, [], rfl, ⟨rfl, by rw [hg, g4]; simp⟩, by simp⟩
  exact ⟨_, a', k, _, hk, hl, (C81_planar hk rfl).2.2 rfl rfl _ hl⟩

end Dpgo.Props
