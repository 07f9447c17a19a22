import Verif.Lemmas.AgentLogHist

/-! # Lemmas for C81: contents of the files -/

namespace Dpgo

open Res Spec Text Agent Logger

variable {L : LogEnv} {o : AgentOracles} {ID : Nat} {p : AgentParams} {a a' : Agent} {k k' : Disk}

theorem logTrajectory_small {n : Nat} {T : DMat ℝ} {f : Str} (hT : T.cols = 4 * n)
    (e : logTrajectory L.dir k 3 n T f = ok k') : 4 * n < 2 ^ 32 := by
  unfold logTrajectory at e
  rw [if_neg (by norm_num)] at e
  simp only [bind_eq_ok, check_eq_ok, exists_and_left, exists_const, decide_eq_true_eq] at e
  obtain ⟨-, e, -⟩ := e
  rw [hT] at e
  unfold u32 at e
  omega

/-- The file of a trajectory of rotations. -/
theorem logTrajectory_file {n : Nat} {T : DMat ℝ} {f : Str} (hw : k.writable (L.dir ++ f) = true) (hT : Traj3 n T)
    (e : logTrajectory L.dir k 3 n T f = ok k') :
    4 * n < 2 ^ 32 ∧ k'.file (L.dir ++ f) =
      some (trajHeader ++ ['\n'] ++ (List.range n).flatMap fun i => trajText T i ++ ['\n']) := by
  have hn := logTrajectory_small hT.cols e
  rw [logT_eq hw hT hn] at e
  cases e
  exact ⟨hn, by simp [Disk.write]⟩

theorem loadT_logged {n : Nat} {T : DMat ℝ} {f : Str} (hT : Traj3 n T) (h : 4 * n < 2 ^ 32 ∧ k.file (L.dir ++ f) =
      some (trajHeader ++ ['\n'] ++ (List.range n).flatMap fun i => trajText T i ++ ['\n'])) :
    ∃ T', loadTrajectory L.dir k f = ok T' ∧ LoggedTraj n T T' := by
  obtain ⟨T', e, h1, h2, h3⟩ := loadT_eq h.1 h.2
  exact ⟨T', e, backPose_logged hT h1 h2 h3⟩

/-- The log says the same about trajectories with the same entries. -/
theorem Traj3.congr {n : Nat} {T S : DMat ℝ} (hT : Traj3 n T) (h1 : S.rows = 3) (h2 : S.cols = 4 * n)
    (h : ∀ i < 3, ∀ j < 4 * n, S.v i j = T.v i j) : Traj3 n S := by
  refine ⟨h1, h2, fun i hi => ?_⟩
  have : (S.block 0 (4 * i) 3 3).toMat 3 3 = (T.block 0 (4 * i) 3 3).toMat 3 3 := by
    ext x y
    simp only [DMat.toMat_apply, DMat.block]
    exact h _ (by omega) _ (by omega)
  rw [this]
  exact hT.rot i hi

theorem LoggedTraj.congr {n : Nat} {T S T' : DMat ℝ} (hT : LoggedTraj n S T')
    (h : ∀ i < 3, ∀ j < 4 * n, S.v i j = T.v i j) : LoggedTraj n T T' := by
  refine ⟨hT.traj3, fun i hi x hx y hy => ?_, fun i hi x hx => ?_⟩
  · rw [← h x hx _ (by omega)]
    exact hT.R i hi x hx y hy
  · rw [← h x hx _ (by omega)]
    exact hT.t i hi x hx

/-- A lifted trajectory determines the trajectory. -/
theorem lift_unique {r n : Nat} {Y S T X : DMat ℝ} (hY : OrthoCols (Y.toMat r 3)) (h1 : LiftOf r n Y S X)
    (h2 : LiftOf r n Y T X) : ∀ i < 3, ∀ j < 4 * n, S.v i j = T.v i j := by
  have key : ∀ Z, LiftOf r n Y Z X → ∀ (i : Fin 3) (j : Nat), j < 4 * n →
      Z.v i j = ∑ l : Fin r, Y.v l i * X.v l j := by
    intro Z hZ i j hj
    have e : ∀ l : Fin r, Y.v l i * X.v l j = ∑ c : Fin 3, (Y.v l i * Y.v l c) * Z.v c j := by
      intro l
      rw [hZ l l.2 j hj, Finset.sum_range, Finset.mul_sum]
      exact Finset.sum_congr rfl fun c _ => by ring
    simp only [e]
    rw [Finset.sum_comm]
    have f : ∀ c : Fin 3, ∑ l : Fin r, (Y.v l i * Y.v l c) * Z.v c j = (1 : Matrix (Fin 3) (Fin 3) ℝ) i c * Z.v c j := by
      intro c
      rw [← Finset.sum_mul]
      congr 1
      have := congrFun (congrFun hY i) c
      rw [← this]
      rfl
    simp only [f, Matrix.one_apply, ite_mul, one_mul, zero_mul, Finset.sum_ite_eq, Finset.mem_univ, if_true]
  intro i hi j hj
  exact (key S h1 ⟨i, hi⟩ j hj).trans (key T h2 ⟨i, hi⟩ j hj).symm

theorem mul_lift {r n : Nat} {Y T : DMat ℝ} (hc : Y.cols = 3) : LiftOf r n Y T (Y.mul T) := by
  intro i _ j _
  simp [DMat.mul, hc]

/-- The rounded trajectory consists of rotations. -/
theorem traj3_of {d n : Nat} (hd : d = 3) {M : DMat ℝ} (hM : ArrOk d d n (asPoses d n M))
    (h : ∀ i < n, IsRot (rotM d d (asPoses d n M) i)) : Traj3 n M := by
  subst hd
  refine ⟨hM.2.2.2.1, hM.2.2.2.2, fun i hi => ?_⟩
  have e : (M.block 0 (4 * i) 3 3).toMat 3 3 = rotM 3 3 (asPoses 3 n M) i := by
    ext x y
    simp only [DMat.toMat_apply, DMat.block, rotM, asPoses, Matrix.of_apply]
    rw [show 0 + (x : Nat) = x by omega, show 4 * i + (y : Nat) = i * (3 + 1) + y by ring]
  rw [e]
  exact h i hi

theorem placed_file (h : AgInv ID p a) {op : AgOp} (hd : p.d = 3) (hl : p.logData = true)
    (hw : k.writable (L.dir ++ initialFile) = true) (e : a.stepLog L o k op = ok (a', k'))
    (hp : Places ⟨a, op, a'⟩) {Y T : DMat ℝ} (hY : a'.YLift = some Y) (ho : OrthoCols (Y.toMat p.r 3))
    (hT : Traj3 a'.graph.n T) (hX : LiftOf p.r a'.graph.n Y T a'.X.X) :
    ∃ S, Traj3 a'.graph.n S ∧ (∀ i < 3, ∀ j < 4 * a'.graph.n, S.v i j = T.v i j) ∧
      4 * a'.graph.n < 2 ^ 32 ∧ k'.file (L.dir ++ initialFile) =
        some (trajHeader ++ ['\n'] ++ (List.range a'.graph.n).flatMap fun i => trajText S i ++ ['\n']) := by
  obtain ⟨-, ⟨-, -, hk⟩ | ⟨c, -⟩ | ⟨c, -⟩⟩ := stepLog_form h e
  · obtain ⟨S, Y', q1, -, q2, q3, q4, q5⟩ := hk
    rw [hY] at q1
    cases q1
    rw [if_pos hl, hd] at q5
    rw [hd] at q2 q4
    have hS : ∀ i < 3, ∀ j < 4 * a'.graph.n, S.X.v i j = T.v i j :=
      lift_unique ho (by rw [q3]; exact mul_lift q2) hX
    have h3 : Traj3 a'.graph.n S.X := Traj3.congr hT q4.2.2.2.1 q4.2.2.2.2 hS
    exact ⟨S.X, h3, hS, logTrajectory_file hw h3 q5⟩
  · exact absurd hp c
  · exact absurd hp c

theorem reset_files (h : AgInv ID p a) (hl : p.logData = true) (e : a.stepLog L o k .reset = ok (a', k')) :
    a.saveAll L o k = ok k' := by
  obtain ⟨-, ⟨-, c, -⟩ | ⟨-, -, hk⟩ | ⟨-, c, -⟩⟩ := stepLog_form h e
  · exact absurd rfl c
  · rwa [if_pos hl] at hk
  · exact absurd rfl c

theorem reset_meas (h : AgInv ID p a) (e : a.saveAll L o k = ok k') :
    ∃ k1, logMeasurements L.dir k a.graph.measurements measurementsFile = ok k1 ∧
      k'.file (L.dir ++ measurementsFile) = k1.file (L.dir ++ measurementsFile) := by
  obtain ⟨k1, k2, h1, h2, rfl⟩ := saveAll_form h e
  obtain ⟨-, -, -, n1, n2, -⟩ := names_distinct (L := L)
  refine ⟨k1, h1, ?_⟩
  rw [(writeMatrix_only (L := L) k2 a.X.X (L.dir ++ matrixFile)).2 _ n2]
  rcases h2 with ⟨-, rfl⟩ | ⟨-, -, T, -, h2⟩
  · rfl
  · exact (logTrajectory_only h2).1.2 _ n1

theorem reset_traj (h : AgInv ID p a) (hs : a.state = .INITIALIZED ∧ a.globalAnchor.isSome = true)
    (e : a.saveAll L o k = ok k') :
    ∃ T k1 k2, a.getTrajectoryInGlobalFrame o = ok (some T) ∧ k1.writable = k.writable ∧
      logTrajectory L.dir k1 p.d a.graph.n T optimizedFile = ok k2 ∧
      k'.file (L.dir ++ optimizedFile) = k2.file (L.dir ++ optimizedFile) := by
  obtain ⟨k1, k2, h1, h2, rfl⟩ := saveAll_form h e
  obtain ⟨-, -, -, -, -, n⟩ := names_distinct (L := L)
  rcases h2 with ⟨c, -⟩ | ⟨-, -, T, hT, h2⟩
  · exact absurd hs c
  · exact ⟨T, k1, k2, hT, (logMeasurements_only h1).1.1, h2,
      (writeMatrix_only (L := L) k2 a.X.X (L.dir ++ matrixFile)).2 _ n⟩

theorem reset_matrix (h : AgInv ID p a) (hw : k.writable (L.dir ++ matrixFile) = true)
    (e : a.saveAll L o k = ok k') : k'.file (L.dir ++ matrixFile) = some (L.format a.X.X) := by
  obtain ⟨k1, k2, h1, h2, rfl⟩ := saveAll_form h e
  have w : k2.writable = k.writable := by
    rcases h2 with ⟨-, rfl⟩ | ⟨-, -, T, -, h2⟩
    · exact (logMeasurements_only h1).1.1
    · exact (logTrajectory_only h2).1.1.trans (logMeasurements_only h1).1.1
  unfold writeMatrixToFile
  rw [w, hw]
  simp [Disk.write]

/-- In the plane the trajectory files are never written. -/
theorem planar_kept {t : List Ev} {k₀ : Disk} (h : LogHist L o ID p k₀ t a k) (hd : p.d = 2) :
    k.file (L.dir ++ initialFile) = k₀.file (L.dir ++ initialFile) ∧
    k.file (L.dir ++ optimizedFile) = k₀.file (L.dir ++ optimizedFile) := by
  obtain ⟨n1, n2, n3, n4, n5, n6⟩ := names_distinct (L := L)
  induction h with
  | new e => exact ⟨rfl, rfl⟩
  | @call t b b' k k' op h hw e ih =>
    have hi := agReach_inv h.hist.reach
    have same : k'.file (L.dir ++ initialFile) = k.file (L.dir ++ initialFile) ∧
        k'.file (L.dir ++ optimizedFile) = k.file (L.dir ++ optimizedFile) := by
      obtain ⟨-, ⟨-, -, hk⟩ | ⟨-, rfl, hk⟩ | ⟨-, -, rfl⟩⟩ := stepLog_form hi e
      · obtain ⟨T, Y, -, -, -, -, -, hk⟩ := hk
        split at hk
        · rw [(logTrajectory_only hk).2 hd]; exact ⟨rfl, rfl⟩
        · cases hk; exact ⟨rfl, rfl⟩
      · split at hk
        · obtain ⟨k1, k2, h1, h2, rfl⟩ := saveAll_form hi hk
          have s2 : k2 = k1 := by
            rcases h2 with ⟨-, c⟩ | ⟨-, -, T, -, h2⟩
            · exact c
            · exact (logTrajectory_only h2).2 hd
          obtain ⟨-, f⟩ := writeMatrix_only (L := L) k2 b.X.X (L.dir ++ matrixFile)
          obtain ⟨⟨-, f1⟩, -⟩ := logMeasurements_only h1
          rw [f _ n3, f _ n6, s2, f1 _ n1, f1 _ n4.symm]
          exact ⟨rfl, rfl⟩
        · cases hk; exact ⟨rfl, rfl⟩
      · exact ⟨rfl, rfl⟩
    exact ⟨same.1.trans ih.1, same.2.trans ih.2⟩

end Dpgo
