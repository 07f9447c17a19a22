import Verif.Lemmas.LoggerTraj

/-!
# Logged measurements and trajectories (C57, C67)
-/

namespace Dpgo.Props

open Res Text Spec Logger

/-- A measurement with a quarter-like turn about the first axis. -/
def exLog : Meas ℝ where
  r1 := 0
  r2 := 3
  p1 := 17
  p2 := 5
  R := ⟨3, 3, fun i j => match i, j with
    | 0, 0 => 1
    | 1, 1 => 0.28
    | 1, 2 => -0.96
    | 2, 1 => 0.96
    | 2, 2 => 0.28
    | _, _ => 0⟩
  t := ⟨3, 1, fun i _ => match i with | 0 => 1.5 | 1 => -0.25 | _ => 100⟩
  kappa := 2500
  tau := 12.5
  fixedWeight := true
  weight := 0.75

theorem exLog_rot : exLog.R.toMat 3 3 = quatMatrix 0.6 0 0 0.8 := by
  ext i j
  fin_cases i <;> fin_cases j <;> simp [exLog, quatMatrix] <;> norm_num

theorem exLog_meas : Meas3 exLog := by
  refine ⟨rfl, rfl, ⟨?_, ?_⟩, rfl, rfl⟩
  · ext i j
    fin_cases i <;> fin_cases j <;>
      norm_num [exLog, Matrix.mul_apply, Fin.sum_univ_three, Matrix.one_apply]
  · rw [Matrix.det_fin_three]
    norm_num [exLog]

theorem sixDigits_int {m : Int} (h : |m| < 10 ^ 6) (e : Int) : SixDigits (m * (10 : ℝ) ^ e) := ⟨m, e, h, rfl⟩

theorem exLog_six : SixDigitMeas exLog := by
  have d : ∀ (m : Int) (e : Int) (x : ℝ), |m| < 10 ^ 6 → x = m * (10 : ℝ) ^ e → SixDigits x :=
    fun m e x h1 h2 => ⟨m, e, h1, h2⟩
  refine ⟨⟨0.6, 0, 0, 0.8, d 6 (-1) _ (by norm_num) (by norm_num), d 0 0 _ (by norm_num) (by norm_num),
    d 0 0 _ (by norm_num) (by norm_num), d 8 (-1) _ (by norm_num) (by norm_num), by norm_num, exLog_rot⟩, ?_,
    d 2500 0 _ (by norm_num) (by norm_num [exLog]), d 125 (-1) _ (by norm_num) (by norm_num [exLog]),
    d 75 (-2) _ (by norm_num) (by norm_num [exLog])⟩
  intro i hi
  interval_cases i
  · exact d 15 (-1) _ (by norm_num) (by norm_num [exLog])
  · exact d (-25) (-2) _ (by norm_num) (by norm_num [exLog])
  · exact d 100 0 _ (by norm_num) (by norm_num [exLog])

theorem exLog_ids : SmallIds exLog := ⟨by norm_num [exLog], by norm_num [exLog], by norm_num [exLog], by norm_num [exLog]⟩

/-- A disk on which everything can be written. -/
def exDisk : Disk := ⟨fun _ => none, fun _ => true⟩

/-- C57.  Full statement: loading the file written for a list of measurements in three dimensions gives the
list back, in order, with the same endpoints and the same numbers.  Proved for nonempty lists whose indices
fit in an `int`: endpoints, order, length and the flag are the same, every number is the nearest one with six
significant digits, every rotation is a rotation within `10⁻⁴` of the original; no other file changes.
Missing: the digits after the sixth, larger indices, empty lists (see the next theorems). -/
theorem C57_roundtrip_partial (dir filename : Str) (k : Disk) (ms : List (Meas ℝ)) (lw : Bool)
    (hw : k.writable (dir ++ filename) = true) (hne : ms ≠ []) (h3 : ∀ m ∈ ms, Meas3 m)
    (hid : ∀ m ∈ ms, SmallIds m) :
    ∃ k', logMeasurements dir k ms filename = ok k' ∧
      (∀ p, p ≠ dir ++ filename → k'.file p = k.file p) ∧
      ∃ ms', loadMeasurements k' (dir ++ filename) lw = ok ms' ∧ List.Forall₂ (Logged lw) ms ms' := by
  refine ⟨_, log_eq hw hne h3, ?_, _, load_eq lw ?_ hid, ?_⟩
  · intro p hp
    simp [Disk.write, hp]
  · simp [Disk.write]
  · rw [List.forall₂_map_right_iff]
    exact List.forall₂_same.2 fun m hm => readBack_logged lw (h3 m hm)

example : exDisk.writable ("/logs/".toList ++ "m.csv".toList) = true ∧ [exLog, exLog] ≠ [] ∧
    (∀ m ∈ [exLog, exLog], Meas3 m) ∧ ∀ m ∈ [exLog, exLog], SmallIds m :=
  ⟨rfl, by simp, by simp [exLog_meas], by simp [exLog_ids]⟩

/-- C57, the exact part: when all numbers have six digits, and the rotations are those of quaternions with six
digits, the measurements come back unchanged. -/
theorem C57_exact (dir filename : Str) (k : Disk) (ms : List (Meas ℝ))
    (hw : k.writable (dir ++ filename) = true) (hne : ms ≠ []) (h3 : ∀ m ∈ ms, Meas3 m)
    (hid : ∀ m ∈ ms, SmallIds m) (h6 : ∀ m ∈ ms, SixDigitMeas m) :
    ∃ k' ms', logMeasurements dir k ms filename = ok k' ∧
      loadMeasurements k' (dir ++ filename) true = ok ms' ∧ List.Forall₂ SameMeas ms ms' := by
  refine ⟨_, _, log_eq hw hne h3, load_eq true ?_ hid, ?_⟩
  · simp [Disk.write]
  · rw [List.forall₂_map_right_iff]
    exact List.forall₂_same.2 fun m hm => readBack_exact (h3 m hm) (h6 m hm)

example : (∀ m ∈ [exLog], Meas3 m) ∧ (∀ m ∈ [exLog], SmallIds m) ∧ ∀ m ∈ [exLog], SixDigitMeas m :=
  ⟨by simp [exLog_meas], by simp [exLog_ids], by simp [exLog_six]⟩

/-- The relative error of a number written with six significant digits. -/
theorem C57_error {x y : ℝ} (h : Rounded6 x y) : |y - x| ≤ 5 / 10 ^ 6 * |x| := by
  have := h.2 _ (rounded6_round6 x).1
  rw [abs_sub_comm y x]
  rw [abs_sub_comm x (round6 x)] at this
  exact this.trans (round6_error x)

example : Rounded6 1234567 1234570 := by
  refine ⟨⟨123457, 1, by norm_num, by norm_num⟩, ?_⟩
  intro z ⟨k, f, hk, hk'⟩
  rw [show |(1234567 : ℝ) - 1234570| = 3 by norm_num]
  subst hk'
  by_contra hlt
  push Not at hlt
  rw [abs_lt] at hlt
  rcases lt_trichotomy f 0 with hf | rfl | hf
  · have h1 : (10 : ℝ) ^ f ≤ 1 := zpow_le_one_of_nonpos₀ (by norm_num) hf.le
    have h2 : (k : ℝ) < 10 ^ 6 := by
      have := lt_of_le_of_lt (le_abs_self k) hk
      exact_mod_cast this
    have h3 : (0 : ℝ) < (10 : ℝ) ^ f := by positivity
    have h4 : (k : ℝ) * (10 : ℝ) ^ f ≤ 10 ^ 6 := by nlinarith
    norm_num at h4
    linarith
  · have h2 : (k : ℝ) < 10 ^ 6 := by
      have := lt_of_le_of_lt (le_abs_self k) hk
      exact_mod_cast this
    norm_num at hlt h2
    linarith
  · obtain ⟨j, rfl⟩ : ∃ j : Nat, f = j + 1 := ⟨(f - 1).toNat, by omega⟩
    have e : (k : ℝ) * (10 : ℝ) ^ ((j : Int) + 1) = ((10 * (k * 10 ^ j) : Int) : ℝ) := by
      rw [zpow_add₀ (by norm_num), zpow_natCast, zpow_one]
      push_cast
      ring
    rw [e] at hlt
    generalize k * 10 ^ j = w at hlt
    have a1 : (1234564 : ℝ) < ((10 * w : Int) : ℝ) := by linarith
    have a2 : ((10 * w : Int) : ℝ) < 1234570 := by linarith
    have a1' : (1234564 : Int) < 10 * w := by exact_mod_cast a1
    have a2' : 10 * w < (1234570 : Int) := by exact_mod_cast a2
    omega

/-- A seventh digit is not written. -/
theorem not_sixDigits : ¬ SixDigits 1234567 := by
  rintro ⟨m, e, hm, h⟩
  have hm' : (m : ℝ) < 10 ^ 6 := by
    have := lt_of_le_of_lt (le_abs_self m) hm
    exact_mod_cast this
  by_cases he : e ≤ 0
  · have h1 : (10 : ℝ) ^ e ≤ 1 := zpow_le_one_of_nonpos₀ (by norm_num) he
    have h3 : (0 : ℝ) < (10 : ℝ) ^ e := by positivity
    have h4 : (m : ℝ) * (10 : ℝ) ^ e ≤ 10 ^ 6 := by nlinarith
    rw [← h] at h4
    norm_num at h4
  · obtain ⟨j, rfl⟩ : ∃ j : Nat, e = j + 1 := ⟨(e - 1).toNat, by omega⟩
    have e : (m : ℝ) * (10 : ℝ) ^ ((j : Int) + 1) = ((10 * (m * 10 ^ j) : Int) : ℝ) := by
      rw [zpow_add₀ (by norm_num), zpow_natCast, zpow_one]
      push_cast
      ring
    rw [e] at h
    have h' : (1234567 : Int) = 10 * (m * 10 ^ j) := by exact_mod_cast h
    omega

/-- C57 is violated: the precision `1234567` of a measurement in three dimensions does not come back. -/
theorem C57_violated :
    ∃ (dir filename : Str) (k : Disk) (m : Meas ℝ), k.writable (dir ++ filename) = true ∧ Meas3 m ∧ SmallIds m ∧
      ∃ k' ms', logMeasurements dir k [m] filename = ok k' ∧
        loadMeasurements k' (dir ++ filename) true = ok ms' ∧ ∀ m' ∈ ms', m'.kappa ≠ m.kappa := by
  let m : Meas ℝ := { exLog with kappa := 1234567 }
  have h3 : Meas3 m := ⟨rfl, rfl, exLog_meas.rot, rfl, rfl⟩
  have hid : SmallIds m := ⟨exLog_ids.r1, exLog_ids.p1, exLog_ids.r2, exLog_ids.p2⟩
  refine ⟨[], "m.csv".toList, exDisk, m, rfl, h3, hid, _, _,
    log_eq rfl (by simp) (by simpa using h3), load_eq true (ms := [m]) ?_ (by simpa using hid), ?_⟩
  · simp [Disk.write]
  · intro m' hm'
    simp only [List.map_cons, List.map_nil, List.mem_singleton] at hm'
    subst hm'
    intro h
    refine not_sixDigits ?_
    have : SixDigits (readBack true m).kappa := (rounded6_round6 _).1
    rw [h] at this
    exact this

/-- C57 is violated: an index that does not fit in an `int` is written, but loading the file throws. -/
theorem C57_large_index (dir filename : Str) (k : Disk) (ms : List (Meas ℝ)) (lw : Bool)
    (hw : k.writable (dir ++ filename) = true) (h3 : ∀ m ∈ ms, Meas3 m) (hid : ∃ m ∈ ms, ¬ SmallIds m) :
    ∃ k', logMeasurements dir k ms filename = ok k' ∧ loadMeasurements k' (dir ++ filename) lw = throws := by
  have hne : ms ≠ [] := by
    rintro rfl
    obtain ⟨m, hm, -⟩ := hid
    simp at hm
  refine ⟨_, log_eq hw hne h3, load_big lw ?_ hid⟩
  simp [Disk.write]

example : Meas3 { exLog with p2 := 2 ^ 31 } ∧ ¬ SmallIds { exLog with p2 := 2 ^ 31 } :=
  ⟨⟨rfl, rfl, exLog_meas.rot, rfl, rfl⟩, fun h => by have := h.p2; simp at this⟩

/-- Logging an empty list leaves the disk as it was, so that loading gives the measurements of an earlier
list. -/
theorem C57_empty_list (dir filename : Str) (k : Disk) (ms : List (Meas ℝ))
    (hw : k.writable (dir ++ filename) = true) (hne : ms ≠ []) (h3 : ∀ m ∈ ms, Meas3 m)
    (hid : ∀ m ∈ ms, SmallIds m) :
    ∃ k' ms', logMeasurements dir k ms filename = ok k' ∧ logMeasurements dir k' [] filename = ok k' ∧
      loadMeasurements k' (dir ++ filename) true = ok ms' ∧ ms'.length = ms.length := by
  refine ⟨_, _, log_eq hw hne h3, rfl, load_eq true ?_ hid, ?_⟩
  · simp [Disk.write]
  · simp

example : [exLog] ≠ [] ∧ (∀ m ∈ [exLog], Meas3 m) ∧ ∀ m ∈ [exLog], SmallIds m :=
  ⟨by simp, by simp [exLog_meas], by simp [exLog_ids]⟩

/-- Measurements in the plane are not written: the file is emptied, and nothing comes back. -/
theorem C57_planar (dir filename : Str) (k : Disk) (m : Meas ℝ) (ms : List (Meas ℝ)) (lw : Bool)
    (hw : k.writable (dir ++ filename) = true) (h2 : m.R.rows = 2) :
    ∃ k', logMeasurements dir k (m :: ms) filename = ok k' ∧ loadMeasurements k' (dir ++ filename) lw = ok [] := by
  refine ⟨k.write (dir ++ filename) [], ?_, ?_⟩
  · unfold logMeasurements
    simp only [hw, h2, Bool.not_true, Bool.false_eq_true, if_false, if_true]
  · unfold loadMeasurements
    simp [Disk.write, lines]

example : ({ exLog with R := DMat.one 2 2 } : Meas ℝ).R.rows = 2 := rfl

/-! ### Trajectories -/

/-- C67: loading the file written for a trajectory in three dimensions gives a trajectory of as many poses in
the same order: translations rounded to six digits, rotations that are rotations within `10⁻⁴`; no other file
changes.  The bound is that of the 32-bit column count. -/
theorem C67_roundtrip (dir filename : Str) (k : Disk) (n : Nat) (T : DMat ℝ)
    (hw : k.writable (dir ++ filename) = true) (hT : Traj3 n T) (hn : 4 * n < 2 ^ 32) :
    ∃ k', logTrajectory dir k 3 n T filename = ok k' ∧ (∀ p, p ≠ dir ++ filename → k'.file p = k.file p) ∧
      ∃ T', loadTrajectory dir k' filename = ok T' ∧ LoggedTraj n T T' := by
  refine ⟨_, logT_eq hw hT hn, ?_, ?_⟩
  · intro p hp
    simp [Disk.write, hp]
  · obtain ⟨T', e, h1, h2, h3⟩ := loadT_eq (dir := dir) (k := k.write (dir ++ filename)
      (trajHeader ++ ['\n'] ++ (List.range n).flatMap fun i => trajText T i ++ ['\n'])) (filename := filename)
      (T := T) hn (by simp [Disk.write])
    exact ⟨T', e, backPose_logged hT h1 h2 h3⟩

/-- Two poses, the second turned about the first axis. -/
def exLogTraj : DMat ℝ := ⟨3, 8, fun a b =>
  if b < 4 then (if a = b then 1 else 0) else if b < 7 then exLog.R.v a (b - 4) else exLog.t.v a 0⟩

theorem exLogTraj_traj : Traj3 2 exLogTraj := by
  refine ⟨rfl, rfl, ?_⟩
  intro i hi
  interval_cases i
  · have : (exLogTraj.block 0 (4 * 0) 3 3).toMat 3 3 = 1 := by
      ext a b
      fin_cases a <;> fin_cases b <;> simp [exLogTraj, DMat.block]
    rw [this]
    exact ⟨by simp, by simp⟩
  · have : (exLogTraj.block 0 (4 * 1) 3 3).toMat 3 3 = exLog.R.toMat 3 3 := by
      ext a b
      fin_cases a <;> fin_cases b <;> simp [exLogTraj, DMat.block]
    rw [this]
    exact exLog_meas.rot

example : exDisk.writable ("/logs/".toList ++ "t.csv".toList) = true ∧ Traj3 2 exLogTraj ∧ 4 * 2 < 2 ^ 32 :=
  ⟨rfl, exLogTraj_traj, by norm_num⟩

/-- C67: logging writes only the named file, whatever the arguments, and only with a matrix of the announced
size; in the plane it writes nothing at all. -/
theorem C67_writes (dir filename : Str) (k k' : Disk) (d n : Nat) (T : DMat ℝ)
    (h : logTrajectory dir k d n T filename = ok k') :
    (∀ p, p ≠ dir ++ filename → k'.file p = k.file p) ∧ (d = 2 → k' = k) ∧
      (d ≠ 2 → T.rows = d ∧ T.cols = (d + 1) * n % 2 ^ 32) := by
  unfold logTrajectory at h
  by_cases hd : d = 2
  · rw [if_pos hd] at h
    cases h
    exact ⟨fun _ _ => rfl, fun _ => rfl, fun h => absurd hd h⟩
  · rw [if_neg hd] at h
    simp only [bind_eq_ok, check_eq_ok, decide_eq_true_eq] at h
    obtain ⟨-, h1, -, h2, h⟩ := h
    refine ⟨?_, fun h => absurd h hd, fun _ => ⟨h1, h2⟩⟩
    by_cases hw : k.writable (dir ++ filename) = true
    · simp only [hw, Bool.not_true, Bool.false_eq_true, if_false, bind_eq_ok, pure_eq] at h
      obtain ⟨text, -, h⟩ := h
      cases h
      intro p hp
      simp [Disk.write, hp]
    · simp only [hw, Bool.not_false, if_true] at h
      cases h
      exact fun _ _ => rfl

example : ∃ k', logTrajectory [] exDisk 3 2 exLogTraj "t.csv".toList = ok k' :=
  ⟨_, logT_eq rfl exLogTraj_traj (by norm_num)⟩

end Dpgo.Props
