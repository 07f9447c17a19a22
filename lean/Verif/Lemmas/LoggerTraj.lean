import Verif.Lemmas.Logger

/-!
# Writing and reading trajectories
-/

namespace Dpgo.Logger

open Res Text Spec

/-- Rotation block of pose `i`. -/
def rotBlock (T : DMat ℝ) (i : Nat) : DMat ℝ := T.block 0 (i * (3 + 1)) 3 3

/-- The text of the row of pose `i`. -/
noncomputable def trajText (T : DMat ℝ) (i : Nat) : Str :=
  let q := Quat.ofMatrix (rotBlock T i).v
  commas [showNat i, showReal q.x, showReal q.y, showReal q.z, showReal q.w, showReal (T.v 0 (4 * i + 3)),
    showReal (T.v 1 (4 * i + 3)), showReal (T.v 2 (4 * i + 3))]

theorem trajRow_size {n : Nat} {T : DMat ℝ} (hr : T.rows = 3) (hc : T.cols = 4 * n) {i : Nat} (hi : i < n) :
    trajRow 3 T i = ok (trajText T i) := by
  have h1 : T.inRange 0 (i * (3 + 1)) 3 3 = true := by
    unfold DMat.inRange
    rw [hr, hc, decide_eq_true (by omega), decide_eq_true (by omega)]
    rfl
  have h2 : T.inRange 0 (i * (3 + 1) + 3) 3 1 = true := by
    unfold DMat.inRange
    rw [hr, hc, decide_eq_true (by omega), decide_eq_true (by omega)]
    rfl
  have e : ∀ a < 3, entry (T.block 0 (i * (3 + 1) + 3) 3 1) a = ok (T.v a (4 * i + 3)) := by
    intro a ha
    rw [entry_col rfl rfl ha]
    simp only [DMat.block]
    rw [show 0 + a = a by omega, show i * (3 + 1) + 3 + 0 = 4 * i + 3 by omega]
  unfold trajRow fixed3
  rw [h1, h2]
  simp only [require_true, ok_bind, e 0 (by norm_num), e 1 (by norm_num), e 2 (by norm_num), pure_eq]
  rfl

theorem trajRow_eq {n : Nat} {T : DMat ℝ} (h : Traj3 n T) {i : Nat} (hi : i < n) :
    trajRow 3 T i = ok (trajText T i) := trajRow_size h.rows h.cols hi

theorem trajText_plain (T : DMat ℝ) (i : Nat) : ∀ c ∈ trajText T i, c ≠ '\n' := by
  refine commas_plain ?_
  intro a ha
  simp only [List.mem_cons, List.not_mem_nil, or_false] at ha
  rcases ha with rfl | rfl | rfl | rfl | rfl | rfl | rfl | rfl <;>
    first | exact showNat_plain _ | exact showReal_plain _

/-- The pose read back. -/
noncomputable def backPose (T : DMat ℝ) (i : Nat) : DMat ℝ :=
  ⟨3, 4, fun a b => if b < 3 then (roundQuat (Quat.ofMatrix (rotBlock T i).v)).normalize.toRotation.v a b
    else (roundVec fun a => T.v a (4 * i + 3)).v a 0⟩

theorem loadPose_row (tok : Str) (T : DMat ℝ) {i : Nat} (hi : i < 2 ^ 31) :
    loadPose tok (trajText T i) = ok ((i, backPose T i), showReal (T.v 2 (4 * i + 3))) := by
  unfold loadPose trajText
  simp only [nextU32_row, if_pos hi, ok_bind, nextQuat_row, nextVec_end (fun a => T.v a (4 * i + 3)), pure_eq]
  rfl

theorem logT_eq {dir : Str} {k : Disk} {n : Nat} {T : DMat ℝ} {filename : Str}
    (hw : k.writable (dir ++ filename) = true) (h : Traj3 n T) (hn : 4 * n < 2 ^ 32) :
    logTrajectory dir k 3 n T filename =
      ok (k.write (dir ++ filename)
        (trajHeader ++ ['\n'] ++ (List.range n).flatMap fun i => trajText T i ++ ['\n'])) := by
  unfold logTrajectory
  rw [if_neg (by norm_num), h.rows, h.cols, u32_of_lt (by omega)]
  simp only [show (3 + 1) * n = 4 * n by omega, decide_true, check_true, ok_bind, hw, Bool.not_true,
    Bool.false_eq_true, if_false]
  rw [rows_eq fun i hi => trajRow_eq h (List.mem_range.1 hi)]
  rfl

theorem readT_loop (T : DMat ℝ) {l : List Nat} (h : ∀ i ∈ l, i < 2 ^ 31) (acc : List (Nat × DMat ℝ))
    (tok : Str) :
    ∃ tok', Res.foldl (fun (acc : List (Nat × DMat ℝ) × Str) line => do
      let (p, token) ← loadPose acc.2 line
      return (acc.1 ++ [p], token)) (acc, tok) (l.map (trajText T)) =
        ok (acc ++ l.map (fun i => (i, backPose T i)), tok') := by
  induction l generalizing acc tok with
  | nil => exact ⟨tok, by simp⟩
  | cons i l ih =>
    obtain ⟨tok', e⟩ := ih (fun x hx => h x (by simp [hx])) (acc ++ [(i, backPose T i)])
      (showReal (T.v 2 (4 * i + 3)))
    refine ⟨tok', ?_⟩
    rw [List.map_cons, foldl_cons, loadPose_row tok T (h i (by simp))]
    simp only [ok_bind, pure_eq, ok_bind']
    refine e.trans ?_
    simp

theorem find_table {β : Type} (f : Nat → β) {n i : Nat} (hi : i < n) :
    ((List.range n).map fun i => (i, f i)).find? (fun p => p.1 == i) = some (i, f i) := by
  induction n with
  | zero => omega
  | succ n ih =>
    rw [List.range_succ, List.map_append, List.find?_append]
    by_cases h : i < n
    · rw [ih h]; rfl
    · obtain rfl : i = n := by omega
      have : ((List.range i).map fun j => (j, f j)).find? (fun p => p.1 == i) = none := by
        rw [List.find?_eq_none]
        intro p hp
        obtain ⟨j, hj, rfl⟩ := List.mem_map.1 hp
        have := List.mem_range.1 hj
        simp; omega
      rw [this]
      simp

/-- The loop that places the blocks. -/
theorem place_loop {n : Nat} (hn : 4 * n < 2 ^ 32) (P : Nat → DMat ℝ) (hP : ∀ i, (P i).rows = 3 ∧ (P i).cols = 4)
    {m : Nat} (hm : m ≤ n) :
    ∃ T', Res.foldl (fun T i => do
      match ((List.range n).map fun i => (i, P i)).find? (fun p => p.1 == i) with
      | none => throws
      | some p =>
        require (T.inRange 0 (u32 (4 * i)) 3 4)
        return T.setBlock 0 (u32 (4 * i)) p.2) (DMat.zero 3 (4 * n) : DMat ℝ) (List.range m) = ok T' ∧
      T'.rows = 3 ∧ T'.cols = 4 * n ∧ ∀ i < m, ∀ a < 3, ∀ b < 4, T'.v a (4 * i + b) = (P i).v a b := by
  induction m with
  | zero => exact ⟨_, rfl, rfl, rfl, by omega⟩
  | succ m ih =>
    obtain ⟨T', e, h1, h2, h3⟩ := ih (by omega)
    refine ⟨T'.setBlock 0 (4 * m) (P m), ?_, h1, h2, ?_⟩
    · rw [List.range_succ, foldl_append, e, ok_bind', foldl_cons, find_table P (by omega)]
      have : T'.inRange 0 (u32 (4 * m)) 3 4 = true := by
        unfold DMat.inRange
        rw [h1, h2, u32_of_lt (by omega), decide_eq_true (by omega), decide_eq_true (by omega)]
        rfl
      simp only [this, require_true, ok_bind, pure_eq, ok_bind', foldl_nil]
      rw [u32_of_lt (by omega)]
    · intro i hi a ha b hb
      unfold DMat.setBlock
      simp only [(hP m).1, (hP m).2]
      by_cases hm : i = m
      · subst hm
        rw [if_pos (by omega), show a - 0 = a by omega, show 4 * i + b - 4 * i = b by omega]
      · rw [if_neg (by omega)]
        exact h3 i (by omega) a ha b hb

theorem loadT_eq {dir : Str} {k : Disk} {n : Nat} {T : DMat ℝ} {filename : Str} (hn : 4 * n < 2 ^ 32)
    (hf : k.file (dir ++ filename) =
      some (trajHeader ++ ['\n'] ++ (List.range n).flatMap fun i => trajText T i ++ ['\n'])) :
    ∃ T', loadTrajectory dir k filename = ok T' ∧ T'.rows = 3 ∧ T'.cols = 4 * n ∧
      ∀ i < n, ∀ a < 3, ∀ b < 4, T'.v a (4 * i + b) = (backPose T i).v a b := by
  obtain ⟨T', e, h⟩ := place_loop hn (backPose T) (fun _ => ⟨rfl, rfl⟩) (le_refl n)
  refine ⟨T', ?_, h⟩
  obtain ⟨tok', e'⟩ := readT_loop T (l := List.range n) (fun i hi => by have := List.mem_range.1 hi; omega) [] []
  unfold loadTrajectory
  rw [hf]
  simp only
  rw [body_rows trajHeader_plain fun i _ => trajText_plain T i, e']
  simp only [ok_bind, List.length_map, List.length_range, List.nil_append]
  rw [u32_of_lt (show n < 2 ^ 32 by omega), u32_of_lt hn]
  exact e

theorem backPose_logged {n : Nat} {T T' : DMat ℝ} (h : Traj3 n T) (h1 : T'.rows = 3) (h2 : T'.cols = 4 * n)
    (h3 : ∀ i < n, ∀ a < 3, ∀ b < 4, T'.v a (4 * i + b) = (backPose T i).v a b) : LoggedTraj n T T' := by
  have key : ∀ i < n, IsRot ((rotBlock T i).toMat 3 3) := by
    intro i hi
    have := h.rot i hi
    rwa [mul_comm 4 i] at this
  have cell : ∀ i a b, (rotBlock T i).v a b = T.v a (4 * i + b) := by
    intro i a b
    simp only [rotBlock, DMat.block]
    rw [show 0 + a = a by omega, show i * (3 + 1) + b = 4 * i + b by omega]
  have rot : ∀ i < n, ∀ a < 3, ∀ b < 3, T'.v a (4 * i + b) =
      (roundQuat (Quat.ofMatrix (rotBlock T i).v)).normalize.toRotation.v a b := by
    intro i hi a ha b hb
    rw [h3 i hi a ha b (by omega)]
    simp only [backPose, if_pos hb]
  refine ⟨⟨h1, h2, ?_⟩, ?_, ?_⟩
  · intro i hi
    obtain ⟨u, -⟩ := Quat.ofMatrix_spec (key i hi)
    have := Quat.toRotation_rot ((roundQuat_near _).normalize u).1
    convert this using 1
    ext a b
    simp only [DMat.toMat_apply, DMat.block]
    rw [show 0 + (a : Nat) = a by omega]
    exact rot i hi a a.2 b b.2
  · intro i hi a ha b hb
    obtain ⟨u, v⟩ := Quat.ofMatrix_spec (key i hi)
    rw [rot i hi a ha b hb, ← cell, ← v a ha b hb]
    exact (roundQuat_near _).rotation u a b
  · intro i hi a ha
    rw [h3 i hi a ha 3 (by norm_num)]
    rw [show (backPose T i).v a 3 = _ from roundVec_v (fun a => T.v a (4 * i + 3)) ha]
    exact rounded6_round6 _

end Dpgo.Logger
