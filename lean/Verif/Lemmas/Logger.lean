import Verif.Model.Logger
import Verif.Spec.Logger
import Verif.Lemmas.TextRound
import Verif.Lemmas.QuaternionNear
import Verif.Lemmas.Ids

/-!
# Writing and reading rows
-/

namespace Dpgo.Logger

open Res Text Spec

/-- Fields without separators. -/
def Plain (s : Str) : Prop := ∀ c ∈ s, c ≠ ',' ∧ c ≠ '\n'

theorem Plain.comma {s : Str} (h : Plain s) : ∀ c ∈ s, c ≠ ',' := fun c hc => (h c hc).1

theorem field_row {a : Str} (h : Plain a) (tok b : Str) (l : List Str) :
    field tok (some (commas (a :: b :: l))) = (a, some (commas (b :: l))) := field_comma h.comma tok _

theorem field_end {a : Str} (h : Plain a) (tok : Str) : field tok (some (commas [a])) = (a, none) :=
  field_last h.comma tok

theorem commas_plain {l : List Str} (h : ∀ a ∈ l, Plain a) : ∀ c ∈ commas l, c ≠ '\n' := by
  induction l with
  | nil => intro c hc; simp [commas] at hc
  | cons a l ih =>
    cases l with
    | nil => intro c hc; exact (h a (by simp) c hc).2
    | cons b l =>
      intro c hc
      rw [commas, List.mem_append, List.mem_cons] at hc
      rcases hc with hc | rfl | hc
      · exact (h a (by simp) c hc).2
      · decide
      · exact ih (fun x hx => h x (by simp only [List.mem_cons] at hx ⊢; exact Or.inr hx)) c hc
      · intro e; cases e

theorem nextU32_row (k : Nat) (tok b : Str) (l : List Str) :
    nextU32 (tok, some (commas (showNat k :: b :: l))) =
      if k < 2 ^ 31 then ok (k, (showNat k, some (commas (b :: l)))) else throws := by
  unfold nextU32
  simp only [field_row (showNat_plain k), stoi_showNat]
  by_cases h : k < 2 ^ 31
  · rw [if_pos h, if_pos h]
    simp only [ok_bind, pure_eq]
    congr 2
    omega
  · rw [if_neg h, if_neg h]; rfl

theorem nextReal_row (x : ℝ) (tok b : Str) (l : List Str) :
    nextReal (tok, some (commas (showReal x :: b :: l))) =
      ok (round6 x, (showReal x, some (commas (b :: l)))) := by
  unfold nextReal
  simp only [field_row (showReal_plain x), stod_showReal, ok_bind, pure_eq]

theorem nextReal_end (x : ℝ) (tok : Str) :
    nextReal (tok, some (commas [showReal x])) = ok (round6 x, (showReal x, none)) := by
  unfold nextReal
  simp only [field_end (showReal_plain x), stod_showReal, ok_bind, pure_eq]

theorem nextBool_row (v : Bool) (tok b : Str) (l : List Str) :
    nextBool (tok, some (commas (showBool v :: b :: l))) = ok (v, (showBool v, some (commas (b :: l)))) := by
  unfold nextBool
  simp only [field_row (showBool_plain v), stoi_showBool, ok_bind, pure_eq]
  cases v <;> rfl

/-- Quaternion with rounded coefficients. -/
noncomputable def roundQuat (q : Quat) : Quat := ⟨round6 q.x, round6 q.y, round6 q.z, round6 q.w⟩

theorem roundQuat_near (q : Quat) : Quat.Near q (roundQuat q) :=
  ⟨round6_error _, round6_error _, round6_error _, round6_error _⟩

theorem nextQuat_row (q : Quat) (tok b : Str) (l : List Str) :
    nextQuat (tok, some (commas (showReal q.x :: showReal q.y :: showReal q.z :: showReal q.w :: b :: l))) =
      ok ((roundQuat q).normalize, (showReal q.w, some (commas (b :: l)))) := by
  unfold nextQuat
  simp only [nextReal_row, ok_bind, pure_eq]
  rfl

/-- Vector with rounded entries. -/
noncomputable def roundVec (t : Nat → ℝ) : DMat ℝ :=
  ⟨3, 1, fun i _ => match i with | 0 => round6 (t 0) | 1 => round6 (t 1) | 2 => round6 (t 2) | _ => 0⟩

theorem roundVec_v (t : Nat → ℝ) {i : Nat} (h : i < 3) : (roundVec t).v i 0 = round6 (t i) := by
  interval_cases i <;> rfl

theorem nextVec_row (t : Nat → ℝ) (tok b : Str) (l : List Str) :
    nextVec (tok, some (commas (showReal (t 0) :: showReal (t 1) :: showReal (t 2) :: b :: l))) =
      ok (roundVec t, (showReal (t 2), some (commas (b :: l)))) := by
  unfold nextVec
  simp only [nextReal_row, ok_bind, pure_eq]
  rfl

theorem nextVec_end (t : Nat → ℝ) (tok : Str) :
    nextVec (tok, some (commas [showReal (t 0), showReal (t 1), showReal (t 2)])) =
      ok (roundVec t, (showReal (t 2), none)) := by
  unfold nextVec
  simp only [nextReal_row, nextReal_end, ok_bind, pure_eq]
  rfl

/-- The text of a row of a measurement in three dimensions. -/
noncomputable def rowText (m : Meas ℝ) : Str :=
  let q := Quat.ofMatrix m.R.v
  commas [showNat m.r1, showNat m.p1, showNat m.r2, showNat m.p2, showReal q.x, showReal q.y,
    showReal q.z, showReal q.w, showReal (m.t.v 0 0), showReal (m.t.v 1 0), showReal (m.t.v 2 0),
    showReal m.kappa, showReal m.tau, showBool m.fixedWeight, showReal m.weight]

theorem entry_col {A : DMat ℝ} (hr : A.rows = 3) (hc : A.cols = 1) {k : Nat} (hk : k < 3) :
    entry A k = ok (A.v k 0) := by
  unfold entry
  rw [hr, hc, Nat.mod_eq_of_lt hk, Nat.div_eq_of_lt hk, decide_eq_true (by omega)]
  rfl

theorem measRow_size {m : Meas ℝ} (h : m.R.rows = 3 ∧ m.R.cols = 3 ∧ m.t.rows = 3 ∧ m.t.cols = 1) : measRow m = ok (rowText m) := by
  obtain ⟨h1, h2, h3, h4⟩ := h
  unfold measRow fixed3
  rw [h1, h2, entry_col h3 h4 (by norm_num), entry_col h3 h4 (by norm_num), entry_col h3 h4 (by norm_num)]
  rfl

theorem measRow_eq {m : Meas ℝ} (h : Meas3 m) : measRow m = ok (rowText m) :=
  measRow_size ⟨h.R_rows, h.R_cols, h.t_rows, h.t_cols⟩

theorem rowText_plain (m : Meas ℝ) : ∀ c ∈ rowText m, c ≠ '\n' := by
  refine commas_plain ?_
  intro a ha
  simp only [List.mem_cons, List.not_mem_nil, or_false] at ha
  rcases ha with rfl | rfl | rfl | rfl | rfl | rfl | rfl | rfl | rfl | rfl | rfl | rfl | rfl | rfl | rfl <;>
    first | exact showNat_plain _ | exact showReal_plain _ | exact showBool_plain _

/-- What is read back from a row. -/
noncomputable def readBack (lw : Bool) (m : Meas ℝ) : Meas ℝ where
  r1 := m.r1
  r2 := m.r2
  p1 := m.p1
  p2 := m.p2
  R := (roundQuat (Quat.ofMatrix m.R.v)).normalize.toRotation
  t := roundVec fun i => m.t.v i 0
  kappa := round6 m.kappa
  tau := round6 m.tau
  fixedWeight := m.fixedWeight
  weight := if lw then round6 m.weight else 1

theorem loadMeas_row (lw : Bool) (tok : Str) {m : Meas ℝ} (h : SmallIds m) :
    loadMeas lw tok (rowText m) = ok (readBack lw m, showReal m.weight) := by
  unfold loadMeas rowText
  simp only [nextU32_row, if_pos h.r1, if_pos h.p1, if_pos h.r2, if_pos h.p2, ok_bind, nextQuat_row,
    nextVec_row (fun i => m.t.v i 0), nextReal_row, nextReal_end, nextBool_row, pure_eq]
  cases lw <;> rfl

theorem loadMeas_big (lw : Bool) (tok : Str) {m : Meas ℝ} (h : ¬ SmallIds m) :
    loadMeas lw tok (rowText m) = throws := by
  unfold loadMeas rowText
  simp only [nextU32_row]
  by_cases h1 : m.r1 < 2 ^ 31
  · by_cases h2 : m.p1 < 2 ^ 31
    · by_cases h3 : m.r2 < 2 ^ 31
      · by_cases h4 : m.p2 < 2 ^ 31
        · exact absurd ⟨h1, h2, h3, h4⟩ h
        · simp only [if_pos h1, if_pos h2, if_pos h3, if_neg h4, ok_bind, throws_bind, nextU32_row]
      · simp only [if_pos h1, if_pos h2, if_neg h3, ok_bind, throws_bind, nextU32_row]
    · simp only [if_pos h1, if_neg h2, ok_bind, throws_bind, nextU32_row]
  · simp only [if_neg h1, throws_bind]

/-- Rows as text. -/
theorem rows_eq {α : Type} {row : α → Res Str} {text : α → Str} {l : List α}
    (h : ∀ a ∈ l, row a = ok (text a)) (s : Str) :
    rows row s l = ok (s ++ l.flatMap fun a => text a ++ ['\n']) := by
  unfold rows
  induction l generalizing s with
  | nil => simp
  | cons a l ih =>
    rw [foldl_cons, h a (by simp)]
    simp only [ok_bind, pure_eq, ok_bind']
    refine (ih (fun x hx => h x (by simp [hx])) _).trans ?_
    simp

theorem lines_rows {α : Type} {text : α → Str} {l : List α} (h : ∀ a ∈ l, ∀ c ∈ text a, c ≠ '\n') :
    lines (l.flatMap fun a => text a ++ ['\n']) = l.map text := by
  induction l with
  | nil => rfl
  | cons a l ih =>
    rw [List.flatMap_cons, List.append_assoc, List.singleton_append, lines_append (h a (by simp)),
      ih (fun x hx => h x (by simp [hx])), List.map_cons]

theorem measHeader_plain : ∀ c ∈ measHeader, c ≠ '\n' := by
  unfold measHeader
  decide

theorem trajHeader_plain : ∀ c ∈ trajHeader, c ≠ '\n' := by
  unfold trajHeader
  decide

theorem body_rows {α : Type} {hdr : Str} (hh : ∀ c ∈ hdr, c ≠ '\n') {text : α → Str} {l : List α}
    (h : ∀ a ∈ l, ∀ c ∈ text a, c ≠ '\n') :
    (lines (hdr ++ ['\n'] ++ l.flatMap fun a => text a ++ ['\n'])).tail = l.map text := by
  rw [List.append_assoc, List.singleton_append, lines_append hh, List.tail_cons, lines_rows h]

theorem log_eq {dir : Str} {k : Disk} {ms : List (Meas ℝ)} {filename : Str} (hw : k.writable (dir ++ filename) = true)
    (hne : ms ≠ []) (h3 : ∀ m ∈ ms, Meas3 m) :
    logMeasurements dir k ms filename =
      ok (k.write (dir ++ filename) (measHeader ++ ['\n'] ++ ms.flatMap fun m => rowText m ++ ['\n'])) := by
  cases ms with
  | nil => exact absurd rfl hne
  | cons m0 l =>
    unfold logMeasurements
    simp only [hw, Bool.not_true, Bool.false_eq_true, if_false, (h3 m0 (by simp)).R_rows,
      show ¬ ((3 : Nat) = 2) by decide, rows_eq fun m hm => measRow_eq (h3 m hm), ok_bind, pure_eq]

/-- The reading loop of a measurement file. -/
theorem read_loop (lw : Bool) {ms : List (Meas ℝ)} (h : ∀ m ∈ ms, SmallIds m) (acc : List (Meas ℝ)) (tok : Str) :
    ∃ tok', Res.foldl (fun (acc : List (Meas ℝ) × Str) line => do
      let (m, token) ← loadMeas lw acc.2 line
      return (acc.1 ++ [m], token)) (acc, tok) (ms.map rowText) = ok (acc ++ ms.map (readBack lw), tok') := by
  induction ms generalizing acc tok with
  | nil => exact ⟨tok, by simp⟩
  | cons m l ih =>
    obtain ⟨tok', e⟩ := ih (fun x hx => h x (by simp [hx])) (acc ++ [readBack lw m]) (showReal m.weight)
    refine ⟨tok', ?_⟩
    rw [List.map_cons, foldl_cons, loadMeas_row lw tok (h m (by simp))]
    simp only [ok_bind, pure_eq, ok_bind']
    refine e.trans ?_
    simp

theorem read_loop_big (lw : Bool) {ms : List (Meas ℝ)} (h : ∃ m ∈ ms, ¬ SmallIds m) (acc : List (Meas ℝ))
    (tok : Str) :
    Res.foldl (fun (acc : List (Meas ℝ) × Str) line => do
      let (m, token) ← loadMeas lw acc.2 line
      return (acc.1 ++ [m], token)) (acc, tok) (ms.map rowText) = throws := by
  induction ms generalizing acc tok with
  | nil => obtain ⟨m, hm, -⟩ := h; simp at hm
  | cons m l ih =>
    rw [List.map_cons, foldl_cons]
    by_cases hm : SmallIds m
    · rw [loadMeas_row lw tok hm]
      simp only [ok_bind, pure_eq, ok_bind']
      refine ih ?_ _ _
      obtain ⟨x, hx, hb⟩ := h
      rcases List.mem_cons.1 hx with rfl | hx
      · exact absurd hm hb
      · exact ⟨x, hx, hb⟩
    · rw [loadMeas_big lw tok hm]
      rfl

theorem load_eq {k : Disk} {path : Str} {ms : List (Meas ℝ)} (lw : Bool)
    (hf : k.file path = some (measHeader ++ ['\n'] ++ ms.flatMap fun m => rowText m ++ ['\n']))
    (h : ∀ m ∈ ms, SmallIds m) : loadMeasurements k path lw = ok (ms.map (readBack lw)) := by
  unfold loadMeasurements
  rw [hf]
  simp only
  rw [body_rows measHeader_plain fun m _ => rowText_plain m]
  obtain ⟨tok', e⟩ := read_loop lw h [] []
  rw [e]
  rfl

theorem load_big {k : Disk} {path : Str} {ms : List (Meas ℝ)} (lw : Bool)
    (hf : k.file path = some (measHeader ++ ['\n'] ++ ms.flatMap fun m => rowText m ++ ['\n']))
    (h : ∃ m ∈ ms, ¬ SmallIds m) : loadMeasurements k path lw = throws := by
  unfold loadMeasurements
  rw [hf]
  simp only
  rw [body_rows measHeader_plain fun m _ => rowText_plain m, read_loop_big lw h]
  rfl

/-- What is read back is the logged measurement. -/
theorem readBack_logged (lw : Bool) {m : Meas ℝ} (h : Meas3 m) : Logged lw m (readBack lw m) := by
  obtain ⟨h1, h2⟩ := Quat.ofMatrix_spec h.rot
  refine ⟨rfl, rfl, rfl, rfl, ⟨rfl, rfl, ?_, rfl, rfl⟩, ?_, ?_, rounded6_round6 _, rounded6_round6 _, rfl, ?_⟩
  · exact Quat.toRotation_rot ((roundQuat_near _).normalize h1).1
  · intro i hi j hj
    rw [← h2 i hi j hj]
    exact (roundQuat_near _).rotation h1 i j
  · intro i hi
    rw [show (readBack lw m).t.v i 0 = _ from roundVec_v (fun i => m.t.v i 0) hi]
    exact rounded6_round6 _
  · cases lw
    · rfl
    · exact rounded6_round6 _

/-! ### Six digits are kept -/

theorem round6_eq {x : ℝ} (h : SixDigits x) : round6 x = x := Rounded6.eq (rounded6_round6 x) h

/-- Two unit quaternions of one rotation differ by a sign. -/
theorem quat_sign {m : Nat → Nat → ℝ} {p q : Quat} (hp : Quat.Products m p) (hq : Quat.Products m q) :
    p = q ∨ p = ⟨-q.x, -q.y, -q.z, -q.w⟩ := by
  obtain ⟨px, py, pz, pw⟩ := p
  obtain ⟨qx, qy, qz, qw⟩ := q
  obtain ⟨axx, ayy, azz, aww, axy, axz, ayz, awx, awy, awz⟩ := hp
  obtain ⟨bxx, byy, bzz, bww, bxy, bxz, byz, bwx, bwy, bwz⟩ := hq
  simp only [Quat.mk.injEq] at *
  have n : qx * qx + qy * qy + qz * qz + qw * qw = 1 := by linarith
  -- the inner product of both squares to one
  have c : (px * qx + py * qy + pz * qz + pw * qw) * (px * qx + py * qy + pz * qz + pw * qw) = 1 := by
    have e : (px * qx + py * qy + pz * qz + pw * qw) * (px * qx + py * qy + pz * qz + pw * qw) =
        (px * px) * (qx * qx) + (py * py) * (qy * qy) + (pz * pz) * (qz * qz) + (pw * pw) * (qw * qw) +
        2 * ((px * py) * (qx * qy) + (px * pz) * (qx * qz) + (py * pz) * (qy * qz) + (pw * px) * (qw * qx) +
          (pw * py) * (qw * qy) + (pw * pz) * (qw * qz)) := by ring
    rw [e, show px * px = qx * qx by linarith, show py * py = qy * qy by linarith,
      show pz * pz = qz * qz by linarith, show pw * pw = qw * qw by linarith, show px * py = qx * qy by linarith,
      show px * pz = qx * qz by linarith, show py * pz = qy * qz by linarith, show pw * px = qw * qx by linarith,
      show pw * py = qw * qy by linarith, show pw * pz = qw * qz by linarith]
    calc _ = (qx * qx + qy * qy + qz * qz + qw * qw) * (qx * qx + qy * qy + qz * qz + qw * qw) := by ring
      _ = 1 := by rw [n]; ring
  have m' : px * px + py * py + pz * pz + pw * pw = 1 := by linarith
  rcases mul_self_eq_one_iff.1 c with c | c
  · left
    have s : (px - qx) ^ 2 + (py - qy) ^ 2 + (pz - qz) ^ 2 + (pw - qw) ^ 2 = 0 := by linarith [c, n, m']
    have := sq_nonneg (px - qx); have := sq_nonneg (py - qy); have := sq_nonneg (pz - qz)
    have := sq_nonneg (pw - qw)
    refine ⟨?_, ?_, ?_, ?_⟩ <;> rw [← sub_eq_zero] <;> refine pow_eq_zero_iff (n := 2) (by norm_num) |>.1 ?_ <;>
      linarith
  · right
    have s : (px + qx) ^ 2 + (py + qy) ^ 2 + (pz + qz) ^ 2 + (pw + qw) ^ 2 = 0 := by linarith [c, n, m']
    have := sq_nonneg (px + qx); have := sq_nonneg (py + qy); have := sq_nonneg (pz + qz)
    have := sq_nonneg (pw + qw)
    refine ⟨?_, ?_, ?_, ?_⟩ <;> rw [← add_eq_zero_iff_eq_neg] <;>
      refine pow_eq_zero_iff (n := 2) (by norm_num) |>.1 ?_ <;> linarith

theorem roundQuat_exact {A : DMat ℝ} (hr : IsRot (A.toMat 3 3)) (h : SixDigitRot (A.toMat 3 3)) :
    roundQuat (Quat.ofMatrix A.v) = Quat.ofMatrix A.v := by
  obtain ⟨x, y, z, w, hx, hy, hz, hw, hn, hR⟩ := h
  have e := fun i j => congrFun (congrFun hR i) j
  have hp : Quat.Products A.v ⟨x, y, z, w⟩ := by
    have e00 := e 0 0; have e01 := e 0 1; have e02 := e 0 2
    have e10 := e 1 0; have e11 := e 1 1; have e12 := e 1 2
    have e20 := e 2 0; have e21 := e 2 1; have e22 := e 2 2
    simp [quatMatrix] at e00 e01 e02 e10 e11 e12 e20 e21 e22
    constructor <;> simp only <;> nlinarith
  rcases quat_sign (Quat.ofMatrix_products (Quat.rotEqs hr)) hp with q | q
  · rw [q]
    simp only [roundQuat, round6_eq hx, round6_eq hy, round6_eq hz, round6_eq hw]
  · rw [q]
    simp only [roundQuat, round6_eq (sixDigits_neg hx), round6_eq (sixDigits_neg hy), round6_eq (sixDigits_neg hz),
      round6_eq (sixDigits_neg hw)]

theorem readBack_exact {m : Meas ℝ} (h : Meas3 m) (h6 : SixDigitMeas m) : SameMeas m (readBack true m) := by
  obtain ⟨h1, h2⟩ := Quat.ofMatrix_spec h.rot
  refine ⟨rfl, rfl, rfl, rfl, ⟨h.R_rows, h.R_cols, ?_⟩, ⟨h.t_rows, h.t_cols, ?_⟩, round6_eq h6.kappa, round6_eq h6.tau, rfl,
    round6_eq h6.weight⟩
  · intro i j hi hj
    rw [h.R_rows] at hi
    rw [h.R_cols] at hj
    have : (readBack true m).R = (Quat.ofMatrix m.R.v).toRotation := by
      unfold readBack
      rw [roundQuat_exact h.rot h6.R, Quat.normalize_unit h1]
    rw [this, h2 i hi j hj]
  · intro i j hi hj
    rw [h.t_rows] at hi
    rw [h.t_cols] at hj
    obtain rfl : j = 0 := by omega
    rw [show (readBack true m).t.v i 0 = _ from roundVec_v (fun i => m.t.v i 0) hi, round6_eq (h6.t i hi)]

end Dpgo.Logger
