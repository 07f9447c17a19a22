import Verif.Spec.LogFile
import Verif.Lemmas.LoggerTraj
import Verif.Lemmas.G2oRot

/-!
# Lemmas: files of any origin
-/

namespace Dpgo.Logger

open Res Text Spec Spec.G2o

/-- The cursor stands before field `j`. -/
def Before (fs : List Str) (j : Nat) (c : Cursor) : Prop :=
  (j < fs.length → ∃ line, c.2 = some line ∧ Joined (fs.drop j) line) ∧
  (fs.length ≤ j → c.2 = none ∧ c.1 = fs.getLastD [])

theorem joined_ne {fs : List Str} {line : Str} (h : Joined fs line) : fs ≠ [] := by
  cases h <;> simp

theorem joined_line {fs : List Str} {line : Str} (h : Joined fs line) : ∀ c ∈ line, c ≠ '\n' := by
  induction h with
  | one h1 h2 => exact fun c hc e => h2 (e ▸ hc)
  | cons h1 h2 _ ih =>
    intro c hc
    simp only [List.mem_append, List.mem_cons] at hc
    rcases hc with hc | rfl | hc
    · exact fun e => h2 (e ▸ hc)
    · decide
    · exact ih c hc

theorem before_start {fs : List Str} {line : Str} (h : Joined fs line) (tok : Str) : Before fs 0 (tok, some line) :=
  ⟨fun _ => ⟨line, rfl, h⟩, fun hl => absurd (List.length_eq_zero_iff.1 (Nat.le_zero.1 hl)) (joined_ne h)⟩

theorem before_field {fs : List Str} {j : Nat} {c : Cursor} (h : Before fs j c) :
    (field c.1 c.2).1 = fieldOf fs j ∧ Before fs (j + 1) (field c.1 c.2) := by
  obtain ⟨tok, rest⟩ := c
  by_cases hj : j < fs.length
  · obtain ⟨line, e, hl⟩ := h.1 hj
    simp only at e
    subst e
    have hd : fs.drop j = fs[j] :: fs.drop (j + 1) := List.drop_eq_getElem_cons hj
    have hf : fieldOf fs j = fs[j] := by simp [fieldOf, hj]
    rw [hd] at hl
    generalize hr : fs.drop (j + 1) = r at hl
    cases hl with
    | one h1 h2 =>
      have hlen : fs.length ≤ j + 1 := List.drop_eq_nil_iff.1 hr
      rw [field_last (fun c hc e => h1 (e ▸ hc))]
      refine ⟨hf.symm, fun h => absurd h (by omega), fun _ => ⟨rfl, ?_⟩⟩
      rw [List.getLastD_eq_getLast?, List.getLast?_eq_getElem?, show fs.length - 1 = j by omega,
        List.getElem?_eq_getElem hj]
      rfl
    | cons h1 h2 hl =>
      rw [field_comma (fun c hc e => h1 (e ▸ hc))]
      refine ⟨hf.symm, fun _ => ⟨_, rfl, by rw [hr]; exact hl⟩, fun hle => ?_⟩
      exact absurd (hr.symm.trans (List.drop_eq_nil_of_le hle)) (joined_ne hl)
  · obtain ⟨e1, e2⟩ := h.2 (by omega)
    simp only at e1 e2
    subst e1 e2
    refine ⟨?_, fun h => absurd h (by omega), fun _ => ⟨rfl, rfl⟩⟩
    simp [fieldOf, field, List.getElem?_eq_none (not_lt.1 hj), List.getD]

theorem nextReal_before {fs : List Str} {j : Nat} {c : Cursor} (h : Before fs j c) {x : ℝ}
    (hx : NumberText x (fieldOf fs j)) : ∃ c', nextReal c = ok (x, c') ∧ Before fs (j + 1) c' := by
  obtain ⟨h1, h2⟩ := before_field h
  obtain ⟨n, hv, ht, rfl⟩ := hx
  refine ⟨_, ?_, h2⟩
  unfold nextReal
  simp only [h1]
  have := stod_text hv stops_nil
  rw [List.append_nil, ht] at this
  rw [this]
  rfl

theorem stoi_index {n : Nat} {w : Str} (h : IndexText n w) :
    stoi w = if n < 2 ^ 31 then ok (n : Int) else throws := by
  rw [stoi_digits h.2.1 h.1, natOf_eq, h.2.2]

theorem nextU32_before {fs : List Str} {j : Nat} {c : Cursor} (h : Before fs j c) {n : Nat}
    (hx : IndexText n (fieldOf fs j)) (hn : n < 2 ^ 31) : ∃ c', nextU32 c = ok (n, c') ∧ Before fs (j + 1) c' := by
  obtain ⟨h1, h2⟩ := before_field h
  refine ⟨_, ?_, h2⟩
  unfold nextU32
  simp only [h1, stoi_index hx, if_pos hn, ok_bind, pure_eq]
  congr 2
  omega

theorem nextU32_large {fs : List Str} {j : Nat} {c : Cursor} (h : Before fs j c) {n : Nat}
    (hx : IndexText n (fieldOf fs j)) (hn : ¬ n < 2 ^ 31) : nextU32 c = throws := by
  obtain ⟨h1, -⟩ := before_field h
  unfold nextU32
  simp only [h1, stoi_index hx, if_neg hn]
  rfl

theorem nextBool_before {fs : List Str} {j : Nat} {c : Cursor} (h : Before fs j c) {n : Nat}
    (hx : IndexText n (fieldOf fs j)) (hn : n < 2 ^ 31) :
    ∃ c', nextBool c = ok (decide (n ≠ 0), c') ∧ Before fs (j + 1) c' := by
  obtain ⟨h1, h2⟩ := before_field h
  refine ⟨_, ?_, h2⟩
  unfold nextBool
  simp only [h1, stoi_index hx, if_pos hn, ok_bind, pure_eq]
  congr 2
  simp

/-- The quaternion of a row. -/
def quatOf (q : Fin 4 → ℝ) : Quat := ⟨q 0, q 1, q 2, q 3⟩

/-- The vector of a row. -/
def vecOf (t : Fin 3 → ℝ) : DMat ℝ := ⟨3, 1, fun i _ => match i with | 0 => t 0 | 1 => t 1 | 2 => t 2 | _ => 0⟩

theorem nextQuat_before {fs : List Str} {j : Nat} {c : Cursor} (h : Before fs j c) {q : Fin 4 → ℝ}
    (hq : ∀ i : Fin 4, NumberText (q i) (fieldOf fs (j + i))) :
    ∃ c', nextQuat c = ok ((quatOf q).normalize, c') ∧ Before fs (j + 4) c' := by
  obtain ⟨c1, e1, h1⟩ := nextReal_before h (hq 0)
  obtain ⟨c2, e2, h2⟩ := nextReal_before h1 (hq 1)
  obtain ⟨c3, e3, h3⟩ := nextReal_before h2 (hq 2)
  obtain ⟨c4, e4, h4⟩ := nextReal_before h3 (hq 3)
  refine ⟨c4, ?_, h4⟩
  unfold nextQuat
  simp only [e1, e2, e3, e4, ok_bind, pure_eq]
  rfl

theorem nextVec_before {fs : List Str} {j : Nat} {c : Cursor} (h : Before fs j c) {t : Fin 3 → ℝ}
    (ht : ∀ i : Fin 3, NumberText (t i) (fieldOf fs (j + i))) :
    ∃ c', nextVec c = ok (vecOf t, c') ∧ Before fs (j + 3) c' := by
  obtain ⟨c1, e1, h1⟩ := nextReal_before h (ht 0)
  obtain ⟨c2, e2, h2⟩ := nextReal_before h1 (ht 1)
  obtain ⟨c3, e3, h3⟩ := nextReal_before h2 (ht 2)
  refine ⟨c3, ?_, h3⟩
  unfold nextVec
  simp only [e1, e2, e3, ok_bind, pure_eq]
  rfl

/-- The pose of a row. -/
noncomputable def poseOf (row : PoseRow) : DMat ℝ :=
  ⟨3, 4, fun a b => if b < 3 then (quatOf row.q).normalize.toRotation.v a b else (vecOf row.t).v a 0⟩

theorem loadPose_says {row : PoseRow} {line : Str} (h : row.Says line) (hi : row.index < 2 ^ 31) (tok : Str) :
    ∃ tok', loadPose tok line = ok ((row.index, poseOf row), tok') := by
  obtain ⟨fs, hj, h0, hq, ht⟩ := h
  obtain ⟨c1, e1, h1⟩ := nextU32_before (before_start hj tok) h0 hi
  obtain ⟨c2, e2, h2⟩ := nextQuat_before h1 hq
  obtain ⟨c3, e3, -⟩ := nextVec_before h2 ht
  refine ⟨c3.1, ?_⟩
  unfold loadPose
  simp only [e1, e2, e3, ok_bind, pure_eq]
  rfl

theorem loadPose_large {row : PoseRow} {line : Str} (h : row.Says line) (hi : ¬ row.index < 2 ^ 31) (tok : Str) :
    loadPose tok line = throws := by
  obtain ⟨fs, hj, h0, -, -⟩ := h
  unfold loadPose
  rw [nextU32_large (before_start hj tok) h0 hi]
  rfl

theorem poseRow_line {row : PoseRow} {line : Str} (h : row.Says line) : ∀ c ∈ line, c ≠ '\n' := by
  obtain ⟨fs, hj, -⟩ := h
  exact joined_line hj

theorem measRow_line {row : MeasRow} {line : Str} (h : row.Says line) : ∀ c ∈ line, c ≠ '\n' := by
  obtain ⟨fs, hj, -⟩ := h
  exact joined_line hj

theorem lines_all {ls : List Str} (h : ∀ l ∈ ls, ∀ c ∈ l, c ≠ '\n') : lines (ls.flatMap (· ++ ['\n'])) = ls := by
  induction ls with
  | nil => rfl
  | cons l ls ih =>
    rw [List.flatMap_cons, List.append_assoc]
    exact (lines_append (h l (by simp)) _).trans (congrArg _ (ih fun x hx => h x (by simp [hx])))

theorem rowFile_body {α : Type} {mean : α → Str → Prop} {rows : List α} {text : Str}
    (hs : ∀ a l, mean a l → ∀ c ∈ l, c ≠ '\n') (h : RowFile mean rows text) :
    List.Forall₂ mean rows (lines text).tail := by
  obtain ⟨header, ls, hh, hr, rfl⟩ := h
  rw [lines_append (fun c hc e => hh (e ▸ hc)), List.tail_cons, lines_all]
  · exact hr
  · intro l hl
    obtain ⟨i, hi, rfl⟩ := List.getElem_of_mem hl
    exact hs _ _ (hr.get (by rw [hr.length_eq]; exact hi) hi)

theorem read_rows {rows : List PoseRow} {ls : List Str} (h : List.Forall₂ PoseRow.Says rows ls)
    (hi : ∀ r ∈ rows, r.index < 2 ^ 31) (acc : List (Nat × DMat ℝ)) (tok : Str) :
    ∃ tok', Res.foldl (fun (acc : List (Nat × DMat ℝ) × Str) line => do
      let (p, token) ← loadPose acc.2 line
      return (acc.1 ++ [p], token)) (acc, tok) ls =
        ok (acc ++ rows.map (fun r => (r.index, poseOf r)), tok') := by
  induction h generalizing acc tok with
  | nil => exact ⟨tok, by simp⟩
  | @cons r l rows ls hr _ ih =>
    obtain ⟨tk, e⟩ := loadPose_says hr (hi r (by simp)) tok
    obtain ⟨tok', e'⟩ := ih (fun x hx => hi x (by simp [hx])) (acc ++ [(r.index, poseOf r)]) tk
    refine ⟨tok', ?_⟩
    rw [foldl_cons, e]
    simp only [ok_bind, pure_eq, ok_bind']
    refine e'.trans ?_
    simp

theorem read_rows_large {rows : List PoseRow} {ls : List Str} (h : List.Forall₂ PoseRow.Says rows ls)
    (hi : ∃ r ∈ rows, ¬ r.index < 2 ^ 31) (acc : List (Nat × DMat ℝ)) (tok : Str) :
    Res.foldl (fun (acc : List (Nat × DMat ℝ) × Str) line => do
      let (p, token) ← loadPose acc.2 line
      return (acc.1 ++ [p], token)) (acc, tok) ls = throws := by
  induction h generalizing acc tok with
  | nil => simp at hi
  | @cons r l rows ls hr _ ih =>
    rw [foldl_cons]
    by_cases hb : r.index < 2 ^ 31
    · obtain ⟨tk, e⟩ := loadPose_says hr hb tok
      rw [e]
      simp only [ok_bind, pure_eq, ok_bind']
      refine ih ?_ _ _
      obtain ⟨x, hx, hxi⟩ := hi
      rcases List.mem_cons.1 hx with rfl | hx
      · exact absurd hb hxi
      · exact ⟨x, hx, hxi⟩
    · rw [loadPose_large hr hb tok]
      rfl

/-- The loop that places the blocks, for any table. -/
theorem place_table {n : Nat} (hn : 4 * n < 2 ^ 32) (table : List (Nat × DMat ℝ)) (P : Nat → DMat ℝ)
    (hP : ∀ i, (P i).rows = 3 ∧ (P i).cols = 4) {m : Nat} (hm : m ≤ n)
    (hf : ∀ i < m, table.find? (fun p => p.1 == i) = some (i, P i)) :
    ∃ T', Res.foldl (fun T i => do
      match table.find? (fun p => p.1 == i) with
      | none => throws
      | some p =>
        require (T.inRange 0 (u32 (4 * i)) 3 4)
        return T.setBlock 0 (u32 (4 * i)) p.2) (DMat.zero 3 (4 * n) : DMat ℝ) (List.range m) = ok T' ∧
      T'.rows = 3 ∧ T'.cols = 4 * n ∧ ∀ i < m, ∀ a < 3, ∀ b < 4, T'.v a (4 * i + b) = (P i).v a b := by
  induction m with
  | zero => exact ⟨_, rfl, rfl, rfl, by omega⟩
  | succ m ih =>
    obtain ⟨T', e, h1, h2, h3⟩ := ih (by omega) fun i hi => hf i (by omega)
    refine ⟨T'.setBlock 0 (4 * m) (P m), ?_, h1, h2, ?_⟩
    · rw [List.range_succ, foldl_append, e, ok_bind', foldl_cons, hf m (by omega)]
      have : T'.inRange 0 (u32 (4 * m)) 3 4 = true := by
        unfold DMat.inRange
        rw [h1, h2, u32_of_lt (by omega), decide_eq_true (by omega), decide_eq_true (by omega)]
        rfl
      simp only [this, require_true, ok_bind, pure_eq, ok_bind', foldl_nil]
      rw [u32_of_lt (by omega)]
    · intro i hi a ha b hb
      unfold DMat.setBlock
      simp only [(hP m).1, (hP m).2]
      by_cases hm : i = m
      · subst hm
        rw [if_pos (by omega), show a - 0 = a by omega, show 4 * i + b - 4 * i = b by omega]
      · rw [if_neg (by omega)]
        exact h3 i (by omega) a ha b hb

/-- A missing index throws. -/
theorem place_missing {n : Nat} (hn : 4 * n < 2 ^ 32) (table : List (Nat × DMat ℝ))
    (hP : ∀ p ∈ table, p.2.rows = 3 ∧ p.2.cols = 4) (hf : ∃ i < n, table.find? (fun p => p.1 == i) = none) :
    Res.foldl (fun T i => do
      match table.find? (fun p => p.1 == i) with
      | none => throws
      | some p =>
        require (T.inRange 0 (u32 (4 * i)) 3 4)
        return T.setBlock 0 (u32 (4 * i)) p.2) (DMat.zero 3 (4 * n) : DMat ℝ) (List.range n) = throws := by
  classical
  obtain ⟨hm, hnone⟩ := Nat.find_spec hf
  have hmin : ∀ i < Nat.find hf, table.find? (fun p => p.1 == i) ≠ none :=
    fun i hi h => Nat.find_min hf hi ⟨by omega, h⟩
  generalize Nat.find hf = m at *
  let P : Nat → DMat ℝ := fun i => match table.find? (fun p => p.1 == i) with
    | none => DMat.zero 3 4
    | some p => p.2
  have hPs : ∀ i, (P i).rows = 3 ∧ (P i).cols = 4 := by
    intro i
    show (match table.find? (fun p => p.1 == i) with | none => DMat.zero 3 4 | some p => p.2 : DMat ℝ).rows = 3 ∧
      (match table.find? (fun p => p.1 == i) with | none => DMat.zero 3 4 | some p => p.2 : DMat ℝ).cols = 4
    cases hx : table.find? (fun p => p.1 == i) with
    | none => exact ⟨rfl, rfl⟩
    | some p => exact hP p (List.mem_of_find?_eq_some hx)
  obtain ⟨T', e, -⟩ := place_table hn table P hPs (m := m) (by omega) fun i hi => by
    cases hx : table.find? (fun p => p.1 == i) with
    | none => exact absurd hx (hmin i hi)
    | some p =>
      have h1 : p.1 = i := by simpa using List.find?_some hx
      have h2 : P i = p.2 := by
        show (match table.find? (fun p => p.1 == i) with | none => DMat.zero 3 4 | some p => p.2 : DMat ℝ) = p.2
        rw [hx]
      rw [h2, ← h1]
  obtain ⟨k, rfl⟩ : ∃ k, n = m + (k + 1) := ⟨n - m - 1, by omega⟩
  rw [List.range_add, foldl_append, e, ok_bind', List.range_succ_eq_map, List.map_cons, foldl_cons, Nat.add_zero, hnone]
  rfl

theorem rotationOf_normalize (q : Fin 4 → ℝ) :
    RotationOf q ((quatOf q).normalize.toRotation.toMat 3 3) ∧ IsRot ((quatOf q).normalize.toRotation.toMat 3 3) := by
  have hN : (quatOf q).normSq = ∑ i, q i ^ 2 := by
    simp only [Quat.normSq, quatOf, Fin.sum_univ_four]
    ring
  by_cases hz : q = 0
  · have e0 : (quatOf q).normalize.toRotation.toMat 3 3 = 1 := by
      have : (quatOf q).normalize = ⟨0, 0, 0, 0⟩ := by
        subst hz
        simp [Quat.normalize, Quat.normSq, quatOf]
      rw [this]
      ext i j
      fin_cases i <;> fin_cases j <;> simp [Quat.toRotation]
    refine ⟨⟨fun h => absurd hz h, fun _ => e0⟩, ?_⟩
    rw [e0]
    exact ⟨by simp, by simp⟩
  · have hpos : 0 < ∑ i, q i ^ 2 := by
      obtain ⟨i, hi⟩ := Function.ne_iff.1 hz
      exact Finset.sum_pos' (fun j _ => sq_nonneg _) ⟨i, Finset.mem_univ i, by positivity [show q i ≠ 0 from hi]⟩
    set s := ∑ i, q i ^ 2 with hs
    have hsq : √s * √s = s := Real.mul_self_sqrt hpos.le
    have hne : √s ≠ 0 := (Real.sqrt_pos.2 hpos).ne'
    have hn : (quatOf q).normalize = ⟨q 0 / √s, q 1 / √s, q 2 / √s, q 3 / √s⟩ := by
      unfold Quat.normalize
      rw [if_pos (by rw [hN]; exact hpos), hN]
      rfl
    have h4 : q 0 ^ 2 + q 1 ^ 2 + q 2 ^ 2 + q 3 ^ 2 = s := by rw [hs, Fin.sum_univ_four]
    have h1 : (quatOf q).normalize.normSq = 1 := by
      rw [hn]
      simp only [Quat.normSq]
      field_simp
      rw [h4, sq, hsq]
    refine ⟨⟨fun _ => ?_, fun h => absurd h hz⟩, Quat.toRotation_rot h1⟩
    rw [hn, ← hs]
    clear_value s
    ext i j
    have hs2 : √s ^ 2 = s := by rw [sq, hsq]
    have hsne := hpos.ne'
    fin_cases i <;> fin_cases j <;> simp [Quat.toRotation, quatMatrix] <;> field_simp <;> rw [hs2] <;> (try field_simp) <;>
      linarith

theorem vecOf_v (t : Fin 3 → ℝ) (i : Fin 3) : (vecOf t).v i 0 = t i := by fin_cases i <;> rfl

theorem nextBool_large {fs : List Str} {j : Nat} {c : Cursor} (h : Before fs j c) {n : Nat}
    (hx : IndexText n (fieldOf fs j)) (hn : ¬ n < 2 ^ 31) : nextBool c = throws := by
  obtain ⟨h1, -⟩ := before_field h
  unfold nextBool
  simp only [h1, stoi_index hx, if_neg hn]
  rfl

theorem loadMeas_says {row : MeasRow} {line : Str} (h : row.Says line) (hs : row.Small) (lw : Bool) (tok : Str) :
    ∃ m tok', loadMeas lw tok line = ok (m, tok') ∧ row.Is lw m := by
  obtain ⟨fs, hj, i0, i1, i2, i3, hq, ht, hk, hta, hf, hw⟩ := h
  obtain ⟨c1, e1, h1⟩ := nextU32_before (before_start hj tok) i0 hs.r1
  obtain ⟨c2, e2, h2⟩ := nextU32_before h1 i1 hs.p1
  obtain ⟨c3, e3, h3⟩ := nextU32_before h2 i2 hs.r2
  obtain ⟨c4, e4, h4⟩ := nextU32_before h3 i3 hs.p2
  obtain ⟨c5, e5, h5⟩ := nextQuat_before h4 hq
  obtain ⟨c6, e6, h6⟩ := nextVec_before h5 ht
  obtain ⟨c7, e7, h7⟩ := nextReal_before h6 hk
  obtain ⟨c8, e8, h8⟩ := nextReal_before h7 hta
  obtain ⟨c9, e9, h9⟩ := nextBool_before h8 hf hs.flag
  obtain ⟨c10, e10, -⟩ := nextReal_before h9 hw
  obtain ⟨hr, hrot⟩ := rotationOf_normalize row.q
  refine ⟨⟨row.r1, row.r2, row.p1, row.p2, (quatOf row.q).normalize.toRotation, vecOf row.t, row.kappa, row.tau,
    decide (row.flag ≠ 0), if lw then row.weight else 1⟩, c10.1, ?_, ?_⟩
  · unfold loadMeas
    simp only [e1, e2, e3, e4, e5, e6, e7, e8, e9, e10, ok_bind, pure_eq]
    cases lw <;> rfl
  · exact ⟨rfl, rfl, rfl, rfl, ⟨rfl, rfl, hrot, rfl, rfl⟩, hr, vecOf_v row.t, rfl, rfl, by simp, rfl⟩

theorem loadMeas_large {row : MeasRow} {line : Str} (h : row.Says line) (hs : ¬ row.Small) (lw : Bool) (tok : Str) :
    loadMeas lw tok line = throws := by
  obtain ⟨fs, hj, i0, i1, i2, i3, hq, ht, hk, hta, hf, hw⟩ := h
  unfold loadMeas
  by_cases b1 : row.r1 < 2 ^ 31
  case neg => rw [nextU32_large (before_start hj tok) i0 b1]; rfl
  obtain ⟨c1, e1, h1⟩ := nextU32_before (before_start hj tok) i0 b1
  simp only [e1, ok_bind]
  by_cases b2 : row.p1 < 2 ^ 31
  case neg => rw [nextU32_large h1 i1 b2]; rfl
  obtain ⟨c2, e2, h2⟩ := nextU32_before h1 i1 b2
  simp only [e2, ok_bind]
  by_cases b3 : row.r2 < 2 ^ 31
  case neg => rw [nextU32_large h2 i2 b3]; rfl
  obtain ⟨c3, e3, h3⟩ := nextU32_before h2 i2 b3
  simp only [e3, ok_bind]
  by_cases b4 : row.p2 < 2 ^ 31
  case neg => rw [nextU32_large h3 i3 b4]; rfl
  obtain ⟨c4, e4, h4⟩ := nextU32_before h3 i3 b4
  obtain ⟨c5, e5, h5⟩ := nextQuat_before h4 hq
  obtain ⟨c6, e6, h6⟩ := nextVec_before h5 ht
  obtain ⟨c7, e7, h7⟩ := nextReal_before h6 hk
  obtain ⟨c8, e8, h8⟩ := nextReal_before h7 hta
  simp only [e4, e5, e6, e7, e8, ok_bind]
  by_cases b5 : row.flag < 2 ^ 31
  case neg => rw [nextBool_large h8 hf b5]; rfl
  exact absurd ⟨b1, b2, b3, b4, b5⟩ hs

theorem read_meas {rows : List MeasRow} {ls : List Str} (h : List.Forall₂ MeasRow.Says rows ls)
    (hs : ∀ r ∈ rows, r.Small) (lw : Bool) (acc : List (Meas ℝ)) (tok : Str) :
    ∃ ms tok', Res.foldl (fun (acc : List (Meas ℝ) × Str) line => do
      let (m, token) ← loadMeas lw acc.2 line
      return (acc.1 ++ [m], token)) (acc, tok) ls = ok (acc ++ ms, tok') ∧
        List.Forall₂ (MeasRow.Is lw) rows ms := by
  induction h generalizing acc tok with
  | nil => exact ⟨[], tok, by simp, .nil⟩
  | @cons r l rows ls hr _ ih =>
    obtain ⟨m, tk, e, hm⟩ := loadMeas_says hr (hs r (by simp)) lw tok
    obtain ⟨ms, tok', e', hms⟩ := ih (fun x hx => hs x (by simp [hx])) (acc ++ [m]) tk
    refine ⟨m :: ms, tok', ?_, .cons hm hms⟩
    rw [foldl_cons, e]
    simp only [ok_bind, pure_eq, ok_bind']
    refine e'.trans ?_
    simp

theorem read_meas_large {rows : List MeasRow} {ls : List Str} (h : List.Forall₂ MeasRow.Says rows ls)
    (hs : ∃ r ∈ rows, ¬ r.Small) (lw : Bool) (acc : List (Meas ℝ)) (tok : Str) :
    Res.foldl (fun (acc : List (Meas ℝ) × Str) line => do
      let (m, token) ← loadMeas lw acc.2 line
      return (acc.1 ++ [m], token)) (acc, tok) ls = throws := by
  induction h generalizing acc tok with
  | nil => simp at hs
  | @cons r l rows ls hr _ ih =>
    rw [foldl_cons]
    by_cases hb : r.Small
    · obtain ⟨m, tk, e, -⟩ := loadMeas_says hr hb lw tok
      rw [e]
      simp only [ok_bind, pure_eq, ok_bind']
      refine ih ?_ _ _
      obtain ⟨x, hx, hxi⟩ := hs
      rcases List.mem_cons.1 hx with rfl | hx
      · exact absurd hb hxi
      · exact ⟨x, hx, hxi⟩
    · rw [loadMeas_large hr hb lw tok]
      rfl

end Dpgo.Logger
