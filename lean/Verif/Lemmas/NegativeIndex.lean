import Verif.Lemmas.LogFile
import Verif.Lemmas.Words

/-! # Rows that begin with a minus sign -/

namespace Dpgo.Logger

open Res Text Spec Spec.G2o

theorem joined_minus {fs : List Str} {line : Str} (h : Joined fs line) (hc : ',' ∈ line) :
    ∃ a l, fs = a :: l ∧ Joined (('-' :: a) :: l) ('-' :: line) ∧
      ∀ j, fieldOf (('-' :: a) :: l) (j + 1) = fieldOf fs (j + 1) := by
  cases h with
  | one h1 h2 => exact absurd hc h1
  | @cons a line l h1 h2 hl =>
    refine ⟨a, l, rfl, ?_, fun j => ?_⟩
    · exact Joined.cons (a := '-' :: a) (by simpa using h1) (by simpa using h2) hl
    · cases l with
      | nil => exact absurd rfl (joined_ne hl)
      | cons b l => simp [fieldOf]

theorem stoi_minus {n : Nat} {w : Str} (h : IndexText n w) (hn : n ≤ 2 ^ 31) : stoi ('-' :: w) = ok (-(n : Int)) := by
  have := stoi_text (some true) (b := []) (rest := []) (by simp) h.2.1 h.1 (by simp)
  have hv : Numeral.signValue (some true) * (n : Int) = -(n : Int) := by
    simp [Numeral.signValue]
  rw [h.2.2, hv, if_pos (by omega)] at this
  simpa only [Numeral.signText, List.append_nil, List.nil_append, List.singleton_append] using this

theorem loadMeas_minus {row : MeasRow} {line : Str} (h : row.Says line) (hc : ',' ∈ line) (h0 : 0 < row.r1)
    (h1 : row.r1 ≤ 2 ^ 31) (hs : ({ row with r1 := 0 } : MeasRow).Small) (lw : Bool) (tok : Str) :
    ∃ m tok', loadMeas lw tok ('-' :: line) = ok (m, tok') ∧ ({ row with r1 := 2 ^ 32 - row.r1 } : MeasRow).Is lw m := by
  obtain ⟨fs, hj, i0, i1, i2, i3, hq, ht, hk, hta, hf, hw⟩ := h
  obtain ⟨a, l, rfl, hj', hfld⟩ := joined_minus hj hc
  have f : ∀ j, 0 < j → fieldOf (a :: l) j = fieldOf (('-' :: a) :: l) j := fun j hj => by
    obtain ⟨i, rfl⟩ : ∃ i, j = i + 1 := ⟨j - 1, by omega⟩
    exact (hfld i).symm
  rw [f 1 (by omega)] at i1
  rw [f 2 (by omega)] at i2
  rw [f 3 (by omega)] at i3
  have hq : ∀ j : Fin 4, NumberText (row.q j) (fieldOf (('-' :: a) :: l) (4 + j)) := fun j => by
    rw [← f _ (by omega)]; exact hq j
  have ht : ∀ j : Fin 3, NumberText (row.t j) (fieldOf (('-' :: a) :: l) (8 + j)) := fun j => by
    rw [← f _ (by omega)]; exact ht j
  rw [f 11 (by omega)] at hk
  rw [f 12 (by omega)] at hta
  rw [f 13 (by omega)] at hf
  rw [f 14 (by omega)] at hw
  obtain ⟨b1, b2⟩ := before_field (before_start hj' tok)
  have e1 : nextU32 (tok, some ('-' :: line)) = ok (2 ^ 32 - row.r1, field tok (some ('-' :: line))) := by
    unfold nextU32
    have : fieldOf (('-' :: a) :: l) 0 = '-' :: a := rfl
    rw [this] at b1
    have i0 : IndexText row.r1 a := i0
    simp only [b1, stoi_minus i0 h1, ok_bind, pure_eq]
    congr 2
    omega
  obtain ⟨c2, e2, h2⟩ := nextU32_before b2 i1 hs.p1
  obtain ⟨c3, e3, h3⟩ := nextU32_before h2 i2 hs.r2
  obtain ⟨c4, e4, h4⟩ := nextU32_before h3 i3 hs.p2
  obtain ⟨c5, e5, h5⟩ := nextQuat_before h4 hq
  obtain ⟨c6, e6, h6⟩ := nextVec_before h5 ht
  obtain ⟨c7, e7, h7⟩ := nextReal_before h6 hk
  obtain ⟨c8, e8, h8⟩ := nextReal_before h7 hta
  obtain ⟨c9, e9, h9⟩ := nextBool_before h8 hf hs.flag
  obtain ⟨c10, e10, -⟩ := nextReal_before h9 hw
  obtain ⟨hr, hrot⟩ := rotationOf_normalize row.q
  refine ⟨⟨2 ^ 32 - row.r1, row.r2, row.p1, row.p2, (quatOf row.q).normalize.toRotation, vecOf row.t, row.kappa, row.tau,
    decide (row.flag ≠ 0), if lw then row.weight else 1⟩, c10.1, ?_, ?_⟩
  · unfold loadMeas
    simp only [e1, ok_bind]
    simp only [e2, e3, e4, e5, e6, e7, e8, e9, e10, ok_bind, pure_eq]
    cases lw <;> rfl
  · exact ⟨rfl, rfl, rfl, rfl, ⟨rfl, rfl, hrot, rfl, rfl⟩, hr, vecOf_v row.t, rfl, rfl, by simp, rfl⟩

end Dpgo.Logger
