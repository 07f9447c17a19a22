import Verif.Props.LogFile
import Verif.Lemmas.NegativeIndex

/-! # Negative robot numbers in measurement files (C92) -/

namespace Dpgo.Props

open Res Text Spec Spec.G2o Logger

/-- **C92.** A minus sign in front of a row is not refused: the first robot is then `2 ^ 32` minus the number written, and
everything else is as in the row. -/
theorem C92_negative {k : Disk} {path header line : Str} {row : MeasRow} (hh : '\n' ∉ header) (h : row.Says line)
    (hc : ',' ∈ line) (h0 : 0 < row.r1) (h1 : row.r1 ≤ 2 ^ 31) (hs : ({ row with r1 := 0 } : MeasRow).Small)
    (hf : k.file path = some (header ++ '\n' :: ('-' :: line ++ ['\n']))) (lw : Bool) :
    ∃ m, loadMeasurements k path lw = ok [m] ∧ ({ row with r1 := 2 ^ 32 - row.r1 } : MeasRow).Is lw m := by
  obtain ⟨m, tok, e, hm⟩ := loadMeas_minus h hc h0 h1 hs lw []
  refine ⟨m, ?_, hm⟩
  have hl : ∀ c ∈ '-' :: line, c ≠ '\n' := by
    intro c hc
    rcases List.mem_cons.1 hc with rfl | hc
    · decide
    · exact measRow_line h c hc
  have hlines : (lines (header ++ '\n' :: ('-' :: line ++ ['\n']))).tail = ['-' :: line] := by
    rw [lines_append (fun c hc e => hh (e ▸ hc)), List.tail_cons, lines_append hl]
    simp [lines]
  unfold loadMeasurements
  rw [hf]
  simp only
  rw [hlines, foldl_cons]
  simp only [e, ok_bind, pure_eq]
  rfl

/-- A row of robot 1, to be read with a minus sign in front. -/
example : MeasRow.Says ⟨1, 1, 2, 3, ![0, 0, 0, 1], ![0, 0, 0], 4, 5, 1, 1⟩ "1,1,2,3,0,0,0,1,0,0,0,4,5,1".toList ∧
    ',' ∈ "1,1,2,3,0,0,0,1,0,0,0,4,5,1".toList ∧
    MeasRow.Small ⟨0, 1, 2, 3, ![0, 0, 0, 1], ![0, 0, 0], 4, 5, 1, 1⟩ := by
  have p : ∀ c : Char, c.isDigit = true → ',' ∉ [c] ∧ '\n' ∉ [c] := fun c hc => by
    constructor <;> (intro hm; rw [List.mem_singleton] at hm; subst hm; exact absurd hc (by decide))
  have z : NumberText 0 ['0'] := by simpa using digit_number '0' (by decide)
  have o : NumberText 1 ['1'] := by simpa using digit_number '1' (by decide)
  have f4 : NumberText 4 ['4'] := by simpa using digit_number '4' (by decide)
  have f5 : NumberText 5 ['5'] := by simpa using digit_number '5' (by decide)
  refine ⟨?_, by decide, ⟨by norm_num, by norm_num, by norm_num, by norm_num, by norm_num⟩⟩
  refine ⟨[['1'], ['1'], ['2'], ['3'], ['0'], ['0'], ['0'], ['1'], ['0'], ['0'], ['0'], ['4'], ['5'], ['1']], ?_,
    digit_index '1' rfl, digit_index '1' rfl, digit_index '2' rfl, digit_index '3' rfl, ?_, ?_,
    f4, f5, digit_index '1' rfl, o⟩
  · have s : ∀ (c : Char) {l : List Str} {line : Str}, c.isDigit = true → Joined l line →
        Joined ([c] :: l) (c :: ',' :: line) := fun c _ _ hc h => .cons (p c hc).1 (p c hc).2 h
    exact s '1' rfl (s '1' rfl (s '2' rfl (s '3' rfl (s '0' rfl (s '0' rfl (s '0' rfl (s '1' rfl (s '0' rfl
      (s '0' rfl (s '0' rfl (s '4' rfl (s '5' rfl (.one (p '1' rfl).1 (p '1' rfl).2)))))))))))))
  · intro j
    fin_cases j
    · exact z
    · exact z
    · exact z
    · exact o
  · intro j
    fin_cases j <;> exact z

end Dpgo.Props
