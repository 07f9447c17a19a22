import Verif.Lemmas.Words

/-! # Loaded fields that are not numbers (C57) -/

namespace Dpgo.Props

open Res Text Spec Spec.G2o

/-- **C57** (infinities and missing values).  A field that begins, after blanks and a sign, with `inf` or `nan` in any
capitals is read as such and never as a number. -/
theorem C57_special {b w : Str} (hb : Blanks b) (s : Option Bool)
    (hw : w.map Char.toLower = "inf".toList ∨ w.map Char.toLower = "nan".toList) (t : Str) :
    stod (b ++ (Numeral.signText s ++ (w ++ t))) = nonfinite := by
  have hg := signText_cases s
  have hb := blanks_space hb
  obtain ⟨c, x, y, rfl⟩ : ∃ c x y, w = [c, x, y] := by
    have : w.length = 3 := by
      rcases hw with h | h <;> simpa using congrArg List.length h
    match w, this with
    | [c, x, y], _ => exact ⟨c, x, y, rfl⟩
  have hl : ¬ c.toNat < 65 := fun h => by
    have e := lower_low h
    simp only [List.map_cons, e] at hw
    rcases hw with hw | hw
    · have : c = 'i' := (List.cons.inj hw).1
      subst this
      exact absurd h (by decide)
    · have : c = 'n' := (List.cons.inj hw).1
      subst this
      exact absurd h (by decide)
  have hs : isSpace c = false := by
    by_contra h
    exact hl (space_low (by simpa using h))
  unfold stod
  rw [List.cons_append, skip_all hb hg hs]
  simp only
  rw [sign_skip hg (fun e => hl (by subst e; decide)) (fun e => hl (by subst e; decide))]
  have : isSpecial (c :: ([x, y] ++ t)) = true := by
    unfold isSpecial
    simp only [List.cons_append, List.nil_append, List.take_succ_cons, List.take_zero]
    rcases hw with h | h
    · rw [h]; rfl
    · rw [h]; rfl
  rw [this]
  rfl

example : stod " -Inf,".toList = nonfinite :=
  C57_special (b := [' ']) (w := "Inf".toList) (by simp [Blanks, Blank]) (some true) (by decide) [',']

/-- **C57** (words).  A field that begins, after blanks and a sign, with a character that is neither a digit, a point, a
sign, a blank nor the first letter of `inf` or `nan` makes loading throw. -/
theorem C57_word {b : Str} (hb : Blanks b) (s : Option Bool) {c : Char}
    (hd : c.isDigit = false) (hc : c ∉ ['.', '+', '-']) (hs : ¬ Blank c) (hn : c ≠ '\n')
    (hl : c.toLower ≠ 'i' ∧ c.toLower ≠ 'n') (t : Str) : stod (b ++ (Numeral.signText s ++ c :: t)) = throws := by
  have hg := signText_cases s
  have hs := not_space hs hn
  have hb := blanks_space hb
  simp only [List.mem_cons, not_or] at hc
  unfold stod
  rw [skip_all hb hg hs]
  simp only
  rw [sign_skip hg hc.2.1 hc.2.2.1]
  have h0 : isSpecial (c :: t) = false := by
    unfold isSpecial
    simp [hl.1, hl.2]
  have h1 : strtod (Numeral.signText s ++ c :: t) = none := by
    unfold strtod
    have e := sign_skip hg hc.2.1 hc.2.2.1 t
    simp only [e, List.span_eq_takeWhile_dropWhile, List.takeWhile_cons, List.dropWhile_cons, hd, Bool.false_eq_true,
      if_false]
    rw [fraction_of_ne (by intro t' e'; simp only [List.cons.injEq] at e'; exact hc.1 e'.1)]
    rfl
  rw [h0, h1]
  rfl

example : stod " +x1".toList = throws :=
  C57_word (b := [' ']) (c := 'x') (by simp [Blanks, Blank]) (some false) (by decide) (by decide) (by simp [Blank])
    (by decide) ⟨by decide, by decide⟩ ['1']

/-- **C57** (whole numbers).  A field that begins, after blanks, with a whole number is read as that number if it fits in
an `int`, and makes loading throw otherwise; what follows the digits does not matter. -/
theorem C57_index {b ds rest : Str} (hb : Blanks b) (s : Option Bool) (hd : ∀ c ∈ ds, c.isDigit = true) (hne : ds ≠ [])
    (hr : ∀ c t, rest = c :: t → c.isDigit = false) {v : Int} (hv : v = Numeral.signValue s * Numeral.digitsValue ds) :
    stoi (b ++ (Numeral.signText s ++ (ds ++ rest))) = if -2 ^ 31 ≤ v ∧ v < 2 ^ 31 then ok v else throws := by
  rw [hv]
  exact stoi_text s (blanks_space hb) hd hne hr

/-- The least `int` is read, the number below it is not, and a fraction is cut off. -/
example : stoi "-2147483648".toList = ok (-2147483648) ∧ stoi "-2147483649".toList = throws ∧
    stoi "\r7.9".toList = ok 7 :=
  ⟨(C57_index (b := []) (ds := "2147483648".toList) (rest := []) (by simp [Blanks]) (some true) (by decide) (by decide)
      (by simp) (v := -2147483648) (by decide)).trans (if_pos (by decide)),
    (C57_index (b := []) (ds := "2147483649".toList) (rest := []) (by simp [Blanks]) (some true) (by decide) (by decide)
      (by simp) (v := -2147483649) (by decide)).trans (if_neg (by decide)),
    C57_index (b := ['\r']) (ds := ['7']) (rest := ['.', '9']) (by simp [Blanks, Blank]) none (by decide) (by decide)
      (by rintro c t ⟨⟩; rfl) (v := 7) (by decide)⟩

end Dpgo.Props
