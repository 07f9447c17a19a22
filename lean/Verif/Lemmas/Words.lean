import Verif.Lemmas.Text
import Verif.Spec.G2o

/-! # Texts that begin with blanks, a sign and a letter -/

namespace Dpgo.Text

open Res Spec Spec.G2o

theorem lower_low {c : Char} (h : c.toNat < 65) : c.toLower = c := by
  unfold Char.toLower
  split
  · next h' =>
    have := UInt32.le_iff_toNat_le.1 h'.1
    have e65 : 'A'.val.toNat = 65 := rfl
    have e' : c.val.toNat = c.toNat := rfl
    omega
  · rfl

theorem space_low {c : Char} (h : isSpace c = true) : c.toNat < 65 := by
  unfold isSpace at h
  simp only [Bool.or_eq_true, Bool.and_eq_true, beq_iff_eq, decide_eq_true_eq] at h
  rcases h with rfl | h
  · decide
  · omega

theorem skip_blanks {b : Str} (hb : ∀ c ∈ b, isSpace c = true) {c : Char} (hc : isSpace c = false) (t : Str) :
    (b ++ c :: t).dropWhile isSpace = c :: t := by
  induction b with
  | nil => simp [hc]
  | cons x b ih =>
    rw [List.cons_append, List.dropWhile_cons, if_pos (hb x (by simp))]
    exact ih fun y hy => hb y (by simp [hy])

theorem sign_skip {g : Str} (hg : g = [] ∨ g = ['+'] ∨ g = ['-']) {c : Char} (h1 : c ≠ '+') (h2 : c ≠ '-')
    (t : Str) : (sign (g ++ c :: t)).2 = c :: t := by
  rcases hg with rfl | rfl | rfl
  · show (sign (c :: t)).2 = c :: t
    unfold sign
    split
    · next e => simp only [List.cons.injEq] at e; exact absurd e.1 h2
    · next e => simp only [List.cons.injEq] at e; exact absurd e.1 h1
    · rfl
  · rfl
  · rfl

theorem skip_all {b g : Str} (hb : ∀ c ∈ b, isSpace c = true) (hg : g = [] ∨ g = ['+'] ∨ g = ['-']) {c : Char}
    (hc : isSpace c = false) (t : Str) : (b ++ (g ++ c :: t)).dropWhile isSpace = g ++ c :: t := by
  rcases hg with rfl | rfl | rfl
  · exact skip_blanks hb hc t
  · exact skip_blanks hb (by decide) (c :: t)
  · exact skip_blanks hb (by decide) (c :: t)

theorem blanks_space {b : Str} (h : Blanks b) : ∀ c ∈ b, isSpace c = true := by
  intro c hc
  have := h c hc
  simp only [Blank, List.mem_cons, List.not_mem_nil, or_false] at this
  rcases this with rfl | rfl | rfl | rfl | rfl <;> rfl

theorem not_space {c : Char} (h : ¬ Blank c) (hn : c ≠ '\n') : isSpace c = false := by
  by_contra hc
  have hc : isSpace c = true := by simpa using hc
  unfold isSpace at hc
  simp only [Bool.or_eq_true, Bool.and_eq_true, beq_iff_eq, decide_eq_true_eq] at hc
  simp only [Blank, List.mem_cons, List.not_mem_nil, or_false, not_or] at h
  obtain ⟨h1, h2, h3, h4, h5⟩ := h
  rcases hc with hc | ⟨l, u⟩
  · exact h1 hc
  · have key : ∀ x : Char, c.toNat = x.toNat → c = x := fun x e => Char.toNat_inj.1 e
    have : c.toNat = 9 ∨ c.toNat = 10 ∨ c.toNat = 11 ∨ c.toNat = 12 ∨ c.toNat = 13 := by omega
    rcases this with e | e | e | e | e
    exacts [h2 (key _ e), hn (key _ e), h3 (key _ e), h4 (key _ e), h5 (key _ e)]

theorem signText_cases (s : Option Bool) :
    Numeral.signText s = [] ∨ Numeral.signText s = ['+'] ∨ Numeral.signText s = ['-'] := by
  rcases s with _ | _ | _ <;> simp [Numeral.signText]

theorem stoi_text (s : Option Bool) {b ds rest : Str} (hb : ∀ c ∈ b, isSpace c = true)
    (hd : ∀ c ∈ ds, c.isDigit = true) (hne : ds ≠ []) (hr : ∀ c t, rest = c :: t → c.isDigit = false) :
    stoi (b ++ (Numeral.signText s ++ (ds ++ rest))) =
      if -2 ^ 31 ≤ Numeral.signValue s * Numeral.digitsValue ds ∧ Numeral.signValue s * Numeral.digitsValue ds < 2 ^ 31
      then ok (Numeral.signValue s * Numeral.digitsValue ds) else throws := by
  cases ds with
  | nil => exact absurd rfl hne
  | cons c t =>
    have hc := hd c (by simp)
    have hs : isSpace c = false := by
      by_contra h
      have h : isSpace c = true := by simpa using h
      have := isDigit_range hc
      unfold isSpace at h
      simp only [Bool.or_eq_true, Bool.and_eq_true, beq_iff_eq, decide_eq_true_eq] at h
      rcases h with rfl | h
      · exact absurd hc (by decide)
      · omega
    have hp : c ≠ '+' := fun e => by subst e; exact absurd hc (by decide)
    have hm : c ≠ '-' := fun e => by subst e; exact absurd hc (by decide)
    have h1 : ((c :: t) ++ rest).takeWhile Char.isDigit = c :: t := by
      rw [List.takeWhile_append_of_pos hd]
      cases rest with
      | nil => simp
      | cons x u => simp [hr x u rfl]
    have h2 : (sign (Numeral.signText s ++ (c :: (t ++ rest)))).1 = decide (s = some true) := by
      rcases s with _ | _ | _
      · show (sign (c :: (t ++ rest))).1 = _
        unfold sign
        split
        · next e => simp only [List.cons.injEq] at e; exact absurd e.1 hm
        · next e => simp only [List.cons.injEq] at e; exact absurd e.1 hp
        · rfl
      · rfl
      · rfl
    unfold stoi
    rw [List.cons_append, skip_all hb (signText_cases s) hs]
    have h3 := sign_skip (signText_cases s) hp hm (t ++ rest)
    rw [← List.cons_append] at h3 h2 ⊢
    simp only [h3, h2, List.span_eq_takeWhile_dropWhile, h1, List.isEmpty_cons, Bool.false_eq_true, if_false, natOf_eq]
    rcases s with _ | _ | _ <;> simp [Numeral.signValue]

end Dpgo.Text
