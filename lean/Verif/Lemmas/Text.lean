import Verif.Model.Text
import Verif.Spec.Text
import Mathlib.Data.List.Induction
import Mathlib.Tactic.Ring
import Mathlib.Tactic.Linarith
import Mathlib.Tactic.FieldSimp
import Mathlib.Tactic.NormNum

/-!
# Reading and writing numbers
-/

namespace Dpgo.Text

open Res Spec

theorem natOf_append_singleton (a : Str) (c : Char) : natOf (a ++ [c]) = 10 * natOf a + digitVal c := by
  simp [natOf, List.foldl_append]

theorem natOf_append (a b : Str) : natOf (a ++ b) = natOf a * 10 ^ b.length + natOf b := by
  induction b using List.reverseRecOn with
  | nil => simp [natOf]
  | append_singleton b c ih =>
    rw [← List.append_assoc, natOf_append_singleton, natOf_append_singleton, ih, List.length_append,
      List.length_singleton, pow_succ]
    ring

theorem natOf_eq (ds : Str) : natOf ds = Numeral.digitsValue ds := by
  induction ds using List.reverseRecOn with
  | nil => rfl
  | append_singleton b c ih =>
    rw [natOf_append_singleton, ih]
    simp only [Numeral.digitsValue, List.reverse_append, List.reverse_singleton, List.singleton_append,
      List.map_cons, Nat.ofDigits_cons]
    change _ = digitVal c + _
    omega

theorem natOf_replicate_zero (k : Nat) : natOf (List.replicate k '0') = 0 := by
  induction k with
  | zero => rfl
  | succ k ih => rw [List.replicate_succ', natOf_append_singleton, ih]; rfl

/-! ### Splitting at the first non-digit -/

theorem span_eq {p : Char → Bool} {a b : Str} (ha : ∀ c ∈ a, p c = true)
    (hb : ∀ c t, b = c :: t → p c = false) : (a ++ b).span p = (a, b) := by
  rw [List.span_eq_takeWhile_dropWhile]
  induction a with
  | nil =>
    cases b with
    | nil => rfl
    | cons c t => simp [hb c t rfl]
  | cons c a ih =>
    have h1 := ha c (by simp)
    have h2 := ih (fun x hx => ha x (by simp [hx]))
    simp only [Prod.mk.injEq] at h2
    simp [h1, h2.1, h2.2]

/-- The next character cannot continue a numeral. -/
def Stops (s : Str) : Prop := ∀ c t, s = c :: t → c.isDigit = false ∧ c ≠ '.' ∧ c ≠ 'e' ∧ c ≠ 'E'

theorem stops_nil : Stops [] := by intro c t h; cases h

theorem isDigit_ne {c d : Char} (h : c.isDigit = true) (hd : d.isDigit = false) : c ≠ d := by
  rintro rfl; rw [h] at hd; cases hd

/-- The text does not begin with a sign. -/
theorem sign_of_ne {s : Str} (h : ∀ c t, s = c :: t → c ≠ '-' ∧ c ≠ '+') : sign s = (false, s) := by
  unfold sign
  split
  · exact absurd rfl (h _ _ rfl).1
  · exact absurd rfl (h _ _ rfl).2
  · rfl

theorem sign_text (σ : Option Bool) (s : Str) (h : ∀ c t, s = c :: t → c ≠ '-' ∧ c ≠ '+') :
    sign (Numeral.signText σ ++ s) = (decide (σ = some true), s) := by
  match σ with
  | none => simpa [Numeral.signText] using sign_of_ne h
  | some true => rfl
  | some false => rfl

theorem fraction_of_ne {s : Str} (h : ∀ t, s ≠ '.' :: t) : fraction s = ([], s) := by
  unfold fraction
  split
  · exact absurd rfl (h _)
  · rfl

theorem decimal_value (n : Numeral) (e : Int) (he : n.expValue = e) :
    decimal (decide (n.sign = some true)) n.int n.fracDigits e = n.value := by
  unfold decimal Numeral.value
  rw [natOf_append, natOf_eq, natOf_eq, he, zpow_sub₀ (by norm_num), zpow_natCast]
  have h10 : (10 : ℝ) ^ n.fracDigits.length ≠ 0 := by positivity
  have hs : (if decide (n.sign = some true) = true then (-1 : ℝ) else 1) =
      ((Numeral.signValue n.sign : Int) : ℝ) := by
    rcases n.sign with _ | _ | _ <;> simp [Numeral.signValue]
  rw [hs]
  push_cast
  field_simp

/-- The exponent part of a numeral followed by other text. -/
def expText : Option (Bool × Option Bool × List Char) → Str
  | none => []
  | some (cap, s, ds) => (if cap then 'E' else 'e') :: (Numeral.signText s ++ ds)

/-- The fraction part of a numeral. -/
def fracText : Option (List Char) → Str
  | none => []
  | some f => '.' :: f

theorem text_eq (n : Numeral) :
    n.text = Numeral.signText n.sign ++ (n.int ++ (fracText n.frac ++ expText n.exp)) := by
  unfold Numeral.text fracText expText
  rcases n.frac with _ | f <;> rcases n.exp with _ | ⟨c, s, ds⟩ <;> simp

theorem digits_head {a b : Str} (h : ∀ c ∈ a, c.isDigit = true) (hne : a ≠ []) :
    ∀ c t, a ++ b = c :: t → c.isDigit = true := by
  intro c t e
  cases a with
  | nil => exact absurd rfl hne
  | cons x a => simp only [List.cons_append, List.cons.injEq] at e; exact e.1 ▸ h x (by simp)

theorem not_sign_of_digit {c : Char} (h : c.isDigit = true) : c ≠ '-' ∧ c ≠ '+' :=
  ⟨isDigit_ne h (by decide), isDigit_ne h (by decide)⟩

theorem exponent_text {n : Numeral} (hv : n.Valid) (x : Bool × Option Bool × List Char)
    (hx : n.exp = some x) {rest : Str} (hr : Stops rest) :
    exponent (expText n.exp ++ rest) = some (n.expValue, rest) := by
  obtain ⟨cap, s, ds⟩ := x
  obtain ⟨h1, h2⟩ := hv.exp_digits cap s ds hx
  have hsp : (ds ++ rest).span Char.isDigit = (ds, rest) := span_eq h2 (fun c t e => (hr c t e).1)
  have hsg : sign (Numeral.signText s ++ (ds ++ rest)) = (decide (s = some true), ds ++ rest) :=
    sign_text s _ (fun c t e => not_sign_of_digit (digits_head h2 h1 c t e))
  have hc : (if cap = true then 'E' else 'e') = 'e' ∨ (if cap = true then 'E' else 'e') = 'E' := by
    cases cap <;> simp
  rw [hx]
  simp only [expText, List.cons_append, List.append_assoc, exponent, hc, if_true, hsg, hsp]
  have : ds.isEmpty = false := by rw [List.isEmpty_eq_false_iff]; exact h1
  rw [this]
  simp only [Bool.false_eq_true, if_false, Option.some.injEq, Prod.mk.injEq, and_true]
  rw [Numeral.expValue, hx, natOf_eq]
  rcases s with _ | _ | _ <;> simp [Numeral.signValue]

theorem exp_head {n : Numeral} {rest : Str} (hr : Stops rest) :
    ∀ c t, expText n.exp ++ rest = c :: t → c.isDigit = false ∧ c ≠ '.' ∧ c ≠ '-' ∧ c ≠ '+' ∨
      n.exp = none ∧ c.isDigit = false ∧ c ≠ '.' := by
  intro c t e
  rcases hx : n.exp with _ | ⟨cap, s, ds⟩
  · rw [hx] at e
    obtain ⟨h1, h2, -⟩ := hr c t e
    exact Or.inr ⟨rfl, h1, h2⟩
  · rw [hx] at e
    simp only [expText, List.cons_append, List.cons.injEq] at e
    left
    rw [← e.1]
    cases cap <;> decide

/-- Reading the parts of a numeral in front of text that cannot continue it. -/
theorem read_parts {n : Numeral} (hv : n.Valid) {rest : Str} (hr : Stops rest) :
    ∃ u, sign (n.text ++ rest) = (decide (n.sign = some true), u) ∧
      ∃ w, u.span Char.isDigit = (n.int, w) ∧ fraction w = (n.fracDigits, expText n.exp ++ rest) := by
  have hexp : ∀ c t, expText n.exp ++ rest = c :: t → c.isDigit = false ∧ c ≠ '.' := by
    intro c t e
    rcases exp_head hr c t e with ⟨h1, h2, -⟩ | ⟨-, h1, h2⟩ <;> exact ⟨h1, h2⟩
  have hfrac : ∀ c t, fracText n.frac ++ (expText n.exp ++ rest) = c :: t → c.isDigit = false := by
    intro c t e
    rcases hf : n.frac with _ | f
    · rw [hf] at e; exact (hexp c t e).1
    · rw [hf] at e
      simp only [fracText, List.cons_append, List.cons.injEq] at e
      rw [← e.1]; decide
  refine ⟨n.int ++ (fracText n.frac ++ (expText n.exp ++ rest)), ?_,
    fracText n.frac ++ (expText n.exp ++ rest), span_eq hv.int_digits hfrac, ?_⟩
  · rw [text_eq]
    simp only [List.append_assoc]
    apply sign_text
    intro c t e
    by_cases hi : n.int = []
    · rw [hi, List.nil_append] at e
      rcases hv.some_digit with h | h
      · exact absurd hi h
      · rcases hf : n.frac with _ | f
        · rw [Numeral.fracDigits, hf] at h; exact absurd rfl h
        · rw [hf] at e
          simp only [fracText, List.cons_append, List.cons.injEq] at e
          rw [← e.1]; decide
    · exact not_sign_of_digit (digits_head hv.int_digits hi c t e)
  · rcases hf : n.frac with _ | f
    · simp only [fracText, List.nil_append, Numeral.fracDigits, hf, Option.getD_none]
      apply fraction_of_ne
      intro t e
      exact (hexp _ _ e).2 rfl
    · simp only [fracText, List.cons_append, Numeral.fracDigits, hf, Option.getD_some, fraction]
      apply span_eq
      · have := hv.frac_digits
        rwa [Numeral.fracDigits, hf, Option.getD_some] at this
      · intro c t e; exact (hexp c t e).1

theorem parts_not_empty {n : Numeral} (hv : n.Valid) : (n.int.isEmpty && n.fracDigits.isEmpty) = false := by
  rcases hv.some_digit with h | h
  · rw [List.isEmpty_eq_false_iff.2 h]; rfl
  · rw [List.isEmpty_eq_false_iff.2 h]; simp

theorem exponent_stops {s : Str} (hs : Stops s) : exponent s = none := by
  unfold exponent
  split
  · next c t =>
    obtain ⟨-, -, h3, h4⟩ := hs c t rfl
    simp [h3, h4]
  · rfl

theorem strtod_text {n : Numeral} (hv : n.Valid) {rest : Str} (hr : Stops rest) :
    strtod (n.text ++ rest) = some (n.value, rest) := by
  obtain ⟨u, h1, w, h2, h3⟩ := read_parts hv hr
  unfold strtod
  simp only [h1, h2, h3, parts_not_empty hv, Bool.false_eq_true, if_false]
  rcases hx : n.exp with _ | x
  · rw [show expText none ++ rest = rest from rfl, exponent_stops hr]
    simp only [Option.some.injEq, Prod.mk.injEq, and_true]
    exact decimal_value n 0 (by rw [Numeral.expValue, hx])
  · rw [← hx, exponent_text hv x hx hr]
    simp only [Option.some.injEq, Prod.mk.injEq, and_true]
    exact decimal_value n _ rfl

theorem text_ne_nil {n : Numeral} (hv : n.Valid) : n.text ≠ [] := by
  rw [text_eq]
  intro h
  simp only [List.append_eq_nil_iff] at h
  obtain ⟨-, h1, h2, -⟩ := h
  rcases hv.some_digit with h' | h'
  · exact h' h1
  · apply h'
    rcases hf : n.frac with _ | f
    · rw [Numeral.fracDigits, hf]; rfl
    · rw [hf] at h2; simp [fracText] at h2

/-- Characters that occur in numerals. -/
def NumChar (c : Char) : Prop := c.isDigit = true ∨ c = '-' ∨ c = '+' ∨ c = '.' ∨ c = 'e' ∨ c = 'E'

theorem text_chars {n : Numeral} (hv : n.Valid) : ∀ c ∈ n.text, NumChar c := by
  intro c hc
  rw [text_eq] at hc
  have sg : ∀ σ, c ∈ Numeral.signText σ → NumChar c := by
    intro σ h
    rcases σ with _ | _ | _ <;> simp [Numeral.signText] at h <;> simp [NumChar, h]
  simp only [List.mem_append] at hc
  rcases hc with h | h | h | h
  · exact sg _ h
  · exact Or.inl (hv.int_digits c h)
  · rcases hf : n.frac with _ | f
    · rw [hf] at h; simp [fracText] at h
    · rw [hf] at h
      simp only [fracText, List.mem_cons] at h
      rcases h with rfl | h
      · simp [NumChar]
      · exact Or.inl (hv.frac_digits c (by rw [Numeral.fracDigits, hf]; exact h))
  · rcases hx : n.exp with _ | ⟨cap, s, ds⟩
    · rw [hx] at h; simp [expText] at h
    · rw [hx] at h
      simp only [expText, List.mem_cons, List.mem_append] at h
      rcases h with rfl | h | h
      · cases cap <;> simp [NumChar]
      · exact sg _ h
      · exact Or.inl ((hv.exp_digits cap s ds hx).2 c h)

theorem isDigit_range {c : Char} (h : c.isDigit = true) : 48 ≤ c.toNat ∧ c.toNat ≤ 57 := by
  simp only [Char.isDigit, Bool.and_eq_true, decide_eq_true_eq] at h
  exact ⟨UInt32.le_iff_toNat_le.1 h.1, UInt32.le_iff_toNat_le.1 h.2⟩

theorem numChar_not_space {c : Char} (h : NumChar c) : isSpace c = false := by
  rcases h with h | rfl | rfl | rfl | rfl | rfl
  · have h' := isDigit_range h
    have : c ≠ ' ' := isDigit_ne h (by decide)
    simp only [isSpace, Bool.or_eq_false_iff, beq_eq_false_iff_ne, ne_eq, this, not_false_iff, true_and,
      Bool.and_eq_false_iff, decide_eq_false_iff_not]
    omega
  all_goals decide

theorem numChar_ne {c : Char} (h : NumChar c) : c ≠ ',' ∧ c ≠ '\n' := by
  rcases h with h | rfl | rfl | rfl | rfl | rfl
  · exact ⟨isDigit_ne h (by decide), isDigit_ne h (by decide)⟩
  all_goals decide

theorem dropWhile_space {s : Str} (h : ∀ c t, s = c :: t → isSpace c = false) :
    s.dropWhile isSpace = s := by
  cases s with
  | nil => rfl
  | cons c t => rw [List.dropWhile_cons, h c t rfl]; simp

theorem dropWhile_blanks {ws s : Str} (hw : ∀ c ∈ ws, isSpace c = true)
    (h : ∀ c t, s = c :: t → isSpace c = false) : (ws ++ s).dropWhile isSpace = s := by
  induction ws with
  | nil => exact dropWhile_space h
  | cons c ws ih =>
    rw [List.cons_append, List.dropWhile_cons, hw c (by simp)]
    simpa using ih (fun x hx => hw x (by simp [hx]))

theorem text_head {n : Numeral} (hv : n.Valid) {rest : Str} :
    ∀ c t, n.text ++ rest = c :: t → NumChar c := by
  intro c t e
  have hne := text_ne_nil hv
  cases ht : n.text with
  | nil => exact absurd ht hne
  | cons x l =>
    rw [ht] at e
    simp only [List.cons_append, List.cons.injEq] at e
    rw [← e.1]
    exact text_chars hv x (by rw [ht]; simp)

theorem not_special {n : Numeral} (hv : n.Valid) {rest : Str} (hr : Stops rest) :
    isSpecial (sign (n.text ++ rest)).2 = false := by
  obtain ⟨u, h1, w, h2, h3⟩ := read_parts hv hr
  rw [h1]
  simp only
  have hu : ∀ c t, u = c :: t → c.toLower ≠ 'i' ∧ c.toLower ≠ 'n' := by
    intro c t e
    have : c ∈ n.text ++ rest → True := fun _ => trivial
    have hd : c.isDigit = true ∨ c = '.' := by
      rw [List.span_eq_takeWhile_dropWhile] at h2
      simp only [Prod.mk.injEq] at h2
      by_cases hi : n.int = []
      · right
        rw [hi] at h2
        have hw : w = u := by
          have := List.takeWhile_append_dropWhile (p := Char.isDigit) (l := u)
          rw [h2.1, h2.2] at this
          simpa using this
        rcases hv.some_digit with h | h
        · exact absurd hi h
        · rw [hw, e] at h3
          by_contra hc
          rw [fraction_of_ne (by intro t' e'; simp only [List.cons.injEq] at e'; exact hc e'.1)] at h3
          simp only [Prod.mk.injEq] at h3
          exact h h3.1.symm
      · left
        have hmem : c ∈ n.int := by
          rw [← h2.1, e, List.takeWhile_cons]
          by_cases hd : c.isDigit = true
          · rw [hd]; simp
          · exfalso
            rw [e, List.takeWhile_cons] at h2
            simp only [Bool.not_eq_true] at hd
            rw [hd] at h2
            exact hi h2.1.symm
        exact hv.int_digits c hmem
    have hl : c.toLower = c := by
      rcases hd with hd | rfl
      · have := isDigit_range hd
        unfold Char.toLower
        have : ¬ (c.val ≥ 65 ∧ c.val ≤ 90) := by
          rintro ⟨h, -⟩
          have := UInt32.le_iff_toNat_le.1 h
          have e65 : (65 : UInt32).toNat = 65 := rfl
          have e' : c.val.toNat = c.toNat := rfl
          omega
        split
        · next h => exact absurd h this
        · rfl
      · decide
    rw [hl]
    rcases hd with hd | rfl
    · exact ⟨isDigit_ne hd (by decide), isDigit_ne hd (by decide)⟩
    · decide
  unfold isSpecial
  cases u with
  | nil => rfl
  | cons c t =>
    obtain ⟨q1, q2⟩ := hu c t rfl
    simp [q1, q2]

theorem stod_text {n : Numeral} (hv : n.Valid) {rest : Str} (hr : Stops rest) :
    stod (n.text ++ rest) = ok n.value := by
  have hs : (n.text ++ rest).dropWhile isSpace = n.text ++ rest :=
    dropWhile_space fun c t e => numChar_not_space (text_head hv c t e)
  unfold stod
  simp only [hs, not_special hv hr, Bool.false_eq_true, if_false, strtod_text hv hr]

theorem extractReal_text {n : Numeral} (hv : n.Valid) {ws rest : Str} (hw : ∀ c ∈ ws, isSpace c = true)
    (hr : Stops rest) : extractReal (ws ++ (n.text ++ rest)) = .got n.value rest := by
  have hs : (ws ++ (n.text ++ rest)).dropWhile isSpace = n.text ++ rest :=
    dropWhile_blanks hw fun c t e => numChar_not_space (text_head hv c t e)
  obtain ⟨u, h1, w, h2, h3⟩ := read_parts hv hr
  have hne : (n.text ++ rest).isEmpty = false := by
    rw [List.isEmpty_eq_false_iff]
    simp [text_ne_nil hv]
  unfold extractReal
  simp only [hs, hne, h1, h2, h3, parts_not_empty hv, Bool.false_eq_true, if_false]
  rcases hx : n.exp with _ | x
  · simp only [expText, List.nil_append]
    have hval : decimal (decide (n.sign = some true)) n.int n.fracDigits 0 = n.value :=
      decimal_value n 0 (by rw [Numeral.expValue, hx])
    cases rest with
    | nil => simp only [hval]
    | cons c t =>
      obtain ⟨-, -, q1, q2⟩ := hr c t rfl
      simp [q1, q2, hval]
  · rw [← hx]
    have he := exponent_text hv x hx hr
    obtain ⟨cap, s, ds⟩ := x
    have hform : expText n.exp ++ rest =
        (if cap then 'E' else 'e') :: (Numeral.signText s ++ ds ++ rest) := by
      rw [hx]; simp [expText]
    rw [hform] at he ⊢
    have hc : (if cap = true then 'E' else 'e') = 'e' ∨ (if cap = true then 'E' else 'e') = 'E' := by
      cases cap <;> simp
    simp only [hc, if_true, he]
    rw [decimal_value n _ rfl]

end Dpgo.Text
