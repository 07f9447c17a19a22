import Verif.Lemmas.Text
import Mathlib.Tactic.Positivity
import Mathlib.Tactic.IntervalCases
import Mathlib.Algebra.Order.Field.Power

/-!
# Written numbers are numerals; six significant digits are the nearest ones
-/

namespace Dpgo.Text

open Res Spec

/-! ### Natural numbers -/

theorem digit_isDigit {k : Nat} (h : k < 10) : (digit k).isDigit = true ∧ digitVal (digit k) = k := by
  interval_cases k <;> decide

theorem showNat_lt {n : Nat} (h : n < 10) : showNat n = [digit n] := by
  rw [showNat]; simp [h]

theorem showNat_ge {n : Nat} (h : 10 ≤ n) : showNat n = showNat (n / 10) ++ [digit (n % 10)] := by
  rw [showNat]; simp [Nat.not_lt.2 h]

theorem showNat_spec (n : Nat) :
    (∀ c ∈ showNat n, c.isDigit = true) ∧ showNat n ≠ [] ∧ natOf (showNat n) = n := by
  induction n using Nat.strong_induction_on with
  | _ n ih =>
    by_cases h : n < 10
    · rw [showNat_lt h]
      obtain ⟨h1, h2⟩ := digit_isDigit h
      refine ⟨by simpa using h1, by simp, ?_⟩
      simp [natOf, h2]
    · obtain ⟨i1, i2, i3⟩ := ih (n / 10) (by omega)
      obtain ⟨h1, h2⟩ := digit_isDigit (Nat.mod_lt n (show 0 < 10 by omega))
      rw [showNat_ge (by omega)]
      refine ⟨?_, by simp, ?_⟩
      · intro c hc
        simp only [List.mem_append, List.mem_singleton] at hc
        rcases hc with hc | rfl
        · exact i1 c hc
        · exact h1
      · rw [natOf_append_singleton, i3, h2]
        omega

theorem showNat_length (k : Nat) : ∀ n, 10 ^ k ≤ n → n < 10 ^ (k + 1) → (showNat n).length = k + 1 := by
  induction k with
  | zero => intro n _ h; rw [showNat_lt (by simpa using h)]; rfl
  | succ k ih =>
    intro n h1 h2
    have : 10 ≤ n := le_trans (by rw [pow_succ]; have := Nat.one_le_pow k 10 (by omega); omega) h1
    rw [showNat_ge this, List.length_append, ih (n / 10)]
    · rfl
    · rw [Nat.le_div_iff_mul_le (by omega), ← pow_succ]; exact h1
    · rw [Nat.div_lt_iff_lt_mul (by omega), ← pow_succ]; exact h2

/-! ### Trailing zeros -/

theorem stripZeros_spec (s : Str) : ∃ k, s = stripZeros s ++ List.replicate k '0' := by
  unfold stripZeros
  induction s using List.reverseRecOn with
  | nil => exact ⟨0, rfl⟩
  | append_singleton s c ih =>
    rw [List.reverse_append, List.reverse_singleton, List.singleton_append, List.dropWhile_cons]
    by_cases h : c = '0'
    · subst h
      obtain ⟨k, hk⟩ := ih
      refine ⟨k + 1, ?_⟩
      simp only [beq_self_eq_true, if_true]
      rw [List.replicate_succ', ← List.append_assoc, ← hk]
    · have : (c == '0') = false := by simpa using h
      rw [this]
      exact ⟨0, by simp⟩

theorem stripZeros_digits {s : Str} (h : ∀ c ∈ s, c.isDigit = true) :
    ∀ c ∈ stripZeros s, c.isDigit = true := by
  obtain ⟨k, hk⟩ := stripZeros_spec s
  intro c hc
  apply h
  rw [hk]
  simp [hc]

/-- The value of a fraction does not depend on trailing zeros. -/
theorem frac_strip (s : Str) :
    (natOf (stripZeros s) : ℝ) / 10 ^ (stripZeros s).length = natOf s / 10 ^ s.length := by
  obtain ⟨k, hk⟩ := stripZeros_spec s
  have h1 : natOf s = natOf (stripZeros s) * 10 ^ k := by
    conv_lhs => rw [hk]
    rw [natOf_append, natOf_replicate_zero, List.length_replicate, Nat.add_zero]
  have h2 : s.length = (stripZeros s).length + k := by
    conv_lhs => rw [hk]
    simp
  rw [h1, h2, pow_add]
  push_cast
  have : (10 : ℝ) ^ k ≠ 0 := by positivity
  field_simp

/-! ### The general format is a numeral -/

/-- Fraction part: nothing, or point and digits. -/
def optFrac (s : Str) : Option Str := if s.isEmpty then none else some s

theorem pointed_eq (s : Str) : pointed s = fracText (optFrac s) := by
  unfold pointed optFrac fracText
  cases s <;> rfl

theorem optFrac_getD (s : Str) : (optFrac s).getD [] = s := by
  unfold optFrac
  cases s <;> rfl

/-- The exponent digits. -/
def expDigits (k : Nat) : Str := if k < 10 then '0' :: showNat k else showNat k

theorem expDigits_spec (k : Nat) :
    (∀ c ∈ expDigits k, c.isDigit = true) ∧ expDigits k ≠ [] ∧ natOf (expDigits k) = k := by
  obtain ⟨h1, h2, h3⟩ := showNat_spec k
  unfold expDigits
  split_ifs
  · refine ⟨?_, by simp, ?_⟩
    · intro c hc
      simp only [List.mem_cons] at hc
      rcases hc with rfl | hc
      · decide
      · exact h1 c hc
    · rw [show '0' :: showNat k = ['0'] ++ showNat k from rfl, natOf_append, h3]
      simp [natOf, digitVal]
  · exact ⟨h1, h2, h3⟩

theorem showExp_eq (e : Int) : showExp e = expText (some (false, some (decide (e < 0)), expDigits e.natAbs)) := by
  unfold showExp expText expDigits
  by_cases h : e < 0
  · simp [h, Numeral.signText]
  · simp [h, Numeral.signText]

/-- The numeral written for a positive number. -/
def generalNumeral (neg : Bool) (m : Nat) (e : Int) : Numeral :=
  let sg := if neg then some true else none
  let ds := showNat m
  if e < -4 ∨ 6 ≤ e then
    ⟨sg, ds.take 1, optFrac (stripZeros (ds.drop 1)), some (false, some (decide (e < 0)), expDigits e.natAbs)⟩
  else if e < 0 then ⟨sg, ['0'], some (List.replicate (e.natAbs - 1) '0' ++ stripZeros ds), none⟩
  else ⟨sg, ds.take (e.natAbs + 1), optFrac (stripZeros (ds.drop (e.natAbs + 1))), none⟩

theorem general_text (neg : Bool) (m : Nat) (e : Int) :
    (generalNumeral neg m e).text = (if neg then ['-'] else []) ++ showGeneral m e := by
  rw [text_eq]
  have hs : Numeral.signText (if neg then some true else none) = if neg then ['-'] else [] := by
    cases neg <;> rfl
  unfold generalNumeral showGeneral
  simp only
  split_ifs <;> simp_all [pointed_eq, showExp_eq, fracText, expText]

/-- Mantissa digits in front of and behind a cut. -/
theorem cut_value {m k : Nat} (hm : 10 ^ 5 ≤ m) (hm' : m < 10 ^ 6) (hk : k ≤ 6) :
    (natOf ((showNat m).take k) : ℝ) + natOf ((showNat m).drop k) / 10 ^ (6 - k) = m / 10 ^ (6 - k) := by
  have hlen := showNat_length 5 m hm hm'
  have h1 := (showNat_spec m).2.2
  conv at h1 => lhs; rw [← List.take_append_drop k (showNat m), natOf_append, List.length_drop, hlen]
  have : (natOf ((showNat m).take k) : ℝ) * 10 ^ (6 - k) + natOf ((showNat m).drop k) = m := by
    have h2 : (5 + 1 - k) = 6 - k := by omega
    rw [h2] at h1
    exact_mod_cast h1
  rw [← this]
  have : (10 : ℝ) ^ (6 - k) ≠ 0 := by positivity
  field_simp

theorem general_valid (neg : Bool) {m : Nat} (hm : 10 ^ 5 ≤ m) (hm' : m < 10 ^ 6) (e : Int) :
    (generalNumeral neg m e).Valid := by
  have hlen := showNat_length 5 m hm hm'
  obtain ⟨h1, h2, h3⟩ := showNat_spec m
  have htake : ∀ k, ∀ c ∈ (showNat m).take k, c.isDigit = true := fun k c hc => h1 c (List.mem_of_mem_take hc)
  have hdrop : ∀ k, ∀ c ∈ stripZeros ((showNat m).drop k), c.isDigit = true := fun k =>
    stripZeros_digits fun c hc => h1 c (List.mem_of_mem_drop hc)
  unfold generalNumeral
  simp only
  generalize (if neg = true then some true else none) = sg
  split_ifs with c1 c2
  · refine ⟨Or.inl ?_, htake 1, ?_, ?_⟩
    · simp [h2]
    · rw [Numeral.fracDigits, optFrac_getD]; exact hdrop 1
    · intro cap s ds hds
      simp only [Option.some.injEq, Prod.mk.injEq] at hds
      obtain ⟨-, -, rfl⟩ := hds
      exact ⟨(expDigits_spec _).2.1, (expDigits_spec _).1⟩
  · refine ⟨Or.inl (by simp), ?_, ?_, ?_⟩
    · intro c hc
      simp only [List.mem_singleton] at hc
      subst hc; decide
    · intro c hc
      simp only [Numeral.fracDigits, Option.getD_some, List.mem_append, List.mem_replicate] at hc
      rcases hc with ⟨-, rfl⟩ | hc
      · decide
      · exact stripZeros_digits h1 c hc
    · intro cap s ds hds; cases hds
  · refine ⟨Or.inl ?_, htake _, ?_, ?_⟩
    · simp [h2]
    · rw [Numeral.fracDigits, optFrac_getD]; exact hdrop _
    · intro cap s ds hds; cases hds

theorem general_value (neg : Bool) {m : Nat} (hm : 10 ^ 5 ≤ m) (hm' : m < 10 ^ 6) (e : Int) :
    (generalNumeral neg m e).value = (if neg then -1 else 1) * ((m : ℝ) * (10 : ℝ) ^ (e - 5)) := by
  have hlen := showNat_length 5 m hm hm'
  have hsg : ((Numeral.signValue (if neg then some true else none) : Int) : ℝ) = if neg then -1 else 1 := by
    cases neg <;> simp [Numeral.signValue]
  have h10 : (10 : ℝ) ≠ 0 := by norm_num
  unfold generalNumeral
  simp only
  generalize (if neg = true then some true else none) = sg at hsg ⊢
  generalize (if neg = true then (-1 : ℝ) else 1) = σ at hsg ⊢
  split_ifs with c1 c2
  · have hcut := cut_value (k := 1) hm hm' (by omega)
    have hst := frac_strip ((showNat m).drop 1)
    have hl : ((showNat m).drop 1).length = 5 := by rw [List.length_drop, hlen]
    rw [hl] at hst
    rw [Numeral.value, hsg, mul_assoc]
    congr 1
    simp only [Numeral.fracDigits, optFrac_getD, ← natOf_eq]
    rw [hst, show (5 : Nat) = 6 - 1 from rfl, hcut]
    have hE : (⟨sg, (showNat m).take 1, optFrac (stripZeros ((showNat m).drop 1)),
        some (false, some (decide (e < 0)), expDigits e.natAbs)⟩ : Numeral).expValue = e := by
      simp only [Numeral.expValue, ← natOf_eq, (expDigits_spec e.natAbs).2.2]
      by_cases he : e < 0
      · simp only [he, decide_true, Numeral.signValue]; omega
      · simp only [he, decide_false, Numeral.signValue]; omega
    rw [hE, zpow_sub₀ h10]
    norm_num
    ring
  · have hst := frac_strip (showNat m)
    rw [hlen, (showNat_spec m).2.2] at hst
    rw [Numeral.value, hsg, mul_assoc]
    congr 1
    simp only [Numeral.fracDigits, Option.getD_some, ← natOf_eq, Numeral.expValue, zpow_zero, mul_one]
    rw [natOf_append, natOf_replicate_zero, List.length_append, List.length_replicate, pow_add]
    have e0 : natOf ['0'] = 0 := rfl
    rw [e0]
    push_cast
    have hb : (10 : ℝ) ^ (stripZeros (showNat m)).length ≠ 0 := by positivity
    have : (natOf (stripZeros (showNat m)) : ℝ) =
        m / 10 ^ 6 * 10 ^ (stripZeros (showNat m)).length := by
      rw [← hst]; field_simp
    rw [this]
    have hexp : (e - 5 : Int) = -((6 + (e.natAbs - 1) : Nat) : Int) := by omega
    rw [hexp, zpow_neg, zpow_natCast, pow_add]
    field_simp
    ring
  · have hk : e.natAbs + 1 ≤ 6 := by omega
    have hcut := cut_value (k := e.natAbs + 1) hm hm' hk
    have hst := frac_strip ((showNat m).drop (e.natAbs + 1))
    rw [List.length_drop, hlen] at hst
    rw [Numeral.value, hsg, mul_assoc]
    congr 1
    simp only [Numeral.fracDigits, optFrac_getD, ← natOf_eq, Numeral.expValue, zpow_zero, mul_one]
    rw [hst, show 5 + 1 - (e.natAbs + 1) = 6 - (e.natAbs + 1) by omega, hcut]
    have hexp : (e - 5 : Int) = -((6 - (e.natAbs + 1) : Nat) : Int) := by omega
    rw [hexp, zpow_neg, zpow_natCast]
    rfl

end Dpgo.Text
