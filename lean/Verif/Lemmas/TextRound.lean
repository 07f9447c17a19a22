import Verif.Lemmas.TextShow

/-!
# Six significant digits: nearest numbers, exactness, relative error
-/

namespace Dpgo.Text

open Res Spec

theorem roundEven_near (y : ℝ) (k : Int) : |y - roundEven y| ≤ |y - k| := by
  have h1 := Int.floor_le y
  have h2 := Int.lt_floor_add_one y
  have key : |y - roundEven y| ≤ y - ⌊y⌋ ∧ |y - roundEven y| ≤ ⌊y⌋ + 1 - y := by
    unfold roundEven
    split_ifs with a b c
    · rw [abs_of_nonneg (by linarith)]; constructor <;> linarith
    · push_cast; rw [abs_of_nonpos (by linarith)]; constructor <;> linarith
    · rw [abs_of_nonneg (by linarith)]; constructor <;> linarith
    · push_cast; rw [abs_of_nonpos (by linarith)]; constructor <;> linarith
  by_cases hk : k ≤ ⌊y⌋
  · have : (k : ℝ) ≤ ⌊y⌋ := by exact_mod_cast hk
    rw [abs_of_nonneg (show 0 ≤ y - k by linarith)]
    linarith [key.1]
  · have : (⌊y⌋ : ℝ) + 1 ≤ k := by exact_mod_cast (show ⌊y⌋ + 1 ≤ k by omega)
    rw [abs_of_nonpos (show y - k ≤ 0 by linarith)]
    linarith [key.2]

theorem roundEven_half (y : ℝ) : |y - roundEven y| ≤ 1 / 2 := by
  have h1 := Int.floor_le y
  have h2 := Int.lt_floor_add_one y
  by_cases h : y - ⌊y⌋ ≤ 1 / 2
  · exact le_trans (roundEven_near y ⌊y⌋) (by rw [abs_of_nonneg (by linarith)]; exact h)
  · refine le_trans (roundEven_near y (⌊y⌋ + 1)) ?_
    push_cast
    rw [abs_of_nonpos (by linarith)]
    linarith

theorem roundEven_bounds {y : ℝ} {a b : Int} (ha : (a : ℝ) ≤ y) (hb : y ≤ b) :
    a ≤ roundEven y ∧ roundEven y ≤ b := by
  have hfa : a ≤ ⌊y⌋ := Int.le_floor.2 ha
  have hyb : y < b ∨ y = b := lt_or_eq_of_le hb
  rcases hyb with hyb | rfl
  · have hfb : ⌊y⌋ < b := Int.floor_lt.2 hyb
    unfold roundEven
    split_ifs <;> omega
  · have : roundEven (b : ℝ) = b := by
      unfold roundEven
      rw [Int.floor_intCast, sub_self, if_pos (by norm_num)]
    rw [this]
    constructor
    · exact_mod_cast ha
    · exact le_rfl

/-- What the six digits of a positive number are. -/
theorem sig6_spec {x : ℝ} (hx : 0 < x) :
    10 ^ 5 ≤ (sig6 x).1 ∧ (sig6 x).1 < 10 ^ 6 ∧ ∃ e : Int, (10 : ℝ) ^ e ≤ x ∧ x < (10 : ℝ) ^ (e + 1) ∧
      ((sig6 x).1 : ℝ) * (10 : ℝ) ^ ((sig6 x).2 - 5) =
        roundEven (x * (10 : ℝ) ^ (5 - e)) * (10 : ℝ) ^ (e - 5) := by
  have h10 : (10 : ℝ) ≠ 0 := by norm_num
  have hl : (10 : ℝ) ^ Int.log 10 x ≤ x := by
    have := Int.zpow_log_le_self (R := ℝ) (b := 10) (by norm_num) hx; exact_mod_cast this
  have hu : x < (10 : ℝ) ^ (Int.log 10 x + 1) := by
    have := Int.lt_zpow_succ_log_self (R := ℝ) (b := 10) (by norm_num) x; exact_mod_cast this
  set e := Int.log 10 x with he
  have hp : 0 < (10 : ℝ) ^ (5 - e) := by positivity
  have hy1 : ((10 ^ 5 : Int) : ℝ) ≤ x * (10 : ℝ) ^ (5 - e) := by
    have : (10 : ℝ) ^ e * (10 : ℝ) ^ (5 - e) ≤ x * (10 : ℝ) ^ (5 - e) := by gcongr
    rw [← zpow_add₀ h10, show e + (5 - e) = 5 by ring] at this
    push_cast
    exact_mod_cast this
  have hy2 : x * (10 : ℝ) ^ (5 - e) ≤ ((10 ^ 6 : Int) : ℝ) := by
    have : x * (10 : ℝ) ^ (5 - e) ≤ (10 : ℝ) ^ (e + 1) * (10 : ℝ) ^ (5 - e) := by gcongr
    rw [← zpow_add₀ h10, show e + 1 + (5 - e) = 6 by ring] at this
    push_cast
    exact_mod_cast this
  obtain ⟨b1, b2⟩ := roundEven_bounds hy1 hy2
  set R := roundEven (x * (10 : ℝ) ^ (5 - e)) with hR
  have hRn : ((R.toNat : Nat) : Int) = R := Int.toNat_of_nonneg (by omega)
  have hRr : ((R.toNat : Nat) : ℝ) = (R : ℝ) := by exact_mod_cast congrArg (Int.cast (R := ℝ)) hRn
  unfold sig6
  simp only
  rw [← he, ← hR]
  split_ifs with c
  · refine ⟨by norm_num, by norm_num, e, hl, hu, ?_⟩
    have : (R : ℝ) = 10 ^ 6 := by rw [← hRr, c]; norm_num
    rw [this, show e + 1 - 5 = (e - 5) + 1 by ring, zpow_add₀ h10]
    norm_num
    ring
  · refine ⟨by omega, by omega, e, hl, hu, ?_⟩
    rw [hRr]

/-- The number written for `x`. -/
noncomputable def round6 (x : ℝ) : ℝ :=
  if x = 0 then 0
  else if x < 0 then -(((sig6 (-x)).1 : ℝ) * (10 : ℝ) ^ ((sig6 (-x)).2 - 5))
  else ((sig6 x).1 : ℝ) * (10 : ℝ) ^ ((sig6 x).2 - 5)

theorem round6_neg (x : ℝ) : round6 (-x) = - round6 x := by
  unfold round6
  rcases lt_trichotomy x 0 with h | rfl | h
  · rw [if_neg (by linarith), if_neg (by linarith), if_neg h.ne, if_pos h, neg_neg]
  · simp
  · rw [if_neg (by linarith), if_pos (by linarith), if_neg h.ne', if_neg (by linarith), neg_neg]

theorem round6_pos {x : ℝ} (hx : 0 < x) : round6 x = ((sig6 x).1 : ℝ) * (10 : ℝ) ^ ((sig6 x).2 - 5) := by
  unfold round6
  rw [if_neg hx.ne', if_neg (by linarith)]

theorem sixDigits_neg {x : ℝ} (h : SixDigits x) : SixDigits (-x) := by
  obtain ⟨m, e, h1, h2⟩ := h
  exact ⟨-m, e, by rwa [abs_neg], by rw [h2]; push_cast; ring⟩

/-- Two ways of comparing with a number of six digits. -/
theorem near_pos {x : ℝ} (hx : 0 < x) : Rounded6 x (round6 x) := by
  have h10 : (10 : ℝ) ≠ 0 := by norm_num
  obtain ⟨h1, h2, e, hl, hu, hr⟩ := sig6_spec hx
  rw [round6_pos hx]
  refine ⟨⟨(sig6 x).1, (sig6 x).2 - 5, ?_, by push_cast; rfl⟩, ?_⟩
  · rw [abs_of_nonneg (by omega)]; exact_mod_cast h2
  · rw [hr]
    have hp : 0 < (10 : ℝ) ^ (e - 5) := by positivity
    have hx' : x = x * (10 : ℝ) ^ (5 - e) * (10 : ℝ) ^ (e - 5) := by
      rw [mul_assoc, ← zpow_add₀ h10, show 5 - e + (e - 5) = 0 by ring, zpow_zero, mul_one]
    set y := x * (10 : ℝ) ^ (5 - e) with hy
    have scale : ∀ k : ℝ, |x - k * (10 : ℝ) ^ (e - 5)| = |y - k| * (10 : ℝ) ^ (e - 5) := by
      intro k
      conv_lhs => rw [hx']
      rw [← sub_mul, abs_mul, abs_of_pos hp]
    rintro z ⟨k, f, hk, rfl⟩
    rw [scale]
    by_cases hf : e - 5 ≤ f
    · obtain ⟨j, hj⟩ : ∃ j : Nat, f = e - 5 + j := ⟨(f - (e - 5)).toNat, by omega⟩
      rw [hj, zpow_add₀ h10, zpow_natCast, show (k : ℝ) * ((10 : ℝ) ^ (e - 5) * 10 ^ j) =
        ((k * 10 ^ j : Int) : ℝ) * (10 : ℝ) ^ (e - 5) by push_cast; ring, scale]
      exact mul_le_mul_of_nonneg_right (roundEven_near y _) hp.le
    · have hz : (k : ℝ) * (10 : ℝ) ^ f ≤ (10 : ℝ) ^ e := by
        have h3 : (k : ℝ) ≤ 10 ^ 6 := by
          have : k ≤ 10 ^ 6 := le_trans (le_abs_self k) hk.le
          exact_mod_cast this
        calc (k : ℝ) * (10 : ℝ) ^ f ≤ 10 ^ 6 * (10 : ℝ) ^ f := by gcongr
          _ = (10 : ℝ) ^ (6 + f) := by rw [zpow_add₀ h10]; norm_cast
          _ ≤ (10 : ℝ) ^ e := zpow_le_zpow_right₀ (by norm_num) (by omega)
      have h5 : (10 : ℝ) ^ e = ((10 ^ 5 : Int) : ℝ) * (10 : ℝ) ^ (e - 5) := by
        rw [show e = 5 + (e - 5) by ring, zpow_add₀ h10, show 5 + (e - 5) - 5 = e - 5 by ring]
        push_cast
        norm_cast
      calc |y - roundEven y| * (10 : ℝ) ^ (e - 5)
          ≤ |y - ((10 ^ 5 : Int) : ℝ)| * (10 : ℝ) ^ (e - 5) :=
            mul_le_mul_of_nonneg_right (roundEven_near y _) hp.le
        _ = |x - (10 : ℝ) ^ e| := by rw [← scale, ← h5]
        _ = x - (10 : ℝ) ^ e := abs_of_nonneg (by linarith)
        _ ≤ x - k * (10 : ℝ) ^ f := by linarith
        _ ≤ |x - k * (10 : ℝ) ^ f| := le_abs_self _

theorem rounded6_round6 (x : ℝ) : Rounded6 x (round6 x) := by
  rcases lt_trichotomy x 0 with h | rfl | h
  · obtain ⟨h1, h2⟩ := near_pos (show 0 < -x by linarith)
    rw [round6_neg] at h1 h2
    refine ⟨by simpa using sixDigits_neg h1, ?_⟩
    intro z hz
    have := h2 (-z) (sixDigits_neg hz)
    rw [show -x - -round6 x = -(x - round6 x) by ring, show -x - -z = -(x - z) by ring, abs_neg, abs_neg] at this
    exact this
  · have : round6 0 = 0 := by simp [round6]
    rw [this]
    refine ⟨⟨0, 0, by norm_num, by simp⟩, ?_⟩
    intro z _
    simp
  · exact near_pos h

/-- A number of six digits is written exactly. -/
theorem Rounded6.eq {x y : ℝ} (h : Rounded6 x y) (hx : SixDigits x) : y = x := by
  have := h.2 x hx
  rw [sub_self, abs_zero] at this
  have := abs_nonpos_iff.1 this
  linarith

theorem round6_error (x : ℝ) : |round6 x - x| ≤ 5 / 10 ^ 6 * |x| := by
  have pos : ∀ x : ℝ, 0 < x → |round6 x - x| ≤ 5 / 10 ^ 6 * |x| := by
    intro x hx
    have h10 : (10 : ℝ) ≠ 0 := by norm_num
    obtain ⟨h1, h2, e, hl, hu, hr⟩ := sig6_spec hx
    rw [round6_pos hx, hr]
    have hp : 0 < (10 : ℝ) ^ (e - 5) := by positivity
    have hx' : x = x * (10 : ℝ) ^ (5 - e) * (10 : ℝ) ^ (e - 5) := by
      rw [mul_assoc, ← zpow_add₀ h10, show 5 - e + (e - 5) = 0 by ring, zpow_zero, mul_one]
    set y := x * (10 : ℝ) ^ (5 - e) with hy
    have h5 : (10 : ℝ) ^ (e - 5) = (10 : ℝ) ^ e / 10 ^ 5 := by
      rw [zpow_sub₀ h10]; norm_cast
    rw [abs_of_pos hx, abs_sub_comm]
    calc |x - roundEven y * (10 : ℝ) ^ (e - 5)| = |y - roundEven y| * (10 : ℝ) ^ (e - 5) := by
          conv_lhs => rw [hx']
          rw [← sub_mul, abs_mul, abs_of_pos hp]
      _ ≤ 1 / 2 * (10 : ℝ) ^ (e - 5) := mul_le_mul_of_nonneg_right (roundEven_half y) hp.le
      _ = 5 / 10 ^ 6 * (10 : ℝ) ^ e := by rw [h5]; norm_num; ring
      _ ≤ 5 / 10 ^ 6 * x := by gcongr
  rcases lt_trichotomy x 0 with h | rfl | h
  · have := pos (-x) (by linarith)
    rw [round6_neg, abs_neg, show -round6 x - -x = -(round6 x - x) by ring, abs_neg] at this
    exact this
  · simp [round6]
  · exact pos x h

/-! ### Writing and reading a number -/

/-- The text written for a number is a numeral for the rounded number. -/
theorem showReal_numeral (x : ℝ) : ∃ n : Numeral, n.Valid ∧ n.text = showReal x ∧ n.value = round6 x := by
  rcases lt_trichotomy x 0 with h | rfl | h
  · obtain ⟨h1, h2, -⟩ := sig6_spec (show 0 < -x by linarith)
    refine ⟨generalNumeral true (sig6 (-x)).1 (sig6 (-x)).2, general_valid true h1 h2 _, ?_, ?_⟩
    · rw [general_text, showReal, if_neg h.ne, if_pos h]; rfl
    · rw [general_value true h1 h2, round6, if_neg h.ne, if_pos h]; simp
  · refine ⟨⟨none, ['0'], none, none⟩, ⟨Or.inl (by simp), ?_, ?_, ?_⟩, ?_, ?_⟩
    · intro c hc
      simp only [List.mem_singleton] at hc
      subst hc; decide
    · intro c hc; simp [Numeral.fracDigits] at hc
    · intro a b c hc; cases hc
    · rw [showReal, if_pos rfl]; rfl
    · simp [Numeral.value, round6, Numeral.digitsValue, Numeral.fracDigits]
  · obtain ⟨h1, h2, -⟩ := sig6_spec h
    refine ⟨generalNumeral false (sig6 x).1 (sig6 x).2, general_valid false h1 h2 _, ?_, ?_⟩
    · have : showReal x = showGeneral (sig6 x).1 (sig6 x).2 := by
        rw [showReal, if_neg h.ne', if_neg (not_lt.2 h.le)]
      rw [general_text, this]; rfl
    · rw [general_value false h1 h2, round6_pos h]; simp

theorem stod_showReal (x : ℝ) : stod (showReal x) = ok (round6 x) := by
  obtain ⟨n, h1, h2, h3⟩ := showReal_numeral x
  have := stod_text h1 stops_nil
  rwa [List.append_nil, h2, h3] at this

theorem showReal_plain (x : ℝ) : ∀ c ∈ showReal x, c ≠ ',' ∧ c ≠ '\n' := by
  obtain ⟨n, h1, h2, -⟩ := showReal_numeral x
  intro c hc
  rw [← h2] at hc
  exact numChar_ne (text_chars h1 c hc)

theorem showNat_plain (k : Nat) : ∀ c ∈ showNat k, c ≠ ',' ∧ c ≠ '\n' := fun c hc =>
  numChar_ne (Or.inl ((showNat_spec k).1 c hc))

theorem showBool_plain (b : Bool) : ∀ c ∈ showBool b, c ≠ ',' ∧ c ≠ '\n' := by
  cases b <;> (intro c hc; simp [showBool] at hc; subst hc; decide)

theorem digits_only {ds : Str} (h : ∀ c ∈ ds, c.isDigit = true) :
    ds.dropWhile isSpace = ds ∧ sign ds = (false, ds) ∧ ds.span Char.isDigit = (ds, []) := by
  have hh : ∀ c t, ds = c :: t → c.isDigit = true := fun c t e => h c (by rw [e]; simp)
  refine ⟨dropWhile_space fun c t e => numChar_not_space (Or.inl (hh c t e)),
    sign_of_ne fun c t e => not_sign_of_digit (hh c t e), ?_⟩
  have := span_eq (p := Char.isDigit) (a := ds) (b := []) h (by intro c t e; cases e)
  rwa [List.append_nil] at this

theorem stoi_digits {ds : Str} (h : ∀ c ∈ ds, c.isDigit = true) (hne : ds ≠ []) :
    stoi ds = if natOf ds < 2 ^ 31 then ok (natOf ds : Int) else throws := by
  obtain ⟨h1, h2, h3⟩ := digits_only h
  unfold stoi
  simp only [h1, h2, h3, List.isEmpty_eq_false_iff.2 hne, Bool.false_eq_true, if_false]
  by_cases c : natOf ds < 2 ^ 31
  · rw [if_pos c, if_pos]
    constructor
    · have : (0 : Int) ≤ natOf ds := Int.natCast_nonneg _
      omega
    · exact_mod_cast c
  · rw [if_neg c, if_neg]
    rintro ⟨-, h⟩
    exact c (by exact_mod_cast h)

theorem stoi_showNat (k : Nat) : stoi (showNat k) = if k < 2 ^ 31 then ok (k : Int) else throws := by
  obtain ⟨h1, h2, h3⟩ := showNat_spec k
  rw [stoi_digits h1 h2, h3]

theorem stoi_showBool (b : Bool) : stoi (showBool b) = ok (if b then 1 else 0) := by
  cases b <;> rfl

/-! ### Lines and fields -/

theorem lines_append {l : Str} (h : ∀ c ∈ l, c ≠ '\n') (rest : Str) :
    lines (l ++ '\n' :: rest) = l :: lines rest := by
  induction l with
  | nil => simp [lines]
  | cons c l ih =>
    rw [List.cons_append, lines, if_neg (h c (by simp)), ih (fun x hx => h x (by simp [hx]))]

theorem lines_last {l : Str} (h : ∀ c ∈ l, c ≠ '\n') (hne : l ≠ []) : lines l = [l] := by
  induction l with
  | nil => exact absurd rfl hne
  | cons c l ih =>
    rw [lines, if_neg (h c (by simp))]
    by_cases hl : l = []
    · subst hl; rfl
    · rw [ih (fun x hx => h x (by simp [hx])) hl]

theorem field_comma {a : Str} (h : ∀ c ∈ a, c ≠ ',') (token rest : Str) :
    field token (some (a ++ ',' :: rest)) = (a, some rest) := by
  have : (a ++ ',' :: rest).span (· != ',') = (a, ',' :: rest) :=
    span_eq (fun c hc => by simpa using h c hc) (by intro c t e; simp only [List.cons.injEq] at e; rw [← e.1]; rfl)
  simp only [field, this]

theorem field_last {a : Str} (h : ∀ c ∈ a, c ≠ ',') (token : Str) : field token (some a) = (a, none) := by
  have : (a ++ []).span (· != ',') = (a, []) :=
    span_eq (fun c hc => by simpa using h c hc) (by intro c t e; cases e)
  rw [List.append_nil] at this
  simp only [field, this]

end Dpgo.Text
