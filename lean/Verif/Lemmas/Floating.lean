import Verif.Spec.Floating
import Verif.Model.RobustRound
import Mathlib.Tactic.Linarith
import Mathlib.Tactic.Positivity
import Mathlib.Tactic.NormNum
import Mathlib.Tactic.FieldSimp
import Mathlib.Tactic.LinearCombination

namespace Dpgo

open Res Spec

variable {rnd : ℝ → ℝ} {p : Nat} {u x y : ℝ}

namespace Spec.Rounding

theorem nonneg (h : Rounding rnd) (hx : 0 ≤ x) : 0 ≤ rnd x := h.zero ▸ h.mono hx
theorem le_one (h : Rounding rnd) (hx : x ≤ 1) : rnd x ≤ 1 := h.one ▸ h.mono hx
theorem one_le (h : Rounding rnd) (hx : 1 ≤ x) : 1 ≤ rnd x := h.one ▸ h.mono hx

end Spec.Rounding

theorem representable_scale {k e : ℤ} (hk : |k| ≤ 2 ^ p) : Representable p (k * (2 : ℝ) ^ e) := ⟨k, e, hk, rfl⟩

theorem representable_zero : Representable p 0 := ⟨0, 0, by simp, by simp⟩
theorem representable_one : Representable p 1 := ⟨1, 0, by simpa using one_le_pow₀ (n := p) (one_le_two : (1 : ℤ) ≤ 2), by simp⟩

namespace Spec.Nearest

theorem id_of (h : Nearest p rnd) (hx : Representable p x) : rnd x = x := by
  have := h.near x x hx
  rw [sub_self, abs_zero] at this
  exact (sub_eq_zero.1 (abs_eq_zero.1 (le_antisymm this (abs_nonneg _)))).symm

theorem rounding (h : Nearest p rnd) : Rounding rnd where
  mono := by
    intro x y hxy
    by_contra hlt
    rw [not_le] at hlt
    have h1 := h.near x _ (h.rep y)
    have h2 := h.near y _ (h.rep x)
    have e : x ≠ y := fun e => by rw [e] at hlt; exact lt_irrefl _ hlt
    have hl := lt_of_le_of_ne hxy e
    have h3 := sq_le_sq.2 h1
    have h4 := sq_le_sq.2 h2
    have := mul_pos (sub_pos.2 hl) (sub_pos.2 hlt)
    linarith [show (x - rnd x) ^ 2 - (x - rnd y) ^ 2 + ((y - rnd y) ^ 2 - (y - rnd x) ^ 2) =
      2 * ((y - x) * (rnd x - rnd y)) by ring]
  idem x := h.id_of (h.rep x)
  zero := h.id_of representable_zero
  one := h.id_of representable_one

end Spec.Nearest

/-- Representable numbers around `k * 2 ^ e` are at least `2 ^ e` away when `k` has `p` bits. -/
theorem representable_gap {k e : ℤ} (hp : 0 < p) (hk : 2 ^ (p - 1) < k) (hy : Representable p y)
    (hne : y ≠ k * (2 : ℝ) ^ e) : (2 : ℝ) ^ e ≤ |k * (2 : ℝ) ^ e - y| := by
  obtain ⟨j, f, hj, rfl⟩ := hy
  have h2 : (0 : ℝ) < 2 ^ e := by positivity
  rcases le_or_gt e f with hf | hf
  · obtain ⟨n, rfl⟩ := Int.le.dest hf
    have e1 : (j : ℝ) * 2 ^ (e + (n : ℤ)) = ((j * 2 ^ n : ℤ) : ℝ) * 2 ^ e := by
      rw [zpow_add₀ two_ne_zero, zpow_natCast]; push_cast; ring
    rw [e1] at hne ⊢
    rw [← sub_mul, abs_mul, abs_of_pos h2]
    have hz : k - j * 2 ^ n ≠ 0 := fun hz => hne (by rw [sub_eq_zero.1 hz])
    have : (1 : ℝ) ≤ |(k : ℝ) - ((j * 2 ^ n : ℤ) : ℝ)| := by
      rw [← Int.cast_sub, ← Int.cast_abs]; exact_mod_cast Int.one_le_abs hz
    nlinarith
  · have h3 : (2 : ℝ) ^ f ≤ 2 ^ (e - 1) := zpow_le_zpow_right₀ one_le_two (by omega)
    have h4 : (j : ℝ) ≤ 2 ^ p := by exact_mod_cast (le_abs_self j).trans hj
    have h5 : (2 : ℝ) ^ (p - 1) + 1 ≤ k := by exact_mod_cast hk
    have h6 : (2 : ℝ) ^ p = 2 * 2 ^ (p - 1) := by rw [← pow_succ', Nat.sub_add_cancel hp]
    have h7 : (2 : ℝ) ^ (e - 1) = 2 ^ e / 2 := by rw [zpow_sub₀ two_ne_zero, zpow_one]
    have h8 : (0 : ℝ) < 2 ^ f := by positivity
    have h9 : (j : ℝ) * 2 ^ f ≤ 2 ^ (p - 1) * 2 ^ e := by
      calc (j : ℝ) * 2 ^ f ≤ 2 ^ p * 2 ^ f := by gcongr
        _ ≤ 2 ^ p * 2 ^ (e - 1) := by gcongr
        _ = 2 ^ (p - 1) * 2 ^ e := by rw [h6, h7]; ring
    have h10 := mul_le_mul_of_nonneg_right h5 h2.le
    refine le_trans ?_ (le_abs_self _)
    linarith

/-- Rounding to nearest finds the representable number within half a unit in the last place. -/
theorem nearest_eq {k e : ℤ} (h : Nearest p rnd) (hp : 0 < p) (hk : 2 ^ (p - 1) < k) (hk' : k ≤ 2 ^ p)
    (hx : 2 * |x - k * (2 : ℝ) ^ e| < 2 ^ e) : rnd x = k * (2 : ℝ) ^ e := by
  by_contra hne
  have h1 := representable_gap hp hk (h.rep x) hne
  have h0 : (0 : ℤ) ≤ k := le_trans (by positivity) hk.le
  have h2 := h.near x _ (representable_scale (p := p) (k := k) (e := e) (by rwa [abs_of_nonneg h0]))
  have h3 := abs_sub_le (k * (2 : ℝ) ^ e) x (rnd x)
  rw [abs_sub_comm (k * (2 : ℝ) ^ e) x] at h3
  linarith

/-- The unit in the last place of `x`. -/
noncomputable def ulp (p : Nat) (x : ℝ) : ℝ := (2 : ℝ) ^ (Int.log 2 |x| + 1 - p)

/-- Rounding to nearest with `p` bits, ties upwards. -/
noncomputable def nearest (p : Nat) (x : ℝ) : ℝ := (round (x / ulp p x) : ℤ) * ulp p x

theorem ulp_pos : 0 < ulp p x := by unfold ulp; positivity

theorem ulp_lt : |x| < 2 ^ p * ulp p x := by
  have := Int.lt_zpow_succ_log_self (b := 2) one_lt_two |x|
  unfold ulp
  rw [← zpow_natCast, ← zpow_add₀ two_ne_zero]
  simpa using this

theorem ulp_le (hx : x ≠ 0) : 2 ^ p * ulp p x ≤ 2 * |x| := by
  have := Int.zpow_log_le_self (b := 2) one_lt_two (abs_pos.2 hx)
  unfold ulp
  rw [← zpow_natCast, ← zpow_add₀ two_ne_zero, show (p : ℤ) + (Int.log 2 |x| + 1 - p) = Int.log 2 |x| + 1 by ring,
    zpow_add₀ two_ne_zero, zpow_one]
  push_cast at this
  linarith

theorem nearest_err (x : ℝ) : 2 * |x - nearest p x| ≤ ulp p x := by
  have h := abs_sub_round (x / ulp p x)
  have hu := ulp_pos (p := p) (x := x)
  have e : x - nearest p x = (x / ulp p x - round (x / ulp p x)) * ulp p x := by
    unfold nearest; rw [sub_mul, div_mul_cancel₀ _ hu.ne']
  rw [e, abs_mul, abs_of_pos hu]
  nlinarith

theorem nearest_rep (x : ℝ) : Representable p (nearest p x) := by
  by_cases hx : x = 0
  · subst hx; exact ⟨0, 0, by simp, by simp [nearest]⟩
  refine ⟨round (x / ulp p x), Int.log 2 |x| + 1 - p, ?_, rfl⟩
  have hu := ulp_pos (p := p) (x := x)
  have h1 : |x / ulp p x| < 2 ^ p := by rw [abs_div, abs_of_pos hu, div_lt_iff₀ hu]; exact ulp_lt
  have h2 := abs_sub_round (x / ulp p x)
  have h3 := abs_sub_abs_le_abs_sub ((round (x / ulp p x) : ℤ) : ℝ) (x / ulp p x)
  rw [abs_sub_comm] at h3
  have h4 : ((|round (x / ulp p x)| : ℤ) : ℝ) < ((2 ^ p + 1 : ℤ) : ℝ) := by
    rw [Int.cast_abs]; push_cast; linarith
  have := Int.cast_lt.1 h4
  omega

theorem nearest_nearest (hp : 0 < p) : Nearest p (nearest p) where
  rep := nearest_rep
  near x y hy := by
    by_cases hx : x = 0
    · subst hx; simp [nearest]
    have hu := ulp_pos (p := p) (x := x)
    -- no multiple of the unit is closer
    have mult : ∀ j : ℤ, |x - nearest p x| ≤ |x - j * ulp p x| := by
      intro j
      have h := round_le (x / ulp p x) j
      have e : ∀ z : ℤ, x - z * ulp p x = (x / ulp p x - z) * ulp p x := fun z => by
        rw [sub_mul, div_mul_cancel₀ _ hu.ne']
      unfold nearest
      rw [e, e, abs_mul, abs_mul, abs_of_pos hu]
      exact mul_le_mul_of_nonneg_right h hu.le
    obtain ⟨j, f, hj, rfl⟩ := hy
    rcases le_or_gt (Int.log 2 |x| + 1 - p) f with hf | hf
    · obtain ⟨n, hn⟩ := Int.le.dest hf
      have := mult (j * 2 ^ n)
      rwa [show ((j * 2 ^ n : ℤ) : ℝ) * ulp p x = j * 2 ^ f by
        unfold ulp; rw [← hn, zpow_add₀ two_ne_zero, zpow_natCast]; push_cast; ring] at this
    · have h1 : |(j : ℝ) * 2 ^ f| ≤ 2 ^ (p - 1) * ulp p x := by
        have h3 : (2 : ℝ) ^ f ≤ ulp p x / 2 := by
          have : (2 : ℝ) ^ f ≤ 2 ^ (Int.log 2 |x| + 1 - p - 1) := zpow_le_zpow_right₀ one_le_two (by omega)
          rwa [zpow_sub₀ two_ne_zero _ 1, zpow_one] at this
        have h4 : |(j : ℝ)| ≤ 2 ^ p := by rw [← Int.cast_abs]; exact_mod_cast hj
        have h6 : (2 : ℝ) ^ p = 2 * 2 ^ (p - 1) := by rw [← pow_succ', Nat.sub_add_cancel hp]
        have h8 : (0 : ℝ) < 2 ^ f := by positivity
        rw [abs_mul, abs_of_pos h8]
        calc |(j : ℝ)| * 2 ^ f ≤ 2 ^ p * (ulp p x / 2) := by gcongr
          _ = 2 ^ (p - 1) * ulp p x := by rw [h6]; ring
      have h2 : 2 ^ (p - 1) * ulp p x ≤ |x| := by
        have := ulp_le (p := p) hx
        rw [show (2 : ℝ) ^ p = 2 * 2 ^ (p - 1) by rw [← pow_succ', Nat.sub_add_cancel hp]] at this
        linarith
      rcases lt_or_gt_of_ne hx with h0 | h0
      · refine (mult (-2 ^ (p - 1))).trans ?_
        push_cast
        rw [abs_of_neg h0] at h2
        rw [abs_of_nonpos (by linarith), abs_of_nonpos (by linarith [neg_abs_le ((j : ℝ) * 2 ^ f)])]
        linarith [neg_abs_le ((j : ℝ) * 2 ^ f)]
      · refine (mult (2 ^ (p - 1))).trans ?_
        push_cast
        rw [abs_of_pos h0] at h2
        rw [abs_of_nonneg (by linarith), abs_of_nonneg (by linarith [le_abs_self ((j : ℝ) * 2 ^ f)])]
        linarith [le_abs_self ((j : ℝ) * 2 ^ f)]

theorem representable_large (hx : Representable p x) (hl : 2 ^ (p + 1) < x) : ∃ k : ℤ, x = 4 * k := by
  obtain ⟨k, e, hk, rfl⟩ := hx
  have he : 2 ≤ e := by
    by_contra hlt
    have h1 : (2 : ℝ) ^ e ≤ 2 ^ (1 : ℤ) := zpow_le_zpow_right₀ one_le_two (by omega)
    have h2 : (k : ℝ) ≤ 2 ^ p := by exact_mod_cast (le_abs_self k).trans hk
    have h3 : (0 : ℝ) < 2 ^ e := by positivity
    have h4 : (k : ℝ) * 2 ^ e ≤ 2 ^ p * 2 ^ (1 : ℤ) := by gcongr
    rw [zpow_one] at h4
    linarith [pow_succ (2 : ℝ) p]
  obtain ⟨n, rfl⟩ := Int.le.dest he
  refine ⟨k * 2 ^ n, ?_⟩
  rw [zpow_add₀ two_ne_zero, zpow_natCast]
  push_cast
  norm_num
  ring

/-- Adding one to a large number changes nothing. -/
theorem nearest_succ (h : Nearest p rnd) (hx : Representable p x) (hl : 2 ^ (p + 1) < x) : rnd (x + 1) = x := by
  have h1 := h.rounding.mono (show x ≤ x + 1 by linarith)
  rw [h.id_of hx] at h1
  have h2 := h.near (x + 1) x hx
  rw [show x + 1 - x = 1 by ring, abs_one, abs_le] at h2
  obtain ⟨j, hj⟩ := representable_large (h.rep (x + 1)) (lt_of_lt_of_le hl h1)
  obtain ⟨k, hk⟩ := representable_large hx hl
  rw [hj, hk] at h1 h2 ⊢
  have h3 : (k : ℝ) ≤ j := by linarith
  have h4 : (j : ℝ) < (k + 1 : ℤ) := by push_cast; linarith [h2.1]
  have h5 : k ≤ j := by exact_mod_cast h3
  have h6 : j < k + 1 := by exact_mod_cast h4
  rw [show j = k by omega]

/-- Rounding to nearest has relative error `2 ^ -p`. -/
theorem accurate_of_nearest (h : Nearest p rnd) : Accurate ((2 : ℝ) ^ (-(p : ℤ))) rnd := by
  intro x
  by_cases hx : x = 0
  · subst hx; rw [h.id_of representable_zero]; simp
  rw [abs_sub_comm]
  refine (h.near x _ (nearest_rep x)).trans ?_
  have h1 := nearest_err (p := p) x
  have h2 := ulp_le (p := p) hx
  rw [zpow_neg, zpow_natCast, inv_mul_eq_div, le_div_iff₀ (by positivity)]
  have : (0 : ℝ) < 2 ^ p := by positivity
  nlinarith

namespace RobustCost

variable {c : RobustCost} {r s w v barc mu : ℝ} {b : Bool}

theorem weightR_id (c : RobustCost) (r : ℝ) : weightR (fun x => x) b c r = c.weight r := by
  unfold weightR weight
  cases c.params.costType
  case GM =>
    have : (1 + r * r) * (1 + r * r) ≠ 0 := (mul_pos (show (0 : ℝ) < 1 + r * r by linarith [mul_self_nonneg r])
      (show (0 : ℝ) < 1 + r * r by linarith [mul_self_nonneg r])).ne'
    simp [gmWeightR, this]
  case GNC_TLS => rfl
  all_goals rfl

theorem gmWeightR_eq (h : Rounding rnd) (r : ℝ) : ∃ a, 1 ≤ a ∧ gmWeightR rnd b r = ok (rnd (1 / rnd (a * a))) ∧
    a = if b then rnd (1 + r * r) else rnd (1 + rnd (r * r)) := by
  have h1 : 1 ≤ if b then rnd (1 + r * r) else rnd (1 + rnd (r * r)) := by
    have h2 := h.nonneg (mul_self_nonneg r)
    split
    · exact h.one_le (by nlinarith [mul_self_nonneg r])
    · exact h.one_le (by linarith)
  refine ⟨_, h1, ?_, rfl⟩
  have := h.one_le (one_le_mul_of_one_le_of_one_le h1 h1)
  unfold gmWeightR
  rw [if_neg (zero_lt_one.trans_le this).ne']

theorem gmWeightR_mono (h : Rounding rnd) (hr : 0 ≤ r) (hs : r ≤ s) (e : gmWeightR rnd b r = ok w)
    (e' : gmWeightR rnd b s = ok v) : 0 ≤ v ∧ v ≤ w ∧ w ≤ 1 := by
  obtain ⟨a, ha, h1, h2⟩ := gmWeightR_eq (b := b) h r
  obtain ⟨a', ha', h1', h2'⟩ := gmWeightR_eq (b := b) h s
  have hq : r * r ≤ s * s := mul_self_le_mul_self hr hs
  have haa : a ≤ a' := by
    rw [h2, h2']
    split
    · exact h.mono (by linarith)
    · exact h.mono (by linarith [h.mono hq])
  rw [e] at h1; rw [e'] at h1'
  cases h1; cases h1'
  have k1 := h.one_le (one_le_mul_of_one_le_of_one_le ha ha)
  have k2 := h.mono (mul_self_le_mul_self (by linarith) haa)
  have k3 := le_trans k1 k2
  refine ⟨h.nonneg (by positivity), h.mono ?_, h.le_one ?_⟩
  · exact one_div_le_one_div_of_le (by linarith) k2
  · rw [div_le_one (by linarith)]; exact k1

end RobustCost

end Dpgo
