import Verif.Lemmas.Floating

/-! # Two weights in double precision -/

namespace Dpgo.RobustCost

open Res Spec

variable {rnd : ℝ → ℝ} {p : Nat} {x y : ℝ}

theorem representable_frac (k : ℤ) (n : ℕ) (hk : |k| ≤ 2 ^ p) : Representable p (k / 2 ^ n) :=
  ⟨k, -n, hk, by rw [zpow_neg, zpow_natCast, div_eq_mul_inv]⟩

theorem representable_nat {k n : ℕ} (hk : k ≤ 2 ^ p) : Representable p (k / 2 ^ n) := by
  have := representable_frac (p := p) k n (by rw [Nat.abs_cast]; exact_mod_cast hk)
  rwa [Int.cast_natCast] at this

theorem nearest_frac {k n : ℕ} (h : Nearest 53 rnd) (hk : 2 ^ 52 < k) (hk' : k ≤ 2 ^ 53)
    (h1 : 2 * (k : ℝ) - 1 < 2 * x * 2 ^ n) (h2 : 2 * x * 2 ^ n < 2 * k + 1) : rnd x = k / 2 ^ n := by
  have hn : (0 : ℝ) < 2 ^ n := by positivity
  have e : (k / 2 ^ n : ℝ) = ((k : ℤ) : ℝ) * (2 : ℝ) ^ (-(n : ℤ)) := by
    rw [zpow_neg, zpow_natCast, div_eq_mul_inv, Int.cast_natCast]
  rw [e]
  refine nearest_eq h (by norm_num) (by exact_mod_cast hk) (by exact_mod_cast hk') ?_
  rw [← e, zpow_neg, zpow_natCast]
  have e2 : x - k / 2 ^ n = (x * 2 ^ n - k) * (2 ^ n)⁻¹ := by field_simp
  rw [e2, abs_mul, abs_of_pos (inv_pos.2 hn), ← mul_assoc]
  have h3 : 2 * |x * 2 ^ n - k| < 1 := by
    have : |x * 2 ^ n - k| < 1 / 2 := by rw [abs_lt]; constructor <;> linarith
    linarith
  have := mul_lt_mul_of_pos_right h3 (inv_pos.2 hn)
  rwa [one_mul] at this

theorem nearest_sqrt {k n : ℕ} (h : Nearest 53 rnd) (hk : 2 ^ 52 < k) (hk' : k ≤ 2 ^ 53)
    (h1 : (2 * (k : ℝ) - 1) ^ 2 < 4 * x * (2 ^ n) ^ 2) (h2 : 4 * x * (2 ^ n) ^ 2 < (2 * k + 1) ^ 2) :
    rnd (Real.sqrt x) = k / 2 ^ n := by
  have hn : (0 : ℝ) < 2 ^ n := by positivity
  have hx : 0 ≤ x := by
    by_contra hlt
    have := mul_pos_of_neg_of_neg (not_le.1 hlt) (neg_lt_zero.2 (pow_pos hn 2))
    nlinarith [sq_nonneg (2 * (k : ℝ) - 1)]
  have e : 4 * x * (2 ^ n) ^ 2 = (2 * Real.sqrt x * 2 ^ n) ^ 2 := by
    rw [mul_pow, mul_pow, Real.sq_sqrt hx]; ring
  rw [e] at h1 h2
  have hs := Real.sqrt_nonneg x
  exact nearest_frac h hk hk' (lt_of_pow_lt_pow_left₀ 2 (by positivity) h1)
    (lt_of_pow_lt_pow_left₀ 2 (by positivity) h2)

/-- The weight exceeds one. -/
theorem gnc_over (h : Nearest 53 rnd) :
    gncWeightR rnd 5 (7259134222995289 / 2 ^ 47) (5575709077178851 / 2 ^ 50) = ok (1 + 1 / 2 ^ 47) := by
  have hb : rnd (5 * 5) = 25 := by
    have := h.id_of (representable_frac 25 0 (p := 53) (by norm_num))
    norm_num at this ⊢
    exact this
  have hM : rnd ((7259134222995289 / 2 ^ 47) + 1) = 7399871711350617 / 2 ^ 47 := nearest_frac h (by norm_num) (by norm_num) (by norm_num) (by norm_num)
  have hq : rnd ((5575709077178851 / 2 ^ 50) * (5575709077178851 / 2 ^ 50)) = 6903040741986696 / 2 ^ 48 := nearest_frac h (by norm_num) (by norm_num) (by norm_num) (by norm_num)
  have hu1 : rnd ((7399871711350617 / 2 ^ 47) / (7259134222995289 / 2 ^ 47)) = 4590913800196547 / 2 ^ 52 := nearest_frac h (by norm_num) (by norm_num) (by norm_num) (by norm_num)
  have hu2 : rnd ((4590913800196547 / 2 ^ 52) * 25) = 7173302812807105 / 2 ^ 48 := nearest_frac h (by norm_num) (by norm_num) (by norm_num) (by norm_num)
  have hl1 : rnd ((7259134222995289 / 2 ^ 47) / (7399871711350617 / 2 ^ 47)) = 8835892149742970 / 2 ^ 53 := nearest_frac h (by norm_num) (by norm_num) (by norm_num) (by norm_num)
  have hl2 : rnd ((8835892149742970 / 2 ^ 53) * 25) = 6903040741986695 / 2 ^ 48 := nearest_frac h (by norm_num) (by norm_num) (by norm_num) (by norm_num)
  have h1 : rnd (25 * (7259134222995289 / 2 ^ 47)) = 5671198611715070 / 2 ^ 42 := nearest_frac h (by norm_num) (by norm_num) (by norm_num) (by norm_num)
  have h2 : rnd ((5671198611715070 / 2 ^ 42) * (7399871711350617 / 2 ^ 47)) = 4659177729880031 / 2 ^ 36 := nearest_frac h (by norm_num) (by norm_num) (by norm_num) (by norm_num)
  have h3 : rnd ((4659177729880031 / 2 ^ 36) / (6903040741986696 / 2 ^ 48)) = 6079370489736293 / 2 ^ 41 := nearest_frac h (by norm_num) (by norm_num) (by norm_num) (by norm_num)
  have h4 : rnd (Real.sqrt (6079370489736293 / 2 ^ 41)) = 7399871711350618 / 2 ^ 47 :=
    nearest_sqrt h (by norm_num) (by norm_num) (by norm_num) (by norm_num)
  have h5 : rnd ((7399871711350618 / 2 ^ 47) - (7259134222995289 / 2 ^ 47)) = 1 + 1 / 2 ^ 47 := by
    have := h.id_of (representable_frac (140737488355329) 47 (p := 53) (by norm_num))
    norm_num at this ⊢
    exact this
  unfold gncWeightR
  simp only [hb, hM, hq, hu1, hu2, hl1, hl2, h1, h2, h3, h4, h5]
  rw [if_neg (by norm_num), if_neg (by norm_num), if_neg (by norm_num), if_neg (by norm_num)]

/-- The weight is negative. -/
theorem gnc_under (h : Nearest 53 rnd) :
    gncWeightR rnd 5 (7235162620818924 / 2 ^ 45) (5643170974498747 / 2 ^ 50) = ok (-1 / 2 ^ 45) := by
  have hb : rnd (5 * 5) = 25 := by
    have := h.id_of (representable_frac 25 0 (p := 53) (by norm_num))
    norm_num at this ⊢
    exact this
  have hM : rnd ((7235162620818924 / 2 ^ 45) + 1) = 7270346992907756 / 2 ^ 45 := nearest_frac h (by norm_num) (by norm_num) (by norm_num) (by norm_num)
  have hq : rnd ((5643170974498747 / 2 ^ 50) * (5643170974498747 / 2 ^ 50)) = 7071094520455543 / 2 ^ 48 := nearest_frac h (by norm_num) (by norm_num) (by norm_num) (by norm_num)
  have hu1 : rnd ((7270346992907756 / 2 ^ 45) / (7235162620818924 / 2 ^ 45)) = 4525500493091548 / 2 ^ 52 := nearest_frac h (by norm_num) (by norm_num) (by norm_num) (by norm_num)
  have hu2 : rnd ((4525500493091548 / 2 ^ 52) * 25) = 7071094520455544 / 2 ^ 48 := nearest_frac h (by norm_num) (by norm_num) (by norm_num) (by norm_num)
  have hl1 : rnd ((7235162620818924 / 2 ^ 45) / (7270346992907756 / 2 ^ 45)) = 8963609498933435 / 2 ^ 53 := nearest_frac h (by norm_num) (by norm_num) (by norm_num) (by norm_num)
  have hl2 : rnd ((8963609498933435 / 2 ^ 53) * 25) = 7002819921041746 / 2 ^ 48 := nearest_frac h (by norm_num) (by norm_num) (by norm_num) (by norm_num)
  have h1 : rnd (25 * (7235162620818924 / 2 ^ 45)) = 5652470797514784 / 2 ^ 40 := nearest_frac h (by norm_num) (by norm_num) (by norm_num) (by norm_num)
  have h2 : rnd ((5652470797514784 / 2 ^ 40) * (7270346992907756 / 2 ^ 45)) = 4562508600393146 / 2 ^ 32 := nearest_frac h (by norm_num) (by norm_num) (by norm_num) (by norm_num)
  have h3 : rnd ((4562508600393146 / 2 ^ 32) / (7071094520455543 / 2 ^ 48)) = 5811748654515653 / 2 ^ 37 := nearest_frac h (by norm_num) (by norm_num) (by norm_num) (by norm_num)
  have h4 : rnd (Real.sqrt (5811748654515653 / 2 ^ 37)) = 7235162620818923 / 2 ^ 45 :=
    nearest_sqrt h (by norm_num) (by norm_num) (by norm_num) (by norm_num)
  have h5 : rnd ((7235162620818923 / 2 ^ 45) - (7235162620818924 / 2 ^ 45)) = -1 / 2 ^ 45 := by
    have := h.id_of (representable_frac (-1) 45 (p := 53) (by norm_num))
    norm_num at this ⊢
    exact this
  unfold gncWeightR
  simp only [hb, hM, hq, hu1, hu2, hl1, hl2, h1, h2, h3, h4, h5]
  rw [if_neg (by norm_num), if_neg (by norm_num), if_neg (by norm_num), if_neg (by norm_num)]

end Dpgo.RobustCost
