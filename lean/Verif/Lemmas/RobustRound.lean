import Verif.Lemmas.Floating
import Verif.Lemmas.Robust
import Verif.Spec.Loss
import Mathlib.Algebra.Order.Ring.Pow

namespace Dpgo

open Res Spec

variable {rnd : ℝ → ℝ} {u x y x' y' : ℝ} {n m : Nat}

/-- Two numbers that agree up to `n` relative errors `u`. -/
def Close (u : ℝ) (n : Nat) (x y : ℝ) : Prop := y * (1 - u) ^ n ≤ x ∧ x * (1 - u) ^ n ≤ y

namespace Close

theorem refl (hu : 0 ≤ u) (hu1 : u ≤ 1) (hx : 0 ≤ x) : Close u n x x := by
  have : (1 - u) ^ n ≤ 1 := pow_le_one₀ (by linarith) (by linarith)
  constructor <;> nlinarith

theorem once (ha : Accurate u rnd) (hu1 : u ≤ 1) (hx : 0 ≤ x) : Close u 1 (rnd x) x := by
  have h := abs_le.1 (ha x)
  rw [abs_of_nonneg hx] at h
  rw [Close, pow_one]
  refine ⟨by linarith, ?_⟩
  have := mul_le_mul_of_nonneg_right (show rnd x ≤ (1 + u) * x by linarith) (sub_nonneg.2 hu1)
  nlinarith [mul_nonneg (mul_self_nonneg u) hx]

theorem trans (hu1 : u ≤ 1) (h : Close u n x y) (h' : Close u m y x') : Close u (n + m) x x' := by
  have h1 : 0 ≤ (1 - u) ^ n := pow_nonneg (by linarith) _
  have h2 : 0 ≤ (1 - u) ^ m := pow_nonneg (by linarith) _
  rw [Close, pow_add]
  constructor
  · calc x' * ((1 - u) ^ n * (1 - u) ^ m) = (x' * (1 - u) ^ m) * (1 - u) ^ n := by ring
      _ ≤ y * (1 - u) ^ n := mul_le_mul_of_nonneg_right h'.1 h1
      _ ≤ x := h.1
  · calc x * ((1 - u) ^ n * (1 - u) ^ m) = (x * (1 - u) ^ n) * (1 - u) ^ m := by ring
      _ ≤ y * (1 - u) ^ m := mul_le_mul_of_nonneg_right h.2 h2
      _ ≤ x' := h'.2

theorem round (ha : Accurate u rnd) (hu1 : u ≤ 1) (hx : 0 ≤ x) (h : Close u n x y) : Close u (n + 1) (rnd x) y := by
  rw [add_comm]
  exact (Close.once ha hu1 hx).trans hu1 h

theorem mul (hu1 : u ≤ 1) (hx : 0 ≤ x) (hy : 0 ≤ y) (hx' : 0 ≤ x') (hy' : 0 ≤ y') (h : Close u n x y)
    (h' : Close u m x' y') : Close u (n + m) (x * x') (y * y') := by
  have h1 : 0 ≤ (1 - u) ^ n := pow_nonneg (by linarith) _
  have h2 : 0 ≤ (1 - u) ^ m := pow_nonneg (by linarith) _
  rw [Close, pow_add]
  constructor
  · calc y * y' * ((1 - u) ^ n * (1 - u) ^ m) = (y * (1 - u) ^ n) * (y' * (1 - u) ^ m) := by ring
      _ ≤ x * x' := mul_le_mul h.1 h'.1 (by positivity) hx
  · calc x * x' * ((1 - u) ^ n * (1 - u) ^ m) = (x * (1 - u) ^ n) * (x' * (1 - u) ^ m) := by ring
      _ ≤ y * y' := mul_le_mul h.2 h'.2 (by positivity) hy

theorem inv (hx : 0 < x) (hy : 0 < y) (h : Close u n x y) : Close u n (1 / x) (1 / y) := by
  constructor
  · rw [one_div_mul_eq_div, div_le_div_iff₀ hy hx]; linarith [h.2]
  · rw [one_div_mul_eq_div, div_le_div_iff₀ hx hy]; linarith [h.1]

theorem div (hu1 : u ≤ 1) (hx : 0 ≤ x) (hy : 0 ≤ y) (hx' : 0 < x') (hy' : 0 < y') (h : Close u n x y)
    (h' : Close u m x' y') : Close u (n + m) (x / x') (y / y') := by
  rw [div_eq_mul_one_div x, div_eq_mul_one_div y]
  exact h.mul hu1 hx hy (by positivity) (by positivity) (h'.inv hx' hy')

theorem sqrt (hu1 : u ≤ 1) (h : Close u (n * 2) x y) : Close u n (Real.sqrt x) (Real.sqrt y) := by
  have h1 : 0 ≤ (1 - u) ^ n := pow_nonneg (by linarith) _
  have e : ∀ z : ℝ, Real.sqrt (z * (1 - u) ^ (n * 2)) = Real.sqrt z * (1 - u) ^ n := fun z => by
    rw [pow_mul, Real.sqrt_mul' _ (sq_nonneg _), Real.sqrt_sq h1]
  constructor
  · rw [← e]; exact Real.sqrt_le_sqrt h.1
  · rw [← e]; exact Real.sqrt_le_sqrt h.2

/-- Relative errors add up. -/
theorem linear (hu1 : u ≤ 1) (hx : 0 ≤ x) (hy : 0 ≤ y) (h : Close u n x y) :
    y * (1 - n * u) ≤ x ∧ x * (1 - n * u) ≤ y := by
  have h1 : 1 - n * u ≤ (1 - u) ^ n := by
    have := one_add_mul_le_pow (a := -u) (by linarith) n
    rw [← sub_eq_add_neg] at this
    linarith
  exact ⟨(mul_le_mul_of_nonneg_left h1 hy).trans h.1, (mul_le_mul_of_nonneg_left h1 hx).trans h.2⟩

end Close

theorem u_nonneg (ha : Accurate u rnd) : 0 ≤ u := by
  have := (abs_nonneg _).trans (ha 1)
  simpa using this

namespace RobustCost

variable {c : RobustCost} {r s w v barc mu : ℝ} {b : Bool}

/-- The three branches. -/
theorem gncWeightR_cases (h : Rounding rnd) (hm : 0 < mu) (r : ℝ) :
    (rnd (rnd (rnd (mu + 1) / mu) * rnd (barc * barc)) ≤ rnd (r * r) ∧ gncWeightR rnd barc mu r = ok 0) ∨
    (rnd (r * r) < rnd (rnd (rnd (mu + 1) / mu) * rnd (barc * barc)) ∧
      rnd (r * r) ≤ rnd (rnd (mu / rnd (mu + 1)) * rnd (barc * barc)) ∧ gncWeightR rnd barc mu r = ok 1) ∨
    (rnd (r * r) < rnd (rnd (rnd (mu + 1) / mu) * rnd (barc * barc)) ∧
      rnd (rnd (mu / rnd (mu + 1)) * rnd (barc * barc)) < rnd (r * r) ∧ 0 < rnd (r * r) ∧
      gncWeightR rnd barc mu r =
        ok (rnd (rnd (Real.sqrt (rnd (rnd (rnd (rnd (barc * barc) * mu) * rnd (mu + 1)) / rnd (r * r)))) - mu))) := by
  have hM := h.one_le (show 1 ≤ mu + 1 by linarith)
  have hb := h.nonneg (mul_self_nonneg barc)
  have h0 : ¬ (mu = 0 ∨ rnd (mu + 1) = 0) := by
    rintro (e | e) <;> linarith
  unfold gncWeightR
  simp only [if_neg h0, ge_iff_le]
  rcases le_or_gt (rnd (rnd (rnd (mu + 1) / mu) * rnd (barc * barc))) (rnd (r * r)) with h1 | h1
  · exact Or.inl ⟨h1, if_pos h1⟩
  · refine Or.inr ?_
    rw [if_neg (not_le.2 h1)]
    rcases le_or_gt (rnd (r * r)) (rnd (rnd (mu / rnd (mu + 1)) * rnd (barc * barc))) with h2 | h2
    · exact Or.inl ⟨h1, h2, if_pos h2⟩
    · refine Or.inr ⟨h1, h2, ?_⟩
      have h3 : 0 ≤ rnd (rnd (mu / rnd (mu + 1)) * rnd (barc * barc)) :=
        h.nonneg (mul_nonneg (h.nonneg (by positivity)) hb)
      have h4 := lt_of_le_of_lt h3 h2
      have h5 : 0 ≤ rnd (rnd (rnd (rnd (barc * barc) * mu) * rnd (mu + 1)) / rnd (r * r)) :=
        h.nonneg (div_nonneg (h.nonneg (mul_nonneg (h.nonneg (mul_nonneg hb hm.le)) (by linarith))) h4.le)
      refine ⟨h4, ?_⟩
      rw [if_neg (not_le.2 h2), if_neg]
      rintro (e | e) <;> linarith

theorem gncForm_eq (hb : 0 < barc) (hm : 0 < mu) (hr : 0 < r) :
    gncForm barc mu r = max 0 (min 1 (Real.sqrt (barc * barc * mu * (mu + 1) / (r * r)) - mu)) := by
  unfold gncForm
  congr 1
  have hl := lowerSq_pos hb hm
  rw [show r ^ 2 = r * r by ring, show barc ^ 2 = barc * barc by ring]
  have e : Real.sqrt (barc * barc * mu * (mu + 1) / lowerSq barc mu) = mu + 1 := by
    rw [show barc * barc * mu * (mu + 1) / lowerSq barc mu = (mu + 1) ^ 2 by unfold lowerSq; field_simp]
    exact Real.sqrt_sq (by linarith)
  rcases le_total (r * r) (lowerSq barc mu) with h | h
  · rw [max_eq_right h, e, min_eq_left]
    · ring
    · have := Real.sqrt_le_sqrt (div_le_div_of_nonneg_left (show 0 ≤ barc * barc * mu * (mu + 1) by positivity)
        (mul_pos hr hr) h)
      linarith [e]
  · rw [max_eq_left h, min_eq_right]
    have := Real.sqrt_le_sqrt (div_le_div_of_nonneg_left (show 0 ≤ barc * barc * mu * (mu + 1) by positivity) hl h)
    linarith [e]

section
variable (h : Rounding rnd) (ha : Accurate u rnd) (hu1 : u ≤ 1) (hm : 0 < mu)
include h ha hu1 hm

theorem close_upper : Close u 4 (rnd (rnd (rnd (mu + 1) / mu) * rnd (barc * barc))) ((mu + 1) / mu * (barc * barc)) := by
  have hM := h.one_le (show 1 ≤ mu + 1 by linarith)
  have hB := h.nonneg (mul_self_nonneg barc)
  have h1 : 0 ≤ rnd (mu + 1) / mu := div_nonneg (by linarith) hm.le
  have k1 := Close.once ha hu1 (show 0 ≤ mu + 1 by linarith)
  have k2 := Close.round (n := 1) ha hu1 h1 <| by
    simpa using k1.div (m := 0) hu1 (by linarith) (by linarith) hm hm ⟨by simp, by simp⟩
  have k3 := k2.mul hu1 (h.nonneg h1) (by positivity) hB (mul_self_nonneg _) (Close.once ha hu1 (mul_self_nonneg barc))
  exact k3.round ha hu1 (mul_nonneg (h.nonneg h1) hB)

theorem close_lower : Close u 4 (rnd (rnd (mu / rnd (mu + 1)) * rnd (barc * barc))) (mu / (mu + 1) * (barc * barc)) := by
  have hM := h.one_le (show 1 ≤ mu + 1 by linarith)
  have hB := h.nonneg (mul_self_nonneg barc)
  have h1 : 0 ≤ mu / rnd (mu + 1) := div_nonneg hm.le (by linarith)
  have k1 := Close.once ha hu1 (show 0 ≤ mu + 1 by linarith)
  have k2 := Close.round (n := 1) ha hu1 h1 <| by
    simpa using Close.div (n := 0) (x := mu) (y := mu) hu1 hm.le hm.le (by linarith) (by linarith) ⟨by simp, by simp⟩ k1
  have k3 := k2.mul hu1 (h.nonneg h1) (by positivity) hB (mul_self_nonneg _) (Close.once ha hu1 (mul_self_nonneg barc))
  exact k3.round ha hu1 (mul_nonneg (h.nonneg h1) hB)

theorem close_root (hr : 0 < r) (hR : 0 < rnd (r * r)) :
    Close u 4 (rnd (Real.sqrt (rnd (rnd (rnd (rnd (barc * barc) * mu) * rnd (mu + 1)) / rnd (r * r)))))
      (Real.sqrt (barc * barc * mu * (mu + 1) / (r * r))) := by
  have hM := h.one_le (show 1 ≤ mu + 1 by linarith)
  have hB := h.nonneg (mul_self_nonneg barc)
  have k0 := Close.once ha hu1 (mul_self_nonneg barc)
  have k1 := Close.round (n := 1) ha hu1 (mul_nonneg hB hm.le) <| by
    simpa using k0.mul (m := 0) hu1 hB (mul_self_nonneg barc) hm.le hm.le ⟨by simp, by simp⟩
  have p1 := h.nonneg (mul_nonneg hB hm.le)
  have p2 : 0 ≤ rnd (rnd (barc * barc) * mu) * rnd (mu + 1) := mul_nonneg p1 (by linarith)
  have p0 := mul_nonneg (mul_self_nonneg barc) hm.le
  have k2 := (k1.mul hu1 p1 p0 (by linarith) (by linarith)
    (Close.once ha hu1 (show 0 ≤ mu + 1 by linarith))).round ha hu1 p2
  have p3 := div_nonneg (h.nonneg p2) hR.le
  have k3 := (k2.div hu1 (h.nonneg p2) (mul_nonneg p0 (by linarith)) hR (mul_pos hr hr)
    (Close.once ha hu1 (mul_self_nonneg r))).round ha hu1 p3
  exact (Close.sqrt (n := 3) hu1 k3).round ha hu1 (Real.sqrt_nonneg _)

omit h hm in
theorem square_ge (hB : Close u 4 x y) (hy : 0 ≤ y) (hx : x ≤ rnd (r * r)) : y * (1 - u) ^ 6 ≤ r * r := by
  have h1 := (Close.once ha hu1 (mul_self_nonneg r)).2
  have h2 := hB.1
  have h3 : 0 ≤ 1 - u := by linarith
  have h4 := mul_le_mul_of_nonneg_right (h2.trans hx) h3
  have h5 : (1 - u) ^ 6 ≤ (1 - u) ^ 5 := pow_le_pow_of_le_one h3 (by linarith [u_nonneg ha]) (by norm_num)
  have h6 := mul_le_mul_of_nonneg_left h5 hy
  rw [pow_one] at h1
  linarith [show y * (1 - u) ^ 4 * (1 - u) = y * (1 - u) ^ 5 by ring]

omit h hm in
theorem square_le (hB : Close u 4 x y) (hx : rnd (r * r) ≤ x) : r * r * (1 - u) ^ 6 ≤ y := by
  have h1 := (Close.once ha hu1 (mul_self_nonneg r)).1
  have h2 := hB.2
  have h3 : 0 ≤ 1 - u := by linarith
  have h4 := mul_le_mul_of_nonneg_right (h1.trans hx) (pow_nonneg h3 4)
  have h5 : (1 - u) ^ 6 ≤ (1 - u) ^ 5 := pow_le_pow_of_le_one h3 (by linarith [u_nonneg ha]) (by norm_num)
  have h6 := mul_le_mul_of_nonneg_left h5 (mul_self_nonneg r)
  rw [pow_one] at h4
  linarith [show r * r * (1 - u) * (1 - u) ^ 4 = r * r * (1 - u) ^ 5 by ring]

end

theorem root_le {N k : ℝ} (hu1 : u ≤ 1) (hk : 0 ≤ k) (hr : 0 < r) (hN : N = k ^ 2 * y)
    (h : y * (1 - u) ^ 6 ≤ r * r) : Real.sqrt (N / (r * r)) * (1 - u) ^ 3 ≤ k := by
  have h3 : 0 ≤ (1 - u) ^ 3 := pow_nonneg (by linarith) _
  have hq := mul_pos hr hr
  rw [← Real.sqrt_sq h3, ← Real.sqrt_mul' _ (sq_nonneg _)]
  refine (Real.sqrt_le_left hk).2 ?_
  rw [hN, div_mul_eq_mul_div, div_le_iff₀ hq]
  have := mul_le_mul_of_nonneg_left h (sq_nonneg k)
  linarith [show k ^ 2 * y * ((1 - u) ^ 3) ^ 2 = k ^ 2 * (y * (1 - u) ^ 6) by ring]

theorem le_root {N k : ℝ} (hr : 0 < r) (hN : N = k ^ 2 * y)
    (h : r * r * (1 - u) ^ 6 ≤ y) : k * (1 - u) ^ 3 ≤ Real.sqrt (N / (r * r)) := by
  refine Real.le_sqrt_of_sq_le ?_
  have hq := mul_pos hr hr
  rw [hN, le_div_iff₀ hq]
  have := mul_le_mul_of_nonneg_left h (sq_nonneg k)
  linarith [show (k * (1 - u) ^ 3) ^ 2 * (r * r) = k ^ 2 * (r * r * (1 - u) ^ 6) by ring]

theorem le_of_shrink {a b k : ℝ} (hu : 0 ≤ u) (hu1 : u ≤ 1 / 64) (ha : 0 ≤ a) (hk : k ≤ 4)
    (h : a * (1 - k * u) ≤ b) : a ≤ b * (1 + 5 * u) := by
  have h0 : a * (1 - 4 * u) ≤ b := le_trans (mul_le_mul_of_nonneg_left (by nlinarith) ha) h
  have h1 := mul_le_mul_of_nonneg_right h0 (show 0 ≤ 1 + 5 * u by linarith)
  have h2 : 0 ≤ a * (u * (1 - 20 * u)) := mul_nonneg ha (mul_nonneg hu (by linarith))
  linarith [show a * (1 - 4 * u) * (1 + 5 * u) = a + a * (u * (1 - 20 * u)) by ring]

theorem cube_ge (hu1 : u ≤ 1) : 1 - 3 * u ≤ (1 - u) ^ 3 := by
  have := one_add_mul_le_pow (a := -u) (by linarith) 3
  rw [← sub_eq_add_neg] at this
  push_cast at this
  linarith

/-- The computed weight is close to the exact weight. -/
theorem gnc_accurate (h : Rounding rnd) (ha : Accurate u rnd) (hu1 : u ≤ 1 / 64) (hb : 0 < barc) (hm : 0 < mu)
    (hr : 0 ≤ r) : ∃ w, gncWeightR rnd barc mu r = ok w ∧ |w - gncForm barc mu r| ≤ 12 * u * (mu + 1) := by
  have hu := u_nonneg ha
  have hu' : u ≤ 1 := by linarith
  have hup := close_upper (barc := barc) h ha hu' hm
  have hlo := close_lower (barc := barc) h ha hu' hm
  have p1 : 0 ≤ (mu + 1) / mu * (barc * barc) := by positivity
  have p2 : 0 ≤ mu / (mu + 1) * (barc * barc) := by positivity
  have hm1 : mu + 1 ≠ 0 := by linarith
  have n1 : barc * barc * mu * (mu + 1) = mu ^ 2 * ((mu + 1) / mu * (barc * barc)) := by field_simp
  have n2 : barc * barc * mu * (mu + 1) = (mu + 1) ^ 2 * (mu / (mu + 1) * (barc * barc)) := by field_simp
  have h3 := cube_ge hu'
  have hum : 0 ≤ u * mu := by positivity
  have hP0 : 0 ≤ u * (mu + 1) := by positivity
  rcases eq_or_lt_of_le hr with rfl | hr
  · refine ⟨1, ?_, ?_⟩
    · have e0 : rnd (0 * 0) = 0 := by rw [mul_zero, h.zero]
      have q1 : 0 < rnd (rnd (rnd (mu + 1) / mu) * rnd (barc * barc)) := by
        refine lt_of_lt_of_le ?_ hup.1
        have : 0 < 1 - u := by linarith
        positivity
      have q2 : 0 ≤ rnd (rnd (mu / rnd (mu + 1)) * rnd (barc * barc)) := by
        refine le_trans ?_ hlo.1
        have : 0 ≤ 1 - u := by linarith
        positivity
      rcases gncWeightR_cases (barc := barc) h hm 0 with ⟨k, -⟩ | ⟨-, -, k⟩ | ⟨-, -, k, -⟩
      · rw [e0] at k; linarith
      · exact k
      · rw [e0] at k; linarith
    · have e1 : gncForm barc mu 0 = 1 := by
        have := gncWeight_eq hb hm 0
        have h4 : lowerSq barc mu = mu / (mu + 1) * (barc * barc) := by unfold lowerSq; ring
        unfold gncForm
        rw [show (0 : ℝ) ^ 2 = 0 by norm_num, max_eq_right (lowerSq_pos hb hm).le]
        rw [show barc ^ 2 * mu * (mu + 1) / lowerSq barc mu = (mu + 1) ^ 2 by unfold lowerSq; field_simp,
          Real.sqrt_sq (by linarith)]
        norm_num
      rw [e1]
      norm_num
      positivity
  · rw [gncForm_eq hb hm hr]
    rcases gncWeightR_cases (barc := barc) h hm r with ⟨k, e⟩ | ⟨-, k, e⟩ | ⟨k, k', kp, e⟩
    · refine ⟨0, e, ?_⟩
      have z1 := root_le hu' hm.le hr n1 (square_ge ha hu' hup p1 k)
      have z4 := Real.sqrt_nonneg (barc * barc * mu * (mu + 1) / (r * r))
      generalize Real.sqrt (barc * barc * mu * (mu + 1) / (r * r)) = z at z1 z4 ⊢
      have z2 := le_of_shrink hu hu1 z4 (k := 3) (by norm_num)
        ((mul_le_mul_of_nonneg_left h3 z4).trans z1)
      rw [zero_sub, abs_neg, abs_of_nonneg (le_max_left _ _)]
      refine max_le (by linarith) ((min_le_right _ _).trans ?_)
      linarith
    · refine ⟨1, e, ?_⟩
      have z1 := le_root hr n2 (square_le ha hu' hlo k)
      generalize Real.sqrt (barc * barc * mu * (mu + 1) / (r * r)) = z at z1 ⊢
      have z2 := mul_le_mul_of_nonneg_left h3 (show 0 ≤ mu + 1 by linarith)
      have z5 : max 0 (min 1 (z - mu)) ≤ 1 := max_le zero_le_one (min_le_left _ _)
      have z6 : 1 - 3 * u * (mu + 1) ≤ max 0 (min 1 (z - mu)) := by
        refine le_max_of_le_right (le_min (by linarith) ?_)
        linarith
      rw [abs_of_nonneg (by linarith)]
      linarith
    · refine ⟨_, e, ?_⟩
      have z1 := root_le hu' (by linarith) hr n2 (square_ge ha hu' hlo p2 k'.le)
      have z2 := le_root hr n1 (square_le ha hu' hup k.le)
      have z3 := (close_root (barc := barc) h ha hu' hm hr kp).linear hu' (h.nonneg (Real.sqrt_nonneg _)) (Real.sqrt_nonneg _)
      have z4 := Real.sqrt_nonneg (barc * barc * mu * (mu + 1) / (r * r))
      have z5 := h.nonneg (Real.sqrt_nonneg (rnd (rnd (rnd (rnd (barc * barc) * mu) * rnd (mu + 1)) / rnd (r * r))))
      generalize Real.sqrt (barc * barc * mu * (mu + 1) / (r * r)) = z at *
      generalize rnd (Real.sqrt (rnd (rnd (rnd (rnd (barc * barc) * mu) * rnd (mu + 1)) / rnd (r * r)))) = y at *
      have z6 := abs_le.1 (ha (y - mu))
      have c1 := le_of_shrink hu hu1 z4 (k := 3) (by norm_num)
        ((mul_le_mul_of_nonneg_left h3 z4).trans z1)
      have c2 := (mul_le_mul_of_nonneg_left h3 hm.le).trans z2
      obtain ⟨c3, c4⟩ := z3
      have c5 := le_of_shrink hu hu1 z5 (by norm_num) c4
      push_cast at c3
      have d0 : u ≤ u * (mu + 1) := by linarith
      have d1 : u * (u * (mu + 1)) ≤ u * (mu + 1) / 64 := by
        linarith [mul_le_mul_of_nonneg_right hu1 hP0]
      have d2 := mul_le_mul_of_nonneg_left c1 hu
      have d3 : u * z ≤ (69 / 64) * (u * (mu + 1)) := by linarith
      obtain ⟨P, hP⟩ : ∃ P, P = u * (mu + 1) := ⟨_, rfl⟩
      clear h ha hup hlo p1 p2 n1 n2 h3 k k' kp z1 z2 e c4
      rw [← hP] at d0 d1 d3
      have d4 : y - z ≤ 5.4 * P := by linarith
      have d5 : z - y ≤ 4.4 * P := by linarith
      have d6 : |y - mu| ≤ 1 + 10.4 * P := by rw [abs_le]; constructor <;> linarith
      have d7 := mul_le_mul_of_nonneg_left d6 hu
      have d8 : u * |y - mu| ≤ 1.17 * P := by linarith
      have d9 : |z - mu - max 0 (min 1 (z - mu))| ≤ 5 * P := by
        rw [abs_le]
        rcases le_total (z - mu) 0 with q | q
        · rw [min_eq_right (by linarith), max_eq_left q]; constructor <;> linarith
        · rcases le_total (z - mu) 1 with q' | q'
          · rw [min_eq_right q', max_eq_right q]; constructor <;> linarith
          · rw [min_eq_left q', max_eq_right zero_le_one]; constructor <;> linarith
      rw [abs_le] at d9 ⊢
      constructor <;> linarith

/-- Other costs: two residuals in order give two weights in order. -/
theorem weightR_mono (h : Rounding rnd) (hc : CostOk c) (ht : c.params.costType ≠ .GNC_TLS) (hr : 0 ≤ r) (hs : r ≤ s)
    (e : weightR rnd b c r = ok w) (e' : weightR rnd b c s = ok v) :
    0 ≤ v ∧ v ≤ w ∧ (c.params.costType ≠ .L1 → w ≤ 1) := by
  unfold weightR at e e'
  obtain ⟨hH, -, -, -⟩ := hc
  generalize hct : c.params.costType = k at e e' ht hH
  cases k with
  | L2 => cases e; cases e'; exact ⟨zero_le_one, le_refl _, fun _ => le_refl _⟩
  | L1 =>
    simp only at e e'
    split at e
    · cases e
    rename_i hr0
    have hr' : 0 < r := lt_of_le_of_ne hr (Ne.symm hr0)
    rw [if_neg (by linarith)] at e'
    cases e; cases e'
    have hs' : 0 < s := by linarith
    exact ⟨h.nonneg (by positivity), h.mono (one_div_le_one_div_of_le hr' hs), fun k => absurd rfl k⟩
  | TLS =>
    simp only at e e'
    split at e <;> split at e' <;> cases e <;> cases e'
    · norm_num
    · norm_num
    · linarith
    · norm_num
  | Huber =>
    have hT := hH rfl
    simp only at e e'
    have one : ∀ t, c.params.HuberThreshold ≤ t → c.params.HuberThreshold / t ≤ 1 := fun t k => by
      rw [div_le_one (by linarith)]; exact k
    split at e
    · cases e
      split at e'
      · cases e'; norm_num
      · rename_i k
        rw [if_neg (by linarith)] at e'
        cases e'
        exact ⟨h.nonneg (div_nonneg hT.le (by linarith)), h.le_one (one _ (not_lt.1 k)), fun _ => le_refl _⟩
    · rename_i k
      rw [if_neg (by linarith)] at e e'
      rw [if_neg (by linarith)] at e'
      cases e; cases e'
      refine ⟨h.nonneg (div_nonneg hT.le (by linarith)), h.mono ?_, fun _ => h.le_one (one _ (not_lt.1 k))⟩
      exact div_le_div_of_nonneg_left hT.le (by linarith) hs
  | GM =>
    obtain ⟨k1, k2, k3⟩ := gmWeightR_mono h hr hs e e'
    exact ⟨k1, k2, fun _ => k3⟩
  | GNC_TLS => exact absurd rfl ht

theorem weightR_ok (h : Rounding rnd) (hc : CostOk c) (h0 : c.params.costType = .L1 → r ≠ 0) :
    ∃ w, weightR rnd b c r = ok w := by
  obtain ⟨hH, -, hB, hM⟩ := hc
  unfold weightR
  generalize hct : c.params.costType = k at h0 hH hB hM
  cases k with
  | L2 => exact ⟨_, rfl⟩
  | L1 => exact ⟨_, if_neg (h0 rfl)⟩
  | TLS => simp only; split <;> exact ⟨_, rfl⟩
  | Huber =>
    have := hH rfl
    simp only
    split
    · exact ⟨_, rfl⟩
    · exact ⟨_, if_neg (by linarith)⟩
  | GM => obtain ⟨a, -, e, -⟩ := gmWeightR_eq (b := b) h r; exact ⟨_, e⟩
  | GNC_TLS =>
    rcases gncWeightR_cases (barc := c.params.GNCBarc) h (hM rfl) r with ⟨-, e⟩ | ⟨-, -, e⟩ | ⟨-, -, -, e⟩ <;> exact ⟨_, e⟩

theorem _root_.Dpgo.Close.abs_sub_le (hu : 0 ≤ u) (hu1 : u ≤ 1 / 64) (hx : 0 ≤ x) (hy : 0 ≤ y) (hc : Close u 6 x y) :
    |x - y| ≤ 7 * u * y := by
  obtain ⟨h1, h2⟩ := hc.linear (by linarith) hx hy
  push_cast at h1 h2
  have h3 : x * (1 - 6 * u) * (1 + 7 * u) ≤ y * (1 + 7 * u) := mul_le_mul_of_nonneg_right h2 (by linarith)
  have h4 : 0 ≤ x * (u * (1 - 42 * u)) := mul_nonneg hx (mul_nonneg hu (by linarith))
  have h5 : 0 ≤ u * y := mul_nonneg hu hy
  rw [abs_le]
  constructor
  · linarith
  · linarith [show x * (1 - 6 * u) * (1 + 7 * u) = x + x * (u * (1 - 42 * u)) by ring]

/-- Other costs: the computed weight has a small relative error. -/
theorem weightR_accurate (h : Rounding rnd) (ha : Accurate u rnd) (hu1 : u ≤ 1 / 64) (hc : CostOk c)
    (ht : c.params.costType ≠ .GNC_TLS) (hr : 0 ≤ r) (e : weightR rnd b c r = ok w) (e' : c.weight r = ok v) :
    |w - v| ≤ 7 * u * v := by
  have hu := u_nonneg ha
  have one : ∀ x, 0 ≤ x → |rnd x - x| ≤ 7 * u * x := fun x hx => by
    have := ha x
    rw [abs_of_nonneg hx] at this
    linarith [mul_nonneg hu hx]
  have same : |(1 : ℝ) - 1| ≤ 7 * u * 1 := by norm_num; exact hu
  unfold weightR at e
  unfold weight at e'
  obtain ⟨hH, -, -, -⟩ := hc
  generalize hct : c.params.costType = k at e e' ht hH
  cases k with
  | L2 => cases e; cases e'; exact same
  | L1 =>
    simp only at e e'
    split at e <;> cases e
    rw [if_neg (by assumption)] at e'; cases e'
    exact one _ (by positivity)
  | TLS =>
    simp only at e e'
    split at e <;> cases e
    · rw [if_pos (by assumption)] at e'; cases e'; exact same
    · rw [if_neg (by assumption)] at e'; cases e'; norm_num
  | Huber =>
    have := hH rfl
    simp only at e e'
    split at e
    · cases e
      rw [if_pos (by assumption)] at e'; cases e'; exact same
    · rw [if_neg (by assumption)] at e'
      rw [if_neg (by linarith)] at e e'
      cases e; cases e'
      exact one _ (by positivity)
  | GM =>
    simp only at e e'
    cases e'
    obtain ⟨a, ha1, k1, k2⟩ := gmWeightR_eq (b := b) h r
    rw [k1] at e; cases e
    have hq := mul_self_nonneg r
    have hu' : u ≤ 1 := by linarith
    have ca : Close u 2 a (1 + r * r) := by
      rw [k2]
      split
      · exact (Close.once ha hu' (by linarith)).trans hu' (Close.refl (n := 1) hu hu' (by linarith))
      · have c1 := Close.once ha hu' hq
        rw [Close, pow_one] at c1
        refine Close.round (n := 1) ha hu' (by linarith [h.nonneg hq]) ?_
        rw [Close, pow_one]
        constructor <;> linarith
    have ca2 := (ca.mul hu' (by linarith) (by linarith) (by linarith) (by linarith) ca).round ha hu'
      (mul_self_nonneg a)
    have p1 := h.one_le (one_le_mul_of_one_le_of_one_le ha1 ha1)
    have p2 : 0 < (1 + r * r) * (1 + r * r) := mul_pos (by linarith) (by linarith)
    have ci := (ca2.inv (by linarith) p2).round ha hu' (by positivity)
    exact Close.abs_sub_le hu hu1 (h.nonneg (by positivity)) (by positivity) ci
  | GNC_TLS => exact absurd rfl ht

/-- Once adding one no longer changes the control parameter, every edge is accepted or rejected. -/
theorem gnc_decided (h : Rounding rnd) (hm : 0 < mu) (e : rnd (mu + 1) = mu) :
    gncWeightR rnd barc mu r = ok (if rnd (r * r) < rnd (barc * barc) then 1 else 0) := by
  have h1 : rnd (rnd (barc * barc)) = rnd (barc * barc) := h.idem _
  rcases gncWeightR_cases (barc := barc) h hm r with ⟨k, k'⟩ | ⟨k, -, k'⟩ | ⟨k, k2, -, -⟩
  · rw [e, div_self hm.ne', h.one, one_mul, h1] at k
    rw [k', if_neg (not_lt.2 k)]
  · rw [e, div_self hm.ne', h.one, one_mul, h1] at k
    rw [k', if_pos k]
  · rw [e, div_self hm.ne', h.one, one_mul, h1] at k k2
    exact absurd k (not_lt.2 k2.le)

theorem updateR_mu (h : Rounding rnd) (hs : 1 ≤ c.params.GNCMuStep) (hm : 0 ≤ c.mu) (hf : rnd c.mu = c.mu) :
    c.mu ≤ (updateR rnd c).mu ∧ rnd (updateR rnd c).mu = (updateR rnd c).mu ∧ (updateR rnd c).params = c.params := by
  unfold updateR
  split
  · exact ⟨le_refl _, hf, rfl⟩
  · dsimp only
    split
    · exact ⟨le_refl _, hf, rfl⟩
    · refine ⟨?_, h.idem _, rfl⟩
      dsimp only
      rw [← hf]
      refine h.mono ?_
      rw [hf]
      nlinarith

theorem sumSq_nonneg (h : Rounding rnd) {l : List ℝ} {a : ℝ} (hl : SumSq rnd l a) : 0 ≤ a := by
  induction hl with
  | nil => exact le_refl _
  | sq x => exact h.nonneg (mul_self_nonneg x)
  | add _ _ _ i j => exact h.nonneg (add_nonneg i j)
  | fma x _ _ i => exact h.nonneg (add_nonneg (mul_self_nonneg x) i)

theorem sumSq_zero (h : Rounding rnd) {l : List ℝ} {a : ℝ} (hl : SumSq rnd l a) (h0 : ∀ x ∈ l, x = 0) : a = 0 := by
  induction hl with
  | nil => rfl
  | sq x => rw [h0 x (by simp), mul_zero, h.zero]
  | add _ _ p i j =>
    rw [i fun x hx => h0 x (p.subset (by simp [hx])), j fun x hx => h0 x (p.subset (by simp [hx])), add_zero, h.zero]
  | fma x _ p i =>
    rw [h0 x (p.subset (by simp)), i fun y hy => h0 y (p.subset (by simp [hy])), mul_zero, add_zero, h.zero]

theorem errorSumR_nonneg (h : Rounding rnd) {k t p q : ℝ} (hk : 0 ≤ k) (ht : 0 ≤ t) (hp : 0 ≤ p) (hq : 0 ≤ q) :
    0 ≤ errorSumR rnd b k t p q := by
  have h1 := mul_nonneg hk hp
  have h2 := h.nonneg (mul_nonneg ht hq)
  unfold errorSumR
  split
  · exact h.nonneg (add_nonneg h1 h2)
  · exact h.nonneg (add_nonneg (h.nonneg h1) h2)

end RobustCost

end Dpgo
