import Verif.Lemmas.Quaternion

/-!
# Rounded quaternions: the rotation changes little
-/

namespace Dpgo.Quat

open Matrix Spec

/-- Every coefficient of `q'` is that of `q` up to a relative error of `5·10⁻⁶`. -/
structure Near (q q' : Quat) : Prop where
  x : |q'.x - q.x| ≤ 5 / 10 ^ 6 * |q.x|
  y : |q'.y - q.y| ≤ 5 / 10 ^ 6 * |q.y|
  z : |q'.z - q.z| ≤ 5 / 10 ^ 6 * |q.z|
  w : |q'.w - q.w| ≤ 5 / 10 ^ 6 * |q.w|

theorem sq_near {a b : ℝ} (h : |b - a| ≤ 5 / 10 ^ 6 * |a|) :
    (1 - 5 / 10 ^ 6) ^ 2 * (a * a) ≤ b * b ∧ b * b ≤ (1 + 5 / 10 ^ 6) ^ 2 * (a * a) := by
  have h1 : |b| ≤ (1 + 5 / 10 ^ 6) * |a| := by
    have := abs_sub_abs_le_abs_sub b a; linarith
  have h2 : (1 - 5 / 10 ^ 6) * |a| ≤ |b| := by
    have := abs_sub_abs_le_abs_sub a b; rw [abs_sub_comm a b] at this; linarith
  rw [← abs_mul_abs_self a, ← abs_mul_abs_self b]
  have ha := abs_nonneg a
  have hb := abs_nonneg b
  constructor
  · have := mul_self_le_mul_self (mul_nonneg (by norm_num) ha) h2
    calc _ = (1 - 5 / 10 ^ 6) * |a| * ((1 - 5 / 10 ^ 6) * |a|) := by ring
      _ ≤ _ := this
  · have := mul_self_le_mul_self hb h1
    calc _ ≤ _ := this
      _ = _ := by ring

theorem coef_le {q : Quat} (h : q.normSq = 1) : |q.x| ≤ 1 ∧ |q.y| ≤ 1 ∧ |q.z| ≤ 1 ∧ |q.w| ≤ 1 := by
  unfold normSq at h
  have hx := mul_self_nonneg q.x
  have hy := mul_self_nonneg q.y
  have hz := mul_self_nonneg q.z
  have hw := mul_self_nonneg q.w
  refine ⟨abs_le_one_iff_mul_self_le_one.2 ?_, abs_le_one_iff_mul_self_le_one.2 ?_,
    abs_le_one_iff_mul_self_le_one.2 ?_, abs_le_one_iff_mul_self_le_one.2 ?_⟩ <;> linarith

theorem div_near {a b N : ℝ} (ha : |a| ≤ 1) (h : |b - a| ≤ 5 / 10 ^ 6 * |a|) (hN1 : 1 - 5 / 10 ^ 6 ≤ N)
    (hN2 : N ≤ 1 + 5 / 10 ^ 6) : |b / N - a| ≤ 11 / 10 ^ 6 := by
  have hN : 0 < N := lt_of_lt_of_le (by norm_num) hN1
  have e : b / N - a = ((b - a) - a * (N - 1)) / N := by field_simp; ring
  rw [e, abs_div, abs_of_pos hN, div_le_iff₀ hN]
  have h1 : |b - a| ≤ 5 / 10 ^ 6 := h.trans (by linarith)
  have h2 : |a * (N - 1)| ≤ 5 / 10 ^ 6 := by
    rw [abs_mul]
    have : |N - 1| ≤ 5 / 10 ^ 6 := abs_le.2 ⟨by linarith, by linarith⟩
    calc |a| * |N - 1| ≤ 1 * (5 / 10 ^ 6) := by gcongr
      _ = _ := by ring
  have := abs_sub (b - a) (a * (N - 1))
  have : (11 : ℝ) / 10 ^ 6 * (1 - 5 / 10 ^ 6) ≤ 11 / 10 ^ 6 * N := by gcongr
  norm_num at *
  linarith

theorem Near.normalize {q q' : Quat} (h : q.normSq = 1) (hn : Near q q') :
    q'.normalize.normSq = 1 ∧ |q'.normalize.x - q.x| ≤ 11 / 10 ^ 6 ∧ |q'.normalize.y - q.y| ≤ 11 / 10 ^ 6 ∧
      |q'.normalize.z - q.z| ≤ 11 / 10 ^ 6 ∧ |q'.normalize.w - q.w| ≤ 11 / 10 ^ 6 := by
  have lo : (1 - 5 / 10 ^ 6) ^ 2 ≤ q'.normSq := by
    have h' := h
    unfold normSq at h' ⊢
    have := (sq_near hn.x).1; have := (sq_near hn.y).1; have := (sq_near hn.z).1; have := (sq_near hn.w).1
    linarith
  have hi : q'.normSq ≤ (1 + 5 / 10 ^ 6) ^ 2 := by
    have h' := h
    unfold normSq at h' ⊢
    have := (sq_near hn.x).2; have := (sq_near hn.y).2; have := (sq_near hn.z).2; have := (sq_near hn.w).2
    linarith
  have pos : 0 < q'.normSq := lt_of_lt_of_le (by norm_num) lo
  have n1 : 1 - 5 / 10 ^ 6 ≤ √q'.normSq := Real.le_sqrt_of_sq_le lo
  have n2 : √q'.normSq ≤ 1 + 5 / 10 ^ 6 := Real.sqrt_le_iff.2 ⟨by norm_num, hi⟩
  obtain ⟨cx, cy, cz, cw⟩ := coef_le h
  have e : q'.normalize = ⟨q'.x / √q'.normSq, q'.y / √q'.normSq, q'.z / √q'.normSq, q'.w / √q'.normSq⟩ := by
    unfold Quat.normalize; rw [if_pos pos]
  have s0 : √q'.normSq ≠ 0 := (Real.sqrt_pos.2 pos).ne'
  refine ⟨?_, ?_⟩
  · rw [e]
    have := Real.mul_self_sqrt pos.le
    generalize √q'.normSq = s at s0 this
    unfold normSq at this ⊢
    simp only
    field_simp
    linarith [this, show s * s = s ^ 2 by ring]
  · rw [e]
    exact ⟨div_near cx hn.x n1 n2, div_near cy hn.y n1 n2, div_near cz hn.z n1 n2, div_near cw hn.w n1 n2⟩

theorem mul_near {a b a' b' : ℝ} (ha : |a| ≤ 1) (hb : |b'| ≤ 1) (h1 : |a' - a| ≤ 11 / 10 ^ 6)
    (h2 : |b' - b| ≤ 11 / 10 ^ 6) : |a' * b' - a * b| ≤ 22 / 10 ^ 6 := by
  have e : a' * b' - a * b = (a' - a) * b' + a * (b' - b) := by ring
  rw [e]
  refine (abs_add_le _ _).trans ?_
  rw [abs_mul, abs_mul]
  have : |a' - a| * |b'| ≤ 11 / 10 ^ 6 * 1 := by gcongr
  have : |a| * |b' - b| ≤ 1 * (11 / 10 ^ 6) := by gcongr
  linarith

/-- Rounding the coefficients of a unit quaternion and normalising moves no entry of the rotation by more than
`10⁻⁴`. -/
theorem Near.rotation {q q' : Quat} (h : q.normSq = 1) (hn : Near q q') (i j : Nat) :
    |q'.normalize.toRotation.v i j - q.toRotation.v i j| ≤ 1 / 10 ^ 4 := by
  obtain ⟨hu, dx, dy, dz, dw⟩ := hn.normalize h
  obtain ⟨cx, cy, cz, cw⟩ := coef_le h
  obtain ⟨ux, uy, uz, uw⟩ := coef_le hu
  have xx := abs_le.1 (mul_near cx ux dx dx); have yy := abs_le.1 (mul_near cy uy dy dy)
  have zz := abs_le.1 (mul_near cz uz dz dz)
  have yx := abs_le.1 (mul_near cy ux dy dx); have zx := abs_le.1 (mul_near cz ux dz dx)
  have zy := abs_le.1 (mul_near cz uy dz dy)
  have xw := abs_le.1 (mul_near cx uw dx dw); have yw := abs_le.1 (mul_near cy uw dy dw)
  have zw := abs_le.1 (mul_near cz uw dz dw)
  unfold toRotation
  simp only
  split <;> rw [abs_le] <;> norm_num at * <;> constructor <;> linarith

end Dpgo.Quat
