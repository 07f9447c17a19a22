import Verif.Model.DataMatrices
import Verif.Model.Utils
import Verif.Lemmas.Projection
import Verif.Basic.Mat
import Verif.Lemmas.Errors
import Mathlib.Tactic.FinCases
import Mathlib.Algebra.Order.Field.Basic
import Mathlib.Algebra.Order.BigOperators.Ring.Finset

/-! # C60, C61: measurement error and angular distance -/

namespace Dpgo.Props

open Matrix Spec

/-! ### C60 -/

section
variable {K : Type} [Field K] [LinearOrder K] [IsStrictOrderedRing K]

/-- **C60.** The error is never negative. -/
theorem C60_nonneg (m : Meas K) (hk : 0 ≤ m.kappa) (ht : 0 ≤ m.tau) (R1 t1 R2 t2 : DMat K) :
    0 ≤ measurementError m R1 t1 R2 t2 :=
  add_nonneg (mul_nonneg hk (normSq_nonneg _)) (mul_nonneg ht (normSq_nonneg _))

/-- **C60.** It is zero exactly when the second (possibly lifted) pose is the first composed with the
measurement. -/
theorem C60_zero_iff (r d : Nat) (m : Meas K) (hk : 0 < m.kappa) (ht : 0 < m.tau)
    (hR : m.R.rows = d ∧ m.R.cols = d) (R1 t1 R2 t2 : DMat K)
    (h1 : R1.rows = r ∧ R1.cols = d) (h2 : t2.rows = r ∧ t2.cols = 1) :
    measurementError m R1 t1 R2 t2 = 0 ↔
      R2.toMat r d = R1.toMat r d * m.R.toMat d d ∧
      t2.toMat r 1 = t1.toMat r 1 + R1.toMat r d * m.t.toMat d 1 := by
  unfold measurementError
  rw [add_eq_zero_iff_of_nonneg (mul_nonneg hk.le (normSq_nonneg _))
    (mul_nonneg ht.le (normSq_nonneg _)), mul_eq_zero, mul_eq_zero, or_iff_right hk.ne',
    or_iff_right ht.ne', normSq_eq_zero (A := (R1.mul m.R).sub R2) (m := r) (n := d) ⟨h1.1, hR.2⟩,
    normSq_eq_zero (A := (t2.sub t1).sub (R1.mul m.t)) (m := r) (n := 1) ⟨h2.1, h2.2⟩,
    DMat.toMat_sub, DMat.toMat_sub, DMat.toMat_sub, DMat.toMat_mul h1.2, DMat.toMat_mul h1.2,
    sub_eq_zero, sub_eq_zero, sub_eq_iff_eq_add]
  constructor
  · rintro ⟨a, b⟩; exact ⟨a.symm, by rw [b, add_comm]⟩
  · rintro ⟨a, b⟩; exact ⟨a.symm, by rw [b, add_comm]⟩

omit [LinearOrder K] [IsStrictOrderedRing K] in
/-- **C60.** A common transformation `x ↦ Q x + s` with orthonormal columns `Q` (a rigid motion, or
lifting to a higher dimension) of both poses does not change the error. -/
theorem C60_invariant (r r' d : Nat) (m : Meas K) (hR : m.R.rows = d ∧ m.R.cols = d)
    (Q s : DMat K) (hQ : Q.rows = r' ∧ Q.cols = r) (hQQ : (Q.toMat r' r)ᵀ * Q.toMat r' r = 1)
    (R1 t1 R2 t2 : DMat K) (h1 : R1.rows = r ∧ R1.cols = d) (h2 : t2.rows = r ∧ t2.cols = 1) :
    measurementError m (Q.mul R1) ((Q.mul t1).add s) (Q.mul R2) ((Q.mul t2).add s) =
      measurementError m R1 t1 R2 t2 := by
  have key : ∀ (n : Nat) (A B : Matrix (Fin r) (Fin n) K),
      ((Q.toMat r' r * A - Q.toMat r' r * B)ᵀ * (Q.toMat r' r * A - Q.toMat r' r * B)).trace =
        ((A - B)ᵀ * (A - B)).trace := by
    intro n A B
    rw [← Matrix.mul_sub, Matrix.transpose_mul, Matrix.mul_assoc, ← Matrix.mul_assoc _ _ (A - B), hQQ,
      Matrix.one_mul]
  have c1 : (Q.mul R1).cols = d := h1.2
  unfold measurementError
  rw [DMat.normSq_eq (A := ((Q.mul R1).mul m.R).sub (Q.mul R2)) (m := r') (n := d) ⟨hQ.1, hR.2⟩,
    DMat.normSq_eq (A := (R1.mul m.R).sub R2) (m := r) (n := d) ⟨h1.1, hR.2⟩,
    DMat.normSq_eq (A := (((Q.mul t2).add s).sub ((Q.mul t1).add s)).sub ((Q.mul R1).mul m.t))
      (m := r') (n := 1) ⟨hQ.1, h2.2⟩,
    DMat.normSq_eq (A := (t2.sub t1).sub (R1.mul m.t)) (m := r) (n := 1) ⟨h2.1, h2.2⟩]
  simp only [DMat.toMat_sub, DMat.toMat_add, DMat.toMat_mul c1, DMat.toMat_mul hQ.2,
    DMat.toMat_mul h1.2, Matrix.mul_assoc, add_sub_add_right_eq_sub]
  rw [key, sub_sub, ← Matrix.mul_add, key, ← sub_sub]

end

/-! ### C61 -/

/-- Cross-product matrix of a vector. -/
def cross (u : Fin 3 → ℝ) : Matrix (Fin 3) (Fin 3) ℝ :=
  !![0, -u 2, u 1; u 2, 0, -u 0; -u 1, u 0, 0]

/-- Rotation by the angle `t` about the unit axis `u` (Rodrigues). -/
noncomputable def rodrigues (u : Fin 3 → ℝ) (t : ℝ) : Matrix (Fin 3) (Fin 3) ℝ :=
  1 + Real.sin t • cross u + (1 - Real.cos t) • (cross u * cross u)

/-- Distance to the identity from the trace. -/
theorem frob2_rot_one {R : Matrix (Fin 3) (Fin 3) ℝ} (h : OrthoCols R) :
    frob2 (R - 1) = 6 - 2 * R.trace := by
  rw [frob2_sub, frob2_ortho h, Matrix.mul_one, Matrix.trace_transpose]
  have : frob2 (1 : Matrix (Fin 3) (Fin 3) ℝ) = 3 := by
    rw [frob2_ortho (by unfold OrthoCols; simp)]; norm_num
  rw [this]; push_cast; ring

/-- **C61.** For every orthogonal matrix whose rotation angle is `rad` (trace `1 + 2 cos rad`), the
Frobenius distance to the identity is the returned value. -/
theorem C61_trace (R : Matrix (Fin 3) (Fin 3) ℝ) (h : OrthoCols R) (rad : ℝ) (h0 : 0 ≤ rad)
    (h1 : rad ≤ 2 * Real.pi) (htr : R.trace = 1 + 2 * Real.cos rad) :
    Real.sqrt (frob2 (R - 1)) = angular2ChordalSO3 rad := by
  have hs : 0 ≤ Real.sin (rad / 2) := Real.sin_nonneg_of_nonneg_of_le_pi (by linarith) (by linarith)
  have hc : Real.cos rad = 1 - 2 * Real.sin (rad / 2) ^ 2 := by
    have := Real.cos_two_mul (rad / 2)
    rw [mul_div_cancel₀ rad two_ne_zero] at this
    have h2 := Real.sin_sq_add_cos_sq (rad / 2)
    linarith
  rw [frob2_rot_one h, htr]
  unfold angular2ChordalSO3
  rw [Real.sqrt_eq_iff_mul_self_eq (by nlinarith [sq_nonneg (Real.sin (rad / 2))]) (by positivity)]
  have := Real.mul_self_sqrt (show (0 : ℝ) ≤ 2 by norm_num)
  calc 6 - 2 * (1 + 2 * Real.cos rad) = 4 * 2 * Real.sin (rad / 2) ^ 2 := by rw [hc]; ring
    _ = 4 * (Real.sqrt 2 * Real.sqrt 2) * Real.sin (rad / 2) ^ 2 := by rw [this]
    _ = 2 * Real.sqrt 2 * Real.sin (rad / 2) * (2 * Real.sqrt 2 * Real.sin (rad / 2)) := by ring

theorem rodrigues_trace (u : Fin 3 → ℝ) (hu : u 0 ^ 2 + u 1 ^ 2 + u 2 ^ 2 = 1) (t : ℝ) :
    (rodrigues u t).trace = 1 + 2 * Real.cos t := by
  simp only [Matrix.trace_fin_three, rodrigues, cross, Matrix.add_apply, Matrix.smul_apply,
    Matrix.mul_apply, Fin.sum_univ_three, smul_eq_mul]
  simp
  linear_combination (-2 + 2 * Real.cos t) * hu

theorem skew_ortho {C : Matrix (Fin 3) (Fin 3) ℝ} (hCt : Cᵀ = -C) (hC3 : C * C * C = -C) (t : ℝ) :
    OrthoCols (1 + Real.sin t • C + (1 - Real.cos t) • (C * C)) := by
  have hC4 : C * C * (C * C) = -(C * C) := by
    rw [← Matrix.mul_assoc, hC3, Matrix.neg_mul]
  have hC3' : C * (C * C) = -C := by rw [← Matrix.mul_assoc, hC3]
  unfold OrthoCols
  rw [Matrix.transpose_add, Matrix.transpose_add, Matrix.transpose_one, Matrix.transpose_smul,
    Matrix.transpose_smul, Matrix.transpose_mul, hCt, Matrix.neg_mul, Matrix.mul_neg, neg_neg]
  simp only [Matrix.add_mul, Matrix.mul_add, Matrix.one_mul, Matrix.mul_one, Matrix.smul_mul,
    Matrix.mul_smul, Matrix.neg_mul, smul_neg, hC4, hC3, hC3']
  have hs := Real.sin_sq_add_cos_sq t
  ext i j
  simp only [Matrix.add_apply, Matrix.neg_apply, Matrix.smul_apply, smul_eq_mul]
  linear_combination (-(C * C) i j) * hs

theorem rodrigues_ortho (u : Fin 3 → ℝ) (hu : u 0 ^ 2 + u 1 ^ 2 + u 2 ^ 2 = 1) (t : ℝ) :
    OrthoCols (rodrigues u t) := by
  refine skew_ortho ?_ ?_ t
  · ext i j
    fin_cases i <;> fin_cases j <;> simp [cross]
  · have e : cross u * cross u * cross u = (-(u 0 ^ 2 + u 1 ^ 2 + u 2 ^ 2)) • cross u := by
      ext i j
      fin_cases i <;> fin_cases j <;>
        simp [cross, Matrix.mul_apply, Fin.sum_univ_three] <;> ring
    rw [e, hu, neg_smul, one_smul]

/-- **C61.** For the rotation by `rad ∈ [0, π]` about any unit axis. -/
theorem C61_axis_angle (u : Fin 3 → ℝ) (hu : u 0 ^ 2 + u 1 ^ 2 + u 2 ^ 2 = 1) (rad : ℝ)
    (h0 : 0 ≤ rad) (h1 : rad ≤ Real.pi) :
    OrthoCols (rodrigues u rad) ∧
    Real.sqrt (frob2 (rodrigues u rad - 1)) = angular2ChordalSO3 rad := by
  refine ⟨rodrigues_ortho u hu rad, ?_⟩
  have := Real.pi_pos
  exact C61_trace _ (rodrigues_ortho u hu rad) rad h0 (by linarith) (rodrigues_trace u hu rad)

/-- **C61.** On `[0, π]` the conversion is strictly increasing, so a chordal threshold is an angular
threshold. -/
theorem C61_monotone (a b : ℝ) (ha : 0 ≤ a) (hb : b ≤ Real.pi) (hab : a < b) :
    angular2ChordalSO3 a < angular2ChordalSO3 b := by
  unfold angular2ChordalSO3
  have hp := Real.pi_pos
  have : Real.sin (a / 2) < Real.sin (b / 2) :=
    Real.sin_lt_sin_of_lt_of_le_pi_div_two (by linarith) (by linarith) (by linarith)
  have : 0 < Real.sqrt 2 := Real.sqrt_pos.2 (by norm_num)
  nlinarith

/-- A half turn about the axis (3/5, 0, 4/5), and a measurement with positive precisions. -/
example : ((![3 / 5, 0, 4 / 5] : Fin 3 → ℝ) 0) ^ 2 + (![3 / 5, 0, 4 / 5] : Fin 3 → ℝ) 1 ^ 2 +
    (![3 / 5, 0, 4 / 5] : Fin 3 → ℝ) 2 ^ 2 = 1 ∧ (0 : ℝ) ≤ Real.pi := by
  refine ⟨?_, Real.pi_pos.le⟩
  simp
  norm_num

/-- Poses that do and do not agree with a measurement: hypotheses of `C60_zero_iff` hold and both
sides occur. -/
example : let m : Meas ℚ := Meas.make 0 0 0 1 ⟨2, 2, fun i j => if i = 0 ∧ j = 1 then -1 else
      if i = 1 ∧ j = 0 then 1 else 0⟩ ⟨2, 1, fun i _ => i + 1⟩ 3 5
    measurementError m (DMat.one 2 2) (DMat.zero 2 1) m.R m.t = 0 ∧
    measurementError m (DMat.one 2 2) (DMat.zero 2 1) m.R (DMat.zero 2 1) = 25 := by
  decide +kernel

end Dpgo.Props
