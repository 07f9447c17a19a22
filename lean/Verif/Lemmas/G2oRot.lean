import Verif.Lemmas.G2oRun
import Verif.Lemmas.Quaternion
import Mathlib.Tactic.LinearCombination

/-!
# The matrix read for a quaternion
-/

namespace Dpgo.G2o

open Matrix Spec

/-- The matrix of a quaternion `(x, y, z, w)`, unit or not. -/
theorem quat_trace (x y z w : ℝ) :
    ((quatMatrix x y z w + (1 - (x ^ 2 + y ^ 2 + z ^ 2 + w ^ 2)) • (1 : Matrix (Fin 3) (Fin 3) ℝ))ᵀ *
        (quatMatrix x y z w + (1 - (x ^ 2 + y ^ 2 + z ^ 2 + w ^ 2)) • (1 : Matrix (Fin 3) (Fin 3) ℝ))).trace =
      3 + 8 * (x ^ 2 + y ^ 2 + z ^ 2) * (x ^ 2 + y ^ 2 + z ^ 2 + w ^ 2 - 1) := by
  simp only [quatMatrix, Matrix.trace, Matrix.diag, Matrix.mul_apply, Matrix.transpose_apply, Matrix.add_apply,
    Matrix.smul_apply, Fin.sum_univ_three, Matrix.of_apply, Matrix.cons_val', Matrix.cons_val_zero,
    Matrix.cons_val_one, Matrix.cons_val, Matrix.one_apply, smul_eq_mul]
  norm_num [Fin.ext_iff]
  ring

theorem quat_isRot {x y z w : ℝ} (h : x ^ 2 + y ^ 2 + z ^ 2 + w ^ 2 = 1) : IsRot (quatMatrix x y z w) := by
  constructor
  · ext i j
    fin_cases i <;> fin_cases j <;>
      simp [quatMatrix, Matrix.mul_apply, Fin.sum_univ_three] <;>
      first
        | linear_combination (x ^ 2 + y ^ 2 + z ^ 2 + w ^ 2 + 1) * h
        | ring
  · rw [Matrix.det_fin_three]
    simp [quatMatrix]
    linear_combination ((x ^ 2 + y ^ 2 + z ^ 2 + w ^ 2) ^ 2 + (x ^ 2 + y ^ 2 + z ^ 2 + w ^ 2) + 1) * h

theorem planar_isRot (a : ℝ) : IsRot !![Real.cos a, -Real.sin a; Real.sin a, Real.cos a] := by
  have h := Real.cos_sq_add_sin_sq a
  constructor
  · ext i j
    fin_cases i <;> fin_cases j <;> simp [Matrix.mul_apply, Fin.sum_univ_two] <;>
      first
        | linear_combination h
        | ring
  · rw [Matrix.det_fin_two]
    simp
    linear_combination h

end Dpgo.G2o
