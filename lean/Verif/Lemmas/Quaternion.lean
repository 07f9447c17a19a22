import Verif.Model.Quaternion
import Verif.Basic.Mat
import Verif.Spec.Projection
import Mathlib.LinearAlgebra.Matrix.Determinant.Basic
import Mathlib.Tactic.LinearCombination
import Mathlib.Tactic.Linarith
import Mathlib.Tactic.FieldSimp
import Mathlib.Tactic.FinCases
import Mathlib.Tactic.IntervalCases

/-!
# Rotation matrices and unit quaternions
-/

namespace Dpgo.Quat

open Matrix Spec

/-- Orthonormality and cofactors, entry by entry. -/
structure RotEqs (m : Nat → Nat → ℝ) : Prop where
  r00 : m 0 0 * m 0 0 + m 0 1 * m 0 1 + m 0 2 * m 0 2 = 1
  r11 : m 1 0 * m 1 0 + m 1 1 * m 1 1 + m 1 2 * m 1 2 = 1
  r22 : m 2 0 * m 2 0 + m 2 1 * m 2 1 + m 2 2 * m 2 2 = 1
  r01 : m 0 0 * m 1 0 + m 0 1 * m 1 1 + m 0 2 * m 1 2 = 0
  r02 : m 0 0 * m 2 0 + m 0 1 * m 2 1 + m 0 2 * m 2 2 = 0
  r12 : m 1 0 * m 2 0 + m 1 1 * m 2 1 + m 1 2 * m 2 2 = 0
  c00 : m 0 0 * m 0 0 + m 1 0 * m 1 0 + m 2 0 * m 2 0 = 1
  c11 : m 0 1 * m 0 1 + m 1 1 * m 1 1 + m 2 1 * m 2 1 = 1
  c22 : m 0 2 * m 0 2 + m 1 2 * m 1 2 + m 2 2 * m 2 2 = 1
  c01 : m 0 0 * m 0 1 + m 1 0 * m 1 1 + m 2 0 * m 2 1 = 0
  c02 : m 0 0 * m 0 2 + m 1 0 * m 1 2 + m 2 0 * m 2 2 = 0
  c12 : m 0 1 * m 0 2 + m 1 1 * m 1 2 + m 2 1 * m 2 2 = 0
  k00 : m 0 0 = m 1 1 * m 2 2 - m 1 2 * m 2 1
  k01 : m 0 1 = m 1 2 * m 2 0 - m 1 0 * m 2 2
  k02 : m 0 2 = m 1 0 * m 2 1 - m 1 1 * m 2 0
  k10 : m 1 0 = m 0 2 * m 2 1 - m 0 1 * m 2 2
  k11 : m 1 1 = m 0 0 * m 2 2 - m 0 2 * m 2 0
  k12 : m 1 2 = m 0 1 * m 2 0 - m 0 0 * m 2 1
  k20 : m 2 0 = m 0 1 * m 1 2 - m 0 2 * m 1 1
  k21 : m 2 1 = m 0 2 * m 1 0 - m 0 0 * m 1 2
  k22 : m 2 2 = m 0 0 * m 1 1 - m 0 1 * m 1 0

theorem rotEqs {A : DMat ℝ} (h : IsRot (A.toMat 3 3)) : RotEqs A.v := by
  obtain ⟨h1, h2⟩ := h
  have h3 : A.toMat 3 3 * (A.toMat 3 3)ᵀ = 1 := mul_eq_one_comm.1 h1
  have hadj : (A.toMat 3 3)ᵀ = (A.toMat 3 3).adjugate := by
    have := congrArg ((A.toMat 3 3)ᵀ * ·) (Matrix.mul_adjugate (A.toMat 3 3))
    simp only [h2, one_smul, mul_one, ← Matrix.mul_assoc, h1, one_mul] at this
    exact this.symm
  rw [Matrix.adjugate_fin_three] at hadj
  have e := fun i j => congrFun (congrFun h1 i) j
  have f := fun i j => congrFun (congrFun h3 i) j
  have g := fun i j => congrFun (congrFun hadj i) j
  simp only [Matrix.mul_apply, Fin.sum_univ_three, Matrix.transpose_apply, DMat.toMat_apply, Matrix.one_apply,
    Fin.isValue, Fin.val_zero, Fin.val_one, Fin.val_two] at e f g
  have e00 := e 0 0; have e11 := e 1 1; have e22 := e 2 2
  have e01 := e 0 1; have e02 := e 0 2; have e12 := e 1 2
  have f00 := f 0 0; have f11 := f 1 1; have f22 := f 2 2
  have f01 := f 0 1; have f02 := f 0 2; have f12 := f 1 2
  have g00 := g 0 0; have g01 := g 0 1; have g02 := g 0 2
  have g10 := g 1 0; have g11 := g 1 1; have g12 := g 1 2
  have g20 := g 2 0; have g21 := g 2 1; have g22 := g 2 2
  simp at e00 e11 e22 e01 e02 e12 f00 f11 f22 f01 f02 f12 g00 g01 g02 g10 g11 g12 g20 g21 g22
  constructor <;> linarith

/-! The products of the coefficients have rank one. -/

theorem RotEqs.x_yy {m : Nat → Nat → ℝ} (h : RotEqs m) :
    (m 0 1 + m 1 0) * (m 0 1 + m 1 0) =
      (1 + m 0 0 - m 1 1 - m 2 2) * (1 - m 0 0 + m 1 1 - m 2 2) := by
  linear_combination (-1) * h.r22 + h.c00 + h.c11 + (2) * h.k22

theorem RotEqs.x_yz {m : Nat → Nat → ℝ} (h : RotEqs m) :
    (m 0 1 + m 1 0) * (m 0 2 + m 2 0) =
      (1 + m 0 0 - m 1 1 - m 2 2) * (m 1 2 + m 2 1) := by
  linear_combination h.r12 + h.c12 + (-1) * h.k12 + (-1) * h.k21

theorem RotEqs.x_yw {m : Nat → Nat → ℝ} (h : RotEqs m) :
    (m 0 1 + m 1 0) * (m 2 1 - m 1 2) =
      (1 + m 0 0 - m 1 1 - m 2 2) * (m 0 2 - m 2 0) := by
  linear_combination h.r02 + (-1) * h.c02 + (-1) * h.k02 + h.k20

theorem RotEqs.x_zz {m : Nat → Nat → ℝ} (h : RotEqs m) :
    (m 0 2 + m 2 0) * (m 0 2 + m 2 0) =
      (1 + m 0 0 - m 1 1 - m 2 2) * (1 - m 0 0 - m 1 1 + m 2 2) := by
  linear_combination h.r00 + h.r22 + (-1) * h.c11 + (2) * h.k11

theorem RotEqs.x_zw {m : Nat → Nat → ℝ} (h : RotEqs m) :
    (m 0 2 + m 2 0) * (m 2 1 - m 1 2) =
      (1 + m 0 0 - m 1 1 - m 2 2) * (m 1 0 - m 0 1) := by
  linear_combination (-1) * h.r01 + h.c01 + h.k01 + (-1) * h.k10

theorem RotEqs.x_ww {m : Nat → Nat → ℝ} (h : RotEqs m) :
    (m 2 1 - m 1 2) * (m 2 1 - m 1 2) =
      (1 + m 0 0 - m 1 1 - m 2 2) * (1 + m 0 0 + m 1 1 + m 2 2) := by
  linear_combination h.r11 + h.r22 + (-1) * h.c00 + (-2) * h.k00

theorem RotEqs.y_xx {m : Nat → Nat → ℝ} (h : RotEqs m) :
    (m 0 1 + m 1 0) * (m 0 1 + m 1 0) =
      (1 - m 0 0 + m 1 1 - m 2 2) * (1 + m 0 0 - m 1 1 - m 2 2) := by
  linear_combination (-1) * h.r22 + h.c00 + h.c11 + (2) * h.k22

theorem RotEqs.y_xz {m : Nat → Nat → ℝ} (h : RotEqs m) :
    (m 0 1 + m 1 0) * (m 1 2 + m 2 1) =
      (1 - m 0 0 + m 1 1 - m 2 2) * (m 0 2 + m 2 0) := by
  linear_combination h.r02 + h.c02 + (-1) * h.k02 + (-1) * h.k20

theorem RotEqs.y_xw {m : Nat → Nat → ℝ} (h : RotEqs m) :
    (m 0 1 + m 1 0) * (m 0 2 - m 2 0) =
      (1 - m 0 0 + m 1 1 - m 2 2) * (m 2 1 - m 1 2) := by
  linear_combination (-1) * h.r12 + h.c12 + h.k12 + (-1) * h.k21

theorem RotEqs.y_zz {m : Nat → Nat → ℝ} (h : RotEqs m) :
    (m 1 2 + m 2 1) * (m 1 2 + m 2 1) =
      (1 - m 0 0 + m 1 1 - m 2 2) * (1 - m 0 0 - m 1 1 + m 2 2) := by
  linear_combination h.r11 + h.r22 + (-1) * h.c00 + (2) * h.k00

theorem RotEqs.y_zw {m : Nat → Nat → ℝ} (h : RotEqs m) :
    (m 1 2 + m 2 1) * (m 0 2 - m 2 0) =
      (1 - m 0 0 + m 1 1 - m 2 2) * (m 1 0 - m 0 1) := by
  linear_combination h.r01 + (-1) * h.c01 + h.k01 + (-1) * h.k10

theorem RotEqs.y_ww {m : Nat → Nat → ℝ} (h : RotEqs m) :
    (m 0 2 - m 2 0) * (m 0 2 - m 2 0) =
      (1 - m 0 0 + m 1 1 - m 2 2) * (1 + m 0 0 + m 1 1 + m 2 2) := by
  linear_combination h.r00 + h.r22 + (-1) * h.c11 + (-2) * h.k11

theorem RotEqs.z_xx {m : Nat → Nat → ℝ} (h : RotEqs m) :
    (m 0 2 + m 2 0) * (m 0 2 + m 2 0) =
      (1 - m 0 0 - m 1 1 + m 2 2) * (1 + m 0 0 - m 1 1 - m 2 2) := by
  linear_combination h.r00 + h.r22 + (-1) * h.c11 + (2) * h.k11

theorem RotEqs.z_xy {m : Nat → Nat → ℝ} (h : RotEqs m) :
    (m 0 2 + m 2 0) * (m 1 2 + m 2 1) =
      (1 - m 0 0 - m 1 1 + m 2 2) * (m 0 1 + m 1 0) := by
  linear_combination h.r01 + h.c01 + (-1) * h.k01 + (-1) * h.k10

theorem RotEqs.z_xw {m : Nat → Nat → ℝ} (h : RotEqs m) :
    (m 0 2 + m 2 0) * (m 1 0 - m 0 1) =
      (1 - m 0 0 - m 1 1 + m 2 2) * (m 2 1 - m 1 2) := by
  linear_combination h.r12 + (-1) * h.c12 + h.k12 + (-1) * h.k21

theorem RotEqs.z_yy {m : Nat → Nat → ℝ} (h : RotEqs m) :
    (m 1 2 + m 2 1) * (m 1 2 + m 2 1) =
      (1 - m 0 0 - m 1 1 + m 2 2) * (1 - m 0 0 + m 1 1 - m 2 2) := by
  linear_combination h.r11 + h.r22 + (-1) * h.c00 + (2) * h.k00

theorem RotEqs.z_yw {m : Nat → Nat → ℝ} (h : RotEqs m) :
    (m 1 2 + m 2 1) * (m 1 0 - m 0 1) =
      (1 - m 0 0 - m 1 1 + m 2 2) * (m 0 2 - m 2 0) := by
  linear_combination (-1) * h.r02 + h.c02 + (-1) * h.k02 + h.k20

theorem RotEqs.z_ww {m : Nat → Nat → ℝ} (h : RotEqs m) :
    (m 1 0 - m 0 1) * (m 1 0 - m 0 1) =
      (1 - m 0 0 - m 1 1 + m 2 2) * (1 + m 0 0 + m 1 1 + m 2 2) := by
  linear_combination (-1) * h.r22 + h.c00 + h.c11 + (-2) * h.k22

theorem RotEqs.w_xx {m : Nat → Nat → ℝ} (h : RotEqs m) :
    (m 2 1 - m 1 2) * (m 2 1 - m 1 2) =
      (1 + m 0 0 + m 1 1 + m 2 2) * (1 + m 0 0 - m 1 1 - m 2 2) := by
  linear_combination h.r11 + h.r22 + (-1) * h.c00 + (-2) * h.k00

theorem RotEqs.w_xy {m : Nat → Nat → ℝ} (h : RotEqs m) :
    (m 2 1 - m 1 2) * (m 0 2 - m 2 0) =
      (1 + m 0 0 + m 1 1 + m 2 2) * (m 0 1 + m 1 0) := by
  linear_combination (-1) * h.r01 + (-1) * h.c01 + (-1) * h.k01 + (-1) * h.k10

theorem RotEqs.w_xz {m : Nat → Nat → ℝ} (h : RotEqs m) :
    (m 2 1 - m 1 2) * (m 1 0 - m 0 1) =
      (1 + m 0 0 + m 1 1 + m 2 2) * (m 0 2 + m 2 0) := by
  linear_combination (-1) * h.r02 + (-1) * h.c02 + (-1) * h.k02 + (-1) * h.k20

theorem RotEqs.w_yy {m : Nat → Nat → ℝ} (h : RotEqs m) :
    (m 0 2 - m 2 0) * (m 0 2 - m 2 0) =
      (1 + m 0 0 + m 1 1 + m 2 2) * (1 - m 0 0 + m 1 1 - m 2 2) := by
  linear_combination h.r00 + h.r22 + (-1) * h.c11 + (-2) * h.k11

theorem RotEqs.w_yz {m : Nat → Nat → ℝ} (h : RotEqs m) :
    (m 0 2 - m 2 0) * (m 1 0 - m 0 1) =
      (1 + m 0 0 + m 1 1 + m 2 2) * (m 1 2 + m 2 1) := by
  linear_combination (-1) * h.r12 + (-1) * h.c12 + (-1) * h.k12 + (-1) * h.k21

theorem RotEqs.w_zz {m : Nat → Nat → ℝ} (h : RotEqs m) :
    (m 1 0 - m 0 1) * (m 1 0 - m 0 1) =
      (1 + m 0 0 + m 1 1 + m 2 2) * (1 - m 0 0 - m 1 1 + m 2 2) := by
  linear_combination (-1) * h.r22 + h.c00 + h.c11 + (-2) * h.k22


/-- The products of the coefficients of a quaternion are those that belong to a matrix. -/
structure Products (m : Nat → Nat → ℝ) (q : Quat) : Prop where
  xx : 4 * (q.x * q.x) = 1 + m 0 0 - m 1 1 - m 2 2
  yy : 4 * (q.y * q.y) = 1 - m 0 0 + m 1 1 - m 2 2
  zz : 4 * (q.z * q.z) = 1 - m 0 0 - m 1 1 + m 2 2
  ww : 4 * (q.w * q.w) = 1 + m 0 0 + m 1 1 + m 2 2
  xy : 4 * (q.x * q.y) = m 0 1 + m 1 0
  xz : 4 * (q.x * q.z) = m 0 2 + m 2 0
  yz : 4 * (q.y * q.z) = m 1 2 + m 2 1
  wx : 4 * (q.w * q.x) = m 2 1 - m 1 2
  wy : 4 * (q.w * q.y) = m 0 2 - m 2 0
  wz : 4 * (q.w * q.z) = m 1 0 - m 0 1

theorem Products.normSq {m : Nat → Nat → ℝ} {q : Quat} (h : Products m q) : q.normSq = 1 := by
  have := h.xx; have := h.yy; have := h.zz; have := h.ww
  unfold Quat.normSq
  linarith

theorem Products.toRotation {m : Nat → Nat → ℝ} {q : Quat} (h : Products m q) {i j : Nat} (hi : i < 3)
    (hj : j < 3) : q.toRotation.v i j = m i j := by
  obtain ⟨xx, yy, zz, ww, xy, xz, yz, wx, wy, wz⟩ := h
  interval_cases i <;> interval_cases j <;> simp only [Quat.toRotation] <;> linarith

theorem piv2 {s S : ℝ} (hs : 0 < s) (hS : s * s = S) {A B C : ℝ} (h : A * B = S * C) :
    4 * ((A * (0.5 / s)) * (B * (0.5 / s))) = C := by
  have : S ≠ 0 := by rw [← hS]; positivity
  have hs' := hs.ne'
  have : 4 * ((A * (0.5 / s)) * (B * (0.5 / s))) = A * B / (s * s) := by field_simp; ring
  rw [this, h, hS]
  field_simp

theorem piv1 {s : ℝ} (hs : 0 < s) (B : ℝ) : 4 * ((0.5 * s) * (B * (0.5 / s))) = B := by
  have hs' := hs.ne'
  field_simp
  ring

theorem piv1' {s : ℝ} (hs : 0 < s) (B : ℝ) : 4 * ((B * (0.5 / s)) * (0.5 * s)) = B := by
  rw [mul_comm (B * _), piv1 hs]

theorem piv0 {s S : ℝ} (hS : s * s = S) : 4 * ((0.5 * s) * (0.5 * s)) = S := by
  rw [← hS]; ring

theorem ofTrace_products {m : Nat → Nat → ℝ} (h : RotEqs m) (ht : 0 < m 0 0 + m 1 1 + m 2 2) :
    Products m (ofTrace m) := by
  have hs : 0 < √(m 0 0 + m 1 1 + m 2 2 + 1) := Real.sqrt_pos.2 (by linarith)
  have hq := Real.mul_self_sqrt (show 0 ≤ m 0 0 + m 1 1 + m 2 2 + 1 by linarith)
  have hq' : √(m 0 0 + m 1 1 + m 2 2 + 1) * √(m 0 0 + m 1 1 + m 2 2 + 1) = 1 + m 0 0 + m 1 1 + m 2 2 := by
    rw [hq]; ring
  exact ⟨piv2 hs hq' h.w_xx, piv2 hs hq' h.w_yy, piv2 hs hq' h.w_zz, piv0 hq', piv2 hs hq' h.w_xy,
    piv2 hs hq' h.w_xz, piv2 hs hq' h.w_yz, piv1 hs _, piv1 hs _, piv1 hs _⟩

theorem ofAxis0_products {m : Nat → Nat → ℝ} (h : RotEqs m) (ht : 0 < m 0 0 - m 1 1 - m 2 2 + 1) :
    Products m (ofAxis m 0) := by
  have hs := Real.sqrt_pos.2 ht
  have hq := Real.mul_self_sqrt ht.le
  have hq' : √(m 0 0 - m 1 1 - m 2 2 + 1) * √(m 0 0 - m 1 1 - m 2 2 + 1) = 1 + m 0 0 - m 1 1 - m 2 2 := by
    rw [hq]; ring
  refine ⟨piv0 hq', ?_, ?_, piv2 hs hq' h.x_ww, ?_, ?_, ?_, piv1' hs _, ?_, ?_⟩
  · exact piv2 hs hq' (by rw [add_comm (m 1 0), h.x_yy])
  · exact piv2 hs hq' (by rw [add_comm (m 2 0), h.x_zz])
  · exact (piv1 hs _).trans (add_comm _ _)
  · exact (piv1 hs _).trans (add_comm _ _)
  · exact piv2 hs hq' (by rw [add_comm (m 1 0), add_comm (m 2 0), h.x_yz])
  · exact piv2 hs hq' (by rw [add_comm (m 1 0), mul_comm, h.x_yw])
  · exact piv2 hs hq' (by rw [add_comm (m 2 0), mul_comm, h.x_zw])

theorem ofAxis1_products {m : Nat → Nat → ℝ} (h : RotEqs m) (ht : 0 < m 1 1 - m 2 2 - m 0 0 + 1) :
    Products m (ofAxis m 1) := by
  have hs := Real.sqrt_pos.2 ht
  have hq := Real.mul_self_sqrt ht.le
  have hq' : √(m 1 1 - m 2 2 - m 0 0 + 1) * √(m 1 1 - m 2 2 - m 0 0 + 1) = 1 - m 0 0 + m 1 1 - m 2 2 := by
    rw [hq]; ring
  refine ⟨?_, piv0 hq', ?_, piv2 hs hq' h.y_ww, ?_, ?_, ?_, ?_, piv1' hs _, ?_⟩
  · exact piv2 hs hq' h.y_xx
  · exact piv2 hs hq' (by rw [add_comm (m 2 1), h.y_zz])
  · exact piv1' hs _
  · exact piv2 hs hq' (by rw [add_comm (m 2 1), h.y_xz])
  · exact (piv1 hs _).trans (add_comm _ _)
  · exact piv2 hs hq' (by rw [mul_comm, h.y_xw])
  · exact piv2 hs hq' (by rw [add_comm (m 2 1), mul_comm, h.y_zw])

theorem ofAxis2_products {m : Nat → Nat → ℝ} (h : RotEqs m) (ht : 0 < m 2 2 - m 0 0 - m 1 1 + 1) :
    Products m (ofAxis m 2) := by
  have hs := Real.sqrt_pos.2 ht
  have hq := Real.mul_self_sqrt ht.le
  have hq' : √(m 2 2 - m 0 0 - m 1 1 + 1) * √(m 2 2 - m 0 0 - m 1 1 + 1) = 1 - m 0 0 - m 1 1 + m 2 2 := by
    rw [hq]; ring
  refine ⟨?_, ?_, piv0 hq', piv2 hs hq' h.z_ww, ?_, ?_, ?_, ?_, ?_, piv1' hs _⟩
  · exact piv2 hs hq' h.z_xx
  · exact piv2 hs hq' h.z_yy
  · exact piv2 hs hq' h.z_xy
  · exact piv1' hs _
  · exact piv1' hs _
  · exact piv2 hs hq' (by rw [mul_comm, h.z_xw])
  · exact piv2 hs hq' (by rw [mul_comm, h.z_yw])

theorem ofMatrix_products {m : Nat → Nat → ℝ} (h : RotEqs m) : Products m (ofMatrix m) := by
  unfold ofMatrix
  by_cases ht : 0 < m 0 0 + m 1 1 + m 2 2
  · rw [if_pos ht]; exact ofTrace_products h ht
  · rw [if_neg ht]
    simp only
    by_cases c : m 0 0 < m 1 1
    · rw [if_pos c]
      by_cases e : m 1 1 < m 2 2
      · rw [if_pos e]; exact ofAxis2_products h (by linarith)
      · rw [if_neg e]; exact ofAxis1_products h (by linarith)
    · rw [if_neg c]
      by_cases e : m 0 0 < m 2 2
      · rw [if_pos e]; exact ofAxis2_products h (by linarith)
      · rw [if_neg e]; exact ofAxis0_products h (by linarith)

/-- The quaternion of a rotation matrix is a unit quaternion and gives the matrix back. -/
theorem ofMatrix_spec {A : DMat ℝ} (h : IsRot (A.toMat 3 3)) :
    (ofMatrix A.v).normSq = 1 ∧ ∀ i < 3, ∀ j < 3, (ofMatrix A.v).toRotation.v i j = A.v i j :=
  ⟨(ofMatrix_products (rotEqs h)).normSq, fun _ hi _ hj => (ofMatrix_products (rotEqs h)).toRotation hi hj⟩

theorem normalize_unit {q : Quat} (h : q.normSq = 1) : q.normalize = q := by
  unfold normalize
  rw [h, if_pos one_pos]
  simp

/-- A unit quaternion gives a rotation. -/
theorem toRotation_rot {q : Quat} (h : q.normSq = 1) : IsRot (q.toRotation.toMat 3 3) := by
  unfold normSq at h
  have hh : q.w * q.w = 1 - q.x * q.x - q.y * q.y - q.z * q.z := by linarith
  constructor
  · ext i j
    fin_cases i <;> fin_cases j <;>
      simp [Matrix.mul_apply, Fin.sum_univ_three, toRotation] <;> ring_nf <;>
      (try simp only [show q.w ^ 2 = 1 - q.x * q.x - q.y * q.y - q.z * q.z by rw [← hh]; ring]) <;> ring
  · rw [Matrix.det_fin_three]
    simp [toRotation]
    ring_nf
    simp only [show q.w ^ 2 = 1 - q.x * q.x - q.y * q.y - q.z * q.z by rw [← hh]; ring]
    ring

end Dpgo.Quat
