import Verif.Model.DataMatrices
import Verif.Basic.Mat
import Mathlib.Algebra.Order.Field.Basic
import Mathlib.Algebra.Order.BigOperators.Ring.Finset

/-! # Squared norms are non-negative -/

namespace Dpgo

variable {K : Type} [Field K] [LinearOrder K] [IsStrictOrderedRing K]

theorem normSq_nonneg (A : DMat K) : 0 ≤ A.normSq :=
  Finset.sum_nonneg fun _ _ => Finset.sum_nonneg fun _ _ => mul_self_nonneg _

theorem normSq_eq_zero {A : DMat K} {m n : Nat} (h : A.rows = m ∧ A.cols = n) :
    A.normSq = 0 ↔ A.toMat m n = 0 := by
  obtain ⟨rfl, rfl⟩ := h
  unfold DMat.normSq
  rw [Finset.sum_eq_zero_iff_of_nonneg fun i _ => Finset.sum_nonneg fun j _ => mul_self_nonneg _]
  constructor
  · intro h
    ext i j
    have h1 := h i (Finset.mem_range.2 i.2)
    rw [Finset.sum_eq_zero_iff_of_nonneg fun j _ => mul_self_nonneg _] at h1
    exact mul_self_eq_zero.1 (h1 j (Finset.mem_range.2 j.2))
  · intro h i hi
    refine Finset.sum_eq_zero fun j hj => ?_
    have := congrFun (congrFun h ⟨i, Finset.mem_range.1 hi⟩) ⟨j, Finset.mem_range.1 hj⟩
    have e : A.v i j = 0 := this
    rw [e, zero_mul]

theorem measurementError_nonneg {m : Meas K} (hk : 0 ≤ m.kappa) (ht : 0 ≤ m.tau)
    (R1 t1 R2 t2 : DMat K) : 0 ≤ measurementError m R1 t1 R2 t2 :=
  add_nonneg (mul_nonneg hk (normSq_nonneg _)) (mul_nonneg ht (normSq_nonneg _))

end Dpgo
