import Verif.Basic.DMat
import Mathlib.LinearAlgebra.Matrix.NonsingularInverse
import Mathlib.LinearAlgebra.Matrix.Determinant.Basic

/-!
# Dynamic matrices as Mathlib matrices

`toMat m n A` reads the leading `m × n` entries of a dynamic matrix; `ofMat` goes back.  Determinant
and inverse of a dynamic matrix are those of its Mathlib counterpart.
-/

namespace Dpgo.DMat

open Finset Matrix

variable {K : Type} [Field K]

omit [Field K] in
/-- Leading `m × n` entries. -/
def toMat (m n : Nat) (A : DMat K) : Matrix (Fin m) (Fin n) K := Matrix.of fun i j => A.v i j

/-- A Mathlib matrix as a dynamic matrix. -/
def ofMat {m n : Nat} (M : Matrix (Fin m) (Fin n) K) : DMat K :=
  ⟨m, n, fun i j => if h : i < m ∧ j < n then M ⟨i, h.1⟩ ⟨j, h.2⟩ else 0⟩

omit [Field K] in
@[simp] theorem toMat_apply (m n : Nat) (A : DMat K) (i : Fin m) (j : Fin n) :
    A.toMat m n i j = A.v i j := rfl

@[simp] theorem toMat_ofMat {m n : Nat} (M : Matrix (Fin m) (Fin n) K) :
    (ofMat M).toMat m n = M := by
  ext i j
  simp [ofMat]

theorem toMat_mul {A B : DMat K} {m k n : Nat} (h : A.cols = k) :
    (A.mul B).toMat m n = A.toMat m k * B.toMat k n := by
  subst h
  ext i j
  simp [mul, Matrix.mul_apply, Finset.sum_range]

omit [Field K] in
theorem toMat_tr (A : DMat K) (m n : Nat) : A.tr.toMat m n = (A.toMat n m)ᵀ := rfl

theorem toMat_add (A B : DMat K) (m n : Nat) : (A.add B).toMat m n = A.toMat m n + B.toMat m n := rfl

theorem toMat_sub (A B : DMat K) (m n : Nat) : (A.sub B).toMat m n = A.toMat m n - B.toMat m n := rfl

theorem toMat_neg (A : DMat K) (m n : Nat) : A.neg.toMat m n = - A.toMat m n := rfl

theorem toMat_smul (c : K) (A : DMat K) (m n : Nat) : (A.smul c).toMat m n = c • A.toMat m n := rfl

theorem toMat_one (m : Nat) : (one m m : DMat K).toMat m m = 1 := by
  ext i j
  simp [one, Matrix.one_apply, Fin.ext_iff]

theorem toMat_zero (a b m n : Nat) : (zero a b : DMat K).toMat m n = 0 := rfl

omit [Field K] in
theorem toMat_inj {A B : DMat K} {m n : Nat} (h : A.toMat m n = B.toMat m n) {i j : Nat} (hi : i < m)
    (hj : j < n) : A.v i j = B.v i j := congrFun (congrFun h ⟨i, hi⟩) ⟨j, hj⟩

omit [Field K] in
theorem same_iff {A B : DMat K} {m n : Nat} (hA : A.rows = m ∧ A.cols = n) :
    Same A B ↔ B.rows = m ∧ B.cols = n ∧ A.toMat m n = B.toMat m n := by
  obtain ⟨rfl, rfl⟩ := hA
  constructor
  · rintro ⟨h1, h2, h3⟩
    refine ⟨h1.symm, h2.symm, ?_⟩
    ext i j
    exact h3 i j i.2 j.2
  · rintro ⟨h1, h2, h3⟩
    exact ⟨h1.symm, h2.symm, fun i j hi hj => toMat_inj h3 hi hj⟩

theorem normSq_eq {A : DMat K} {m n : Nat} (hA : A.rows = m ∧ A.cols = n) :
    A.normSq = ((A.toMat m n)ᵀ * A.toMat m n).trace := by
  obtain ⟨rfl, rfl⟩ := hA
  unfold normSq Matrix.trace
  simp only [Matrix.diag_apply, Matrix.mul_apply, Matrix.transpose_apply, toMat_apply,
    Finset.sum_range]
  rw [Finset.sum_comm]

theorem trace_eq {A : DMat K} {m : Nat} (hA : A.rows = m) : A.trace = (A.toMat m m).trace := by
  subst hA
  unfold trace Matrix.trace
  simp only [Matrix.diag_apply, toMat_apply, Finset.sum_range]

/-- `A.determinant()` of a square matrix. -/
def det (A : DMat K) : K := (A.toMat A.rows A.rows).det

open Classical in
/-- `A.inverse()` of a square matrix (LU based in Eigen): for a singular matrix the result contains
inf/NaN. -/
noncomputable def inverse (A : DMat K) : Res (DMat K) :=
  if A.det = 0 then Res.nonfinite else Res.ok (ofMat (A.toMat A.rows A.rows)⁻¹)

end Dpgo.DMat
