import Verif.Model.Poses
import Mathlib.LinearAlgebra.Matrix.Notation

/-! # Specification of pose arrays: rotations and translations as Mathlib matrices and vectors -/

namespace Dpgo.Spec

open Matrix

variable {K : Type} [Field K]

omit [Field K] in
/-- The array has rank `r`, dimension `d`, `n` poses and data of the matching size. -/
def ArrOk (r d n : Nat) (P : PArr K) : Prop :=
  P.r = r ∧ P.d = d ∧ P.n = n ∧ P.X.rows = r ∧ P.X.cols = (d + 1) * n

omit [Field K] in
/-- Rotation block of pose `i`. -/
def rotM (r d : Nat) (P : PArr K) (i : Nat) : Matrix (Fin r) (Fin d) K :=
  Matrix.of fun a c => P.X.v a (i * (d + 1) + c)

omit [Field K] in
/-- Translation of pose `i`. -/
def traV (r d : Nat) (P : PArr K) (i : Nat) : Fin r → K := fun a => P.X.v a (i * (d + 1) + d)

omit [Field K] in
/-- A column vector. -/
def colV (r : Nat) (b : DMat K) : Fin r → K := fun a => b.v a 0

/-- Homogeneous `(d+1) × (d+1)` matrix of a rotation and a translation. -/
def homog {d : Nat} (R : Matrix (Fin d) (Fin d) K) (t : Fin d → K) :
    Matrix (Fin (d + 1)) (Fin (d + 1)) K :=
  Matrix.of fun i j =>
    if h : (i : Nat) < d then (if h' : (j : Nat) < d then R ⟨i, h⟩ ⟨j, h'⟩ else t ⟨i, h⟩)
    else if (j : Nat) < d then 0 else 1

/-- Two single poses have the same value. -/
def SamePose (d : Nat) (A B : PArr K) : Prop :=
  rotM d d A 0 = rotM d d B 0 ∧ traV d d A 0 = traV d d B 0

/-- Rigid: rotation part orthogonal with determinant 1. -/
def Rigid (d : Nat) (P : PArr K) : Prop :=
  (rotM d d P 0)ᵀ * rotM d d P 0 = 1 ∧ (rotM d d P 0).det = 1

/-- Euclidean distance of two vectors. -/
noncomputable def dist (r : Nat) (a b : Fin r → ℝ) : ℝ := Real.sqrt (∑ i, (a i - b i) ^ 2)

end Dpgo.Spec
