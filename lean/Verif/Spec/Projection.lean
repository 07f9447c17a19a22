import Verif.Model.Projection
import Mathlib.LinearAlgebra.Matrix.Trace
import Mathlib.Data.Fintype.BigOperators

/-! # Specification of the projections -/

namespace Dpgo.Spec

open Matrix

/-- Squared Frobenius norm. -/
def frob2 {m n : Nat} (A : Matrix (Fin m) (Fin n) ℝ) : ℝ := ∑ i, ∑ j, A i j ^ 2

/-- Orthonormal columns: a point of the Stiefel manifold. -/
def OrthoCols {m n : Nat} (Q : Matrix (Fin m) (Fin n) ℝ) : Prop := Qᵀ * Q = 1

/-- A rotation. -/
def IsRot {n : Nat} (Q : Matrix (Fin n) (Fin n) ℝ) : Prop := Qᵀ * Q = 1 ∧ Q.det = 1

/-- Singular value decomposition: `M = U diag(s) Vᵀ`, singular values non-negative and sorted. -/
structure IsSvd {r d : Nat} (M U : Matrix (Fin r) (Fin d) ℝ) (s : Fin d → ℝ)
    (V : Matrix (Fin d) (Fin d) ℝ) : Prop where
  orthoU : OrthoCols U
  orthoV : OrthoCols V
  nonneg : ∀ i, 0 ≤ s i
  sorted : ∀ i j, i ≤ j → s j ≤ s i
  factor : M = U * Matrix.diagonal s * Vᵀ

/-- The oracle returns an SVD of this matrix. -/
def SvdAt (svd : SvdOracle) {r d : Nat} (M : Matrix (Fin r) (Fin d) ℝ) : Prop :=
  IsSvd M (svd r d M).U (svd r d M).s (svd r d M).V

/-- The oracle returns an SVD of every tall matrix. -/
def LawfulSvd (svd : SvdOracle) : Prop :=
  ∀ (r d : Nat) (M : Matrix (Fin r) (Fin d) ℝ), d ≤ r → SvdAt svd M

/-- The events of the parallel loop over `n` blocks. -/
def isEvent (r d n : Nat) : ProjEvent → Prop
  | .load i => i < n
  | .store i a c => i < n ∧ a < r ∧ c < d

/-- An execution of the parallel loop: every event of every iteration exactly once, in any order in
which a store of iteration `i` comes after its load. -/
def IsExecution (r d n : Nat) (ev : List ProjEvent) : Prop :=
  ev.Nodup ∧ (∀ e, e ∈ ev ↔ isEvent r d n e) ∧
  ∀ pre i a c post, ev = pre ++ .store i a c :: post → .load i ∈ pre

end Dpgo.Spec
