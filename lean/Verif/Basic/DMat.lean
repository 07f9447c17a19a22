import Verif.Basic.Res
import Mathlib.Algebra.BigOperators.Group.Finset.Basic
import Mathlib.Algebra.BigOperators.Ring.Finset
import Mathlib.Algebra.Field.Basic

/-!
# Dynamic matrices

`DMat K` models `Eigen::MatrixXd` (`DPGO::Matrix`, `DPGO_types.h:23-24`): run-time sizes and entries.
Entries outside the sizes carry no meaning; every operation that would read or write them is guarded
by a size test in the model.
-/

namespace Dpgo

open Finset

/-- `Eigen::MatrixXd` (include/DPGO/DPGO_types.h:23-24): sizes known only at run time. -/
structure DMat (K : Type) where
  rows : Nat
  cols : Nat
  v : Nat → Nat → K

namespace DMat
variable {K : Type} [Field K]

/-- Two matrices agree: same sizes, same entries in range. -/
def Same (A B : DMat K) : Prop :=
  A.rows = B.rows ∧ A.cols = B.cols ∧ ∀ i j, i < A.rows → j < A.cols → A.v i j = B.v i j

/-- `Matrix::Zero(m,n)`. -/
def zero (m n : Nat) : DMat K := ⟨m, n, fun _ _ => 0⟩

/-- `Matrix::Identity(m,n)`. -/
def one (m n : Nat) : DMat K := ⟨m, n, fun i j => if i = j then 1 else 0⟩

/-- Matrix product (sizes are tested by the caller). -/
def mul (A B : DMat K) : DMat K :=
  ⟨A.rows, B.cols, fun i j => ∑ k ∈ range A.cols, A.v i k * B.v k j⟩

/-- Transpose. -/
def tr (A : DMat K) : DMat K := ⟨A.cols, A.rows, fun i j => A.v j i⟩

/-- Entrywise sum. -/
def add (A B : DMat K) : DMat K := ⟨A.rows, A.cols, fun i j => A.v i j + B.v i j⟩

/-- Entrywise difference. -/
def sub (A B : DMat K) : DMat K := ⟨A.rows, A.cols, fun i j => A.v i j - B.v i j⟩

/-- Negation. -/
def neg (A : DMat K) : DMat K := ⟨A.rows, A.cols, fun i j => - A.v i j⟩

/-- Scaling. -/
def smul (c : K) (A : DMat K) : DMat K := ⟨A.rows, A.cols, fun i j => c * A.v i j⟩

/-- Read-only block `A.block(i0, j0, m, n)` (range tested by the caller). -/
def block (A : DMat K) (i0 j0 m n : Nat) : DMat K := ⟨m, n, fun i j => A.v (i0 + i) (j0 + j)⟩

/-- `A.block(i0, j0, B.rows, B.cols) = B`. -/
def setBlock (A : DMat K) (i0 j0 : Nat) (B : DMat K) : DMat K :=
  ⟨A.rows, A.cols, fun i j =>
    if i0 ≤ i ∧ i < i0 + B.rows ∧ j0 ≤ j ∧ j < j0 + B.cols then B.v (i - i0) (j - j0) else A.v i j⟩

/-- `A.block(i0, j0, B.rows, B.cols) += B`. -/
def addBlock (A : DMat K) (i0 j0 : Nat) (B : DMat K) : DMat K :=
  ⟨A.rows, A.cols, fun i j =>
    if i0 ≤ i ∧ i < i0 + B.rows ∧ j0 ≤ j ∧ j < j0 + B.cols
    then A.v i j + B.v (i - i0) (j - j0) else A.v i j⟩

/-- The block `(i0, j0)` of size `m × n` lies inside the matrix. -/
def inRange (A : DMat K) (i0 j0 m n : Nat) : Bool :=
  decide (i0 + m ≤ A.rows) && decide (j0 + n ≤ A.cols)

/-- Sum of the entrywise product: `(A.cwiseProduct(B)).sum()`. -/
def dot (A B : DMat K) : K := ∑ i ∈ range A.rows, ∑ j ∈ range A.cols, A.v i j * B.v i j

/-- Squared Frobenius norm. -/
def normSq (A : DMat K) : K := ∑ i ∈ range A.rows, ∑ j ∈ range A.cols, A.v i j * A.v i j

/-- Trace of a square matrix. -/
def trace (A : DMat K) : K := ∑ i ∈ range A.rows, A.v i i

end DMat
end Dpgo
