import Mathlib.Data.Matrix.Mul
import Mathlib.Analysis.SpecialFunctions.Pow.Real

/-! # Sizes of matrices and vectors -/

namespace Dpgo.Spec

/-- Root of the sum of the squared entries of a matrix. -/
noncomputable def fro {m n : Type} [Fintype m] [Fintype n] (A : Matrix m n ℝ) : ℝ := √(∑ a, ∑ b, A a b ^ 2)

/-- Euclidean length. -/
noncomputable def len {d : Nat} (v : Fin d → ℝ) : ℝ := √(∑ a, v a ^ 2)

end Dpgo.Spec
