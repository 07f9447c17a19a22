import Verif.Model.Averaging
import Verif.Spec.Projection

/-! # Specification of averaging -/

namespace Dpgo.Spec

open Matrix

/-- All samples are `m × n` matrices. -/
def Sized (m n : Nat) (As : List (DMat ℝ)) : Prop := ∀ A ∈ As, A.rows = m ∧ A.cols = n

/-- Weight of sample `i` among `k`: the given one, or the default when the weight vector does not have
`k` entries. -/
def weightAt (dflt : ℝ) (k : Nat) (w : List ℝ) (i : Nat) : ℝ :=
  if w.length = k then w.getD i 0 else dflt

/-- Sum of the weights. -/
def totalWeight (dflt : ℝ) (k : Nat) (w : List ℝ) : ℝ := ∑ i : Fin k, weightAt dflt k w i

/-- Weighted sum of squared distances from `X` to the samples. -/
def weightedCost (m n : Nat) (dflt : ℝ) (w : List ℝ) (As : List (DMat ℝ))
    (X : Matrix (Fin m) (Fin n) ℝ) : ℝ :=
  ∑ i : Fin As.length, weightAt dflt As.length w i * frob2 (X - (As[i]).toMat m n)

end Dpgo.Spec
