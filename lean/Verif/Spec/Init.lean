import Verif.Model.Init
import Verif.Spec.Poses
import Verif.Spec.Projection

/-! # Specification of the single-robot initialisation -/

namespace Dpgo.Spec

open Matrix

section
variable {K : Type} [Field K]

/-- Measurement `m` is satisfied exactly by poses `i` and `j` of `T`. -/
def Satisfied (d : Nat) (T : PArr K) (i j : Nat) (m : Meas K) : Prop :=
  rotM d d T j = rotM d d T i * m.R.toMat d d ∧
  traV d d T j = traV d d T i + rotM d d T i *ᵥ colV d m.t

omit [Field K] in
/-- The data of the measurement has dimension `d`. -/
def MeasDim (d : Nat) (m : Meas K) : Prop :=
  m.R.rows = d ∧ m.R.cols = d ∧ m.t.rows = d ∧ m.t.cols = 1

omit [Field K] in
/-- Measurement number `i` goes from pose `i` to pose `i + 1`. -/
def Consecutive (ms : List (Meas K)) : Prop :=
  ∀ i m, ms[i]? = some m → m.p1 = i ∧ m.p2 = i + 1

end

end Dpgo.Spec
