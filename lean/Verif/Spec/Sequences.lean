import Verif.Spec.Accel
import Verif.Spec.Projection
import Verif.Spec.Poses

/-! # The sequences of the accelerated method -/

namespace Dpgo.Spec

open Matrix

/-- The array `P` is the point of the manifold nearest to the poses with rotation blocks `R` and
translations `t`: its rotation blocks have orthonormal columns and none is nearer, its translations are
`t`. -/
structure NearestPoses (r d n : Nat) (R : Nat → Matrix (Fin r) (Fin d) ℝ) (t : Nat → Fin r → ℝ)
    (P : PArr ℝ) : Prop where
  shape : ArrOk r d n P
  tra : ∀ i < n, traV r d P i = t i
  ortho : ∀ i < n, OrthoCols (rotM r d P i)
  nearest : ∀ i < n, ∀ Q : Matrix (Fin r) (Fin d) ℝ, OrthoCols Q →
    frob2 (rotM r d P i - R i) ≤ frob2 (Q - R i)

/-- Two arrays of `n` poses that agree. -/
def SamePoses (r d n : Nat) (P Q : PArr ℝ) : Prop :=
  ∀ i < n, rotM r d P i = rotM r d Q i ∧ traV r d P i = traV r d Q i

/-- One step of the accelerated method from `X`, `V` with scalars `α`, `γ` (already updated): `Y'` is the
retraction of `(1 - α) X + α V` and `V'` the retraction of `V + γ (X' - Y')`. -/
structure AcceleratedStep (r d n : Nat) (α γ : ℝ) (X V X' Y' V' : PArr ℝ) : Prop where
  blend : NearestPoses r d n (fun i => (1 - α) • rotM r d X i + α • rotM r d V i)
    (fun i => (1 - α) • traV r d X i + α • traV r d V i) Y'
  momentum : NearestPoses r d n (fun i => rotM r d V i + γ • (rotM r d X' i - rotM r d Y' i))
    (fun i => traV r d V i + γ • (traV r d X' i - traV r d Y' i)) V'

end Dpgo.Spec
