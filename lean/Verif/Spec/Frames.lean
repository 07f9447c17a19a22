import Verif.Spec.Projection
import Verif.Spec.Poses

/-! # Trajectories and poses expressed in a frame -/

namespace Dpgo.Spec

open Matrix

/-- A matrix read as an array of `n` poses. -/
def asPoses (d n : Nat) (M : DMat ℝ) : PArr ℝ := ⟨d, d, n, M⟩

/-- `P` is a rotation, and none is nearer to `M`. -/
def NearestRot {d : Nat} (M P : Matrix (Fin d) (Fin d) ℝ) : Prop :=
  IsRot P ∧ ∀ Q, IsRot Q → frob2 (P - M) ≤ frob2 (Q - M)

/-- The poses of `X` (in dimension `r`) are the rigid poses of `T` embedded by a matrix with orthonormal
columns, moved by a translation. -/
structure Embeds (r d n : Nat) (Y : Matrix (Fin r) (Fin d) ℝ) (s : Fin r → ℝ) (T X : PArr ℝ) : Prop where
  ortho : OrthoCols Y
  rigid : ∀ i < n, IsRot (rotM d d T i)
  rot : ∀ i < n, rotM r d X i = Y * rotM d d T i
  tra : ∀ i < n, traV r d X i = Y *ᵥ traV d d T i + s

/-- `X'` is `X` moved by an orthogonal transformation and a translation. -/
def Moved (r d n : Nat) (O : Matrix (Fin r) (Fin r) ℝ) (s : Fin r → ℝ) (X X' : PArr ℝ) : Prop :=
  ∀ i < n, rotM r d X' i = O * rotM r d X i ∧ traV r d X' i = O *ᵥ traV r d X i + s

/-- Pose `i` of `X` seen from the pose `(Ra, ta)`: the rotation block. -/
def seenRot {r d : Nat} (Ra : Matrix (Fin r) (Fin d) ℝ) (X : PArr ℝ) (i : Nat) :
    Matrix (Fin d) (Fin d) ℝ := Raᵀ * rotM r d X i

/-- Pose `i` of `X` seen from the pose `(Ra, ta)`: the translation. -/
def seenTra {r d : Nat} (Ra : Matrix (Fin r) (Fin d) ℝ) (ta : Fin r → ℝ) (X : PArr ℝ) (i : Nat) :
    Fin d → ℝ := Raᵀ *ᵥ (traV r d X i - ta)

end Dpgo.Spec
