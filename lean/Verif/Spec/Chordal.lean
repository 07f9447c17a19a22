import Verif.Spec.Init

/-! # Specification of the chordal initialisation -/

namespace Dpgo.Spec

open Matrix

/-- Rotations of a column-stacked vector: entry `(r, k)` of rotation `i` is at `d² i + d k + r`. -/
def unvecR (d : Nat) (x : Nat → ℝ) (i : Nat) : Matrix (Fin d) (Fin d) ℝ :=
  Matrix.of fun r k => x (i * (d * d) + (k * d + r))

/-- Translations of a stacked vector. -/
def unvecT (d : Nat) (y : Nat → ℝ) (i : Nat) : Fin d → ℝ := fun r => y (i * d + r)

/-- Squared Euclidean norm. -/
def norm2 {d : Nat} (v : Fin d → ℝ) : ℝ := ∑ a, v a ^ 2

/-- Sum of the translation residuals `τ ‖t_j − t_i − R_i t‖²`. -/
def transCost (d : Nat) (ms : List (Meas ℝ)) (R : Nat → Matrix (Fin d) (Fin d) ℝ)
    (t : Nat → Fin d → ℝ) : ℝ :=
  (ms.map fun m => m.tau * norm2 (t m.p2 - t m.p1 - R m.p1 *ᵥ colV d m.t)).sum

/-- Sum of the rotation residuals `κ ‖R_j − R_i R‖²`. -/
def rotCost (d : Nat) (ms : List (Meas ℝ)) (R : Nat → Matrix (Fin d) (Fin d) ℝ) : ℝ :=
  (ms.map fun m => m.kappa * frob2 (R m.p2 - R m.p1 * m.R.toMat d d)).sum

/-- The linear solver returns a least-squares solution. -/
def LawfulLsq (qr : LsqOracle) : Prop :=
  ∀ (m k : Nat) (A : Matrix (Fin m) (Fin k) ℝ) (b : Fin m → ℝ) (x : Fin k → ℝ),
    norm2 (A *ᵥ qr m k A b - b) ≤ norm2 (A *ᵥ x - b)

/-- Measurements from which the chordal matrices can be built: matching sizes, non-negative precisions,
indices below the largest representable one. -/
def ChordalWF (d : Nat) (ms : List (Meas ℝ)) : Prop :=
  ms ≠ [] ∧ ∀ m ∈ ms, MeasDim d m ∧ 0 ≤ m.tau ∧ 0 ≤ m.kappa ∧ m.p1 + 1 < 2 ^ 64 ∧ m.p2 + 1 < 2 ^ 64

/-- `n` is one more than the largest index of the measurements. -/
def NumPoses {K : Type} (ms : List (Meas K)) (n : Nat) : Prop :=
  (∀ m ∈ ms, m.p1 < n ∧ m.p2 < n) ∧ ∃ m ∈ ms, m.p1 + 1 = n ∨ m.p2 + 1 = n

/-- Pose `j` is linked to pose `0` by measurements, in either direction. -/
inductive Linked {K : Type} (ms : List (Meas K)) : Nat → Prop
  | zero : Linked ms 0
  | fwd {m : Meas K} : m ∈ ms → Linked ms m.p1 → Linked ms m.p2
  | bwd {m : Meas K} : m ∈ ms → Linked ms m.p2 → Linked ms m.p1

end Dpgo.Spec
