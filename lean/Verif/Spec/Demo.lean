import Verif.Spec.Solver
import Verif.Spec.Partition
import Verif.Spec.Chordal
import Verif.Spec.Assembly

/-! # The datasets the demo is meant for -/

namespace Dpgo.Spec

/-- A pose graph of one robot with poses `0 … n-1`: every edge has the same dimension, joins two different
poses, has non-negative precisions and weight one, and the edges between consecutive poses, in the order of
the file and repeated ones counted once, are `0 → 1`, `1 → 2`, …, `n-2 → n-1`. -/
structure Dataset (d n : Nat) (D : List (Meas ℝ)) : Prop extends OneRobot 0 d n D where
  precise : Precise D
  unit : ∀ m ∈ D, m.weight = 1
  chain : ((firstWins D).filter fun m => m.p1 + 1 == m.p2).map (fun m => m.p1) = List.range (n - 1)

/-- `Gr` is the Euclidean gradient at `X` of half the weighted squared residuals of the dataset: the exact
second-order expansion of the (quadratic, homogeneous) cost has `Gr` as its linear part. -/
def IsGradient (r d n : Nat) (D : List (Meas ℝ)) (X Gr : DMat ℝ) : Prop :=
  Gr.rows = r ∧ Gr.cols = n * (d + 1) ∧ ∀ V : DMat ℝ, V.rows = r → V.cols = n * (d + 1) →
    teamCost r d D (fun _ => X.add V) =
      teamCost r d D (fun _ => X) + Gr.dot V + teamCost r d D (fun _ => V)

/-- Robot that holds pose `i` of `n` poses dealt out evenly to `N` robots, the last one taking the rest. -/
def owner (N n i : Nat) : Nat := min (i / (n / N)) (N - 1)

/-- Squared norm of the columns of `R` that belong to the poses of robot `a`. -/
def robotNormSq (r d N n : Nat) (R : DMat ℝ) (a : Nat) : ℝ :=
  ∑ i ∈ (Finset.range n).filter (fun i => owner N n i = a), ∑ ρ ∈ Finset.range r,
    ∑ c ∈ Finset.range (d + 1), R.v ρ (i * (d + 1) + c) ^ 2

end Dpgo.Spec
