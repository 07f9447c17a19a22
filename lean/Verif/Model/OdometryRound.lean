import Verif.Model.Init
import Verif.Spec.Floating

/-!
# Chaining odometry with rounding

The loop of `odometryInitialization` in floating point: `rnd` is applied after every operation.  The order in which
Eigen sums the products of a row and a column is left open, as are fused operations.
-/

namespace Dpgo

/-- A sum of products as evaluated in floating point (the matrix products of src/DPGO_solver.cpp:298-299): in any order
and grouping, every product and every sum rounded, with or without fused multiply-add.  A factor 1 stands for a
summand that is no product.  Adding to a zero accumulator is exact and not listed. -/
inductive DotR (rnd : ℝ → ℝ) : List (ℝ × ℝ) → ℝ → Prop
  | value (x : ℝ) : DotR rnd [(x, 1)] x
  | prod (x y : ℝ) : DotR rnd [(x, y)] (rnd (x * y))
  | add {l k m : List (ℝ × ℝ)} {a b : ℝ} : DotR rnd l a → DotR rnd k b → (l ++ k).Perm m → DotR rnd m (rnd (a + b))
  | fma {l m : List (ℝ × ℝ)} {a : ℝ} (x y : ℝ) : DotR rnd l a → ((x, y) :: l).Perm m → DotR rnd m (rnd (x * y + a))

/-- The poses that `odometryInitialization` without a partial trajectory computes in floating point
(src/DPGO_solver.cpp:287-300): the identity, then one step per measurement. -/
structure ChainR (rnd : ℝ → ℝ) (d : Nat) (odometry : List (Meas ℝ)) (R : Nat → Matrix (Fin d) (Fin d) ℝ)
    (t : Nat → Fin d → ℝ) : Prop where
  rot_zero : R 0 = 1
  tra_zero : t 0 = 0
  rot_step : ∀ i m, odometry[i]? = some m → ∀ a b : Fin d,
    DotR rnd (List.ofFn fun k : Fin d => (R i a k, m.R.v k b)) (R (i + 1) a b)
  tra_step : ∀ i m, odometry[i]? = some m → ∀ a,
    DotR rnd ((t i a, 1) :: List.ofFn fun k : Fin d => (R i a k, m.t.v k 0)) (t (i + 1) a)

end Dpgo
