import Mathlib.Algebra.Order.Round
import Mathlib.Data.Int.Log
import Mathlib.Data.Real.Basic

/-! # Rounding to floating point numbers -/

namespace Dpgo.Spec

/-- Numbers with a significand of `p` bits; the exponent is not bounded. -/
def Representable (p : Nat) (x : ℝ) : Prop := ∃ k e : ℤ, |k| ≤ 2 ^ p ∧ x = k * (2 : ℝ) ^ e

/-- Correct rounding in any fixed direction, into any set of numbers with 0 and 1: overflow to infinity
is excluded, gradual underflow is not. -/
structure Rounding (rnd : ℝ → ℝ) : Prop where
  mono : Monotone rnd
  idem : ∀ x, rnd (rnd x) = rnd x
  zero : rnd 0 = 0
  one : rnd 1 = 1

/-- Rounding to nearest with `p` bits; ties go either way. -/
structure Nearest (p : Nat) (rnd : ℝ → ℝ) : Prop where
  rep : ∀ x, Representable p (rnd x)
  near : ∀ x y, Representable p y → |x - rnd x| ≤ |x - y|

/-- Rounding has relative error `u`. -/
def Accurate (u : ℝ) (rnd : ℝ → ℝ) : Prop := ∀ x, |rnd x - x| ≤ u * |x|

/-- A computed sum of squares: any order of summation, with or without fused multiply-add. -/
inductive SumSq (rnd : ℝ → ℝ) : List ℝ → ℝ → Prop
  | nil : SumSq rnd [] 0
  | sq (x : ℝ) : SumSq rnd [x] (rnd (x * x))
  | add {l k m : List ℝ} {a b : ℝ} : SumSq rnd l a → SumSq rnd k b → (l ++ k).Perm m → SumSq rnd m (rnd (a + b))
  | fma {l m : List ℝ} {a : ℝ} (x : ℝ) : SumSq rnd l a → (x :: l).Perm m → SumSq rnd m (rnd (x * x + a))

end Dpgo.Spec
