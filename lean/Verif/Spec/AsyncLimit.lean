import Verif.Spec.Async

/-!
# Teams that keep optimising

Endless schedules in which no robot stops, and what is asked of the geometry for all gradients to vanish together.
-/

namespace Dpgo.Spec

open Res

/-- Every robot optimises at least once among any `T` successive events. -/
def Active (N T : Nat) (sched : Nat → NetOp) : Prop :=
  ∀ i < N, ∀ k, ∃ l, k ≤ l ∧ l < k + T ∧ sched l = .iterate i true

/-- The estimates of the `N` robots come close to `X` again and again. -/
def Accumulates (o : AgentOracles) (N : Nat) (s : Net) (sched : Nat → NetOp) (X : Joint ℝ) : Prop :=
  ∀ η > 0, ∀ k₀, ∃ k ≥ k₀, ∀ t, netRun o s ((List.range k).map sched) = ok t →
    ∀ j < N, PArr.norm ((t.estimate j).sub (X j)) < η

/-- Projected gradients at nearby points are close: the projection shortens and depends on the point with rate `C`. -/
def Steady (C : ℝ) (o : OptOracles) : Prop :=
  ∀ (r d n : Nat) (Y Y' V V' : LVar r d n), Orthonormal r d n ⟨r, d, n, DMat.ofMat Y⟩ →
    Orthonormal r d n ⟨r, d, n, DMat.ofMat Y'⟩ →
    PArr.norm (DMat.ofMat (o.proj r d n Y' V')) ≤ PArr.norm (DMat.ofMat (o.proj r d n Y V)) +
      PArr.norm (DMat.ofMat (V' - V)) + C * PArr.norm (DMat.ofMat (Y' - Y)) * PArr.norm (DMat.ofMat V)

/-- Gradient steps that are short enough for the geometry (`small`), without and with the preconditioner. -/
def SmallSteps (o : AgentOracles) (p : AgentParams) (small : ℝ) : Prop :=
  (p.localOpt.RGDUsePreconditioner = false ∧ p.localOpt.RGDStepsize * small ≤ 1 / 2) ∨
    (p.localOpt.RGDUsePreconditioner = true ∧ (∀ c, ExactSolve (o.opt c)) ∧ p.localOpt.RGDStepsize * small ≤ 1 / 20)

end Dpgo.Spec
