import Verif.Model.Optimizer
import Verif.Spec.Cost

/-!
# What is assumed of the trust-region solver
-/

namespace Dpgo.Spec

/-- The law of the trust-region solver: a step that is accepted does not increase the objective, and a
run of several iterations returns a point that is not worse than its start. -/
def LawfulRtr (o : OptOracles) : Prop :=
  ∀ (r d n : Nat) (Q G : DMat ℝ) (p : OptParams) (k : Nat) (Δ Δmax : ℝ) (Y : LVar r d n),
    (o.rtr r d n Q G p k Δ Δmax Y).accepted = true ∨ p.RTRIterations ≠ 1 →
    objective Q G (DMat.ofMat (o.rtr r d n Q G p k Δ Δmax Y).X) ≤ objective Q G (DMat.ofMat Y)

/-- `Gr` is the Euclidean gradient of the cost of the graph at `Y`: along every line through `Y` the cost is
a quadratic polynomial whose linear coefficient is the product of `Gr` with the direction. -/
def GraphGradient (g : PoseGraph ℝ) (Y Gr : DMat ℝ) : Prop :=
  Gr.rows = g.r ∧ Gr.cols = (g.d + 1) * g.n ∧ ∀ V : DMat ℝ, V.rows = g.r → V.cols = (g.d + 1) * g.n →
    ∃ c : ℝ, ∀ t : ℝ, graphCost g (Y.add (V.smul t)) = graphCost g Y + t * Gr.dot V + t ^ 2 * c

end Dpgo.Spec
