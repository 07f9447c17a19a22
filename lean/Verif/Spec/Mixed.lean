import Verif.Spec.Main

/-! # Pose-graph files that mix dimensions -/

namespace Dpgo.Spec.G2o

/-- Dimension of an edge. -/
def Entry.dim : Entry → Nat
  | .vertex => 0
  | .edge2 .. => 2
  | .edge3 .. => 3

/-- Some edge has another dimension than the first one. -/
def Mixed (es : List Entry) : Prop :=
  ∃ a f b e c, es = a ++ f :: (b ++ e :: c) ∧ (∀ x ∈ a, x = .vertex) ∧ f.isEdge = true ∧ e.isEdge = true ∧
    f.dim ≠ e.dim

/-- Some edge has another dimension than the first one and goes between poses that no earlier edge joins in this
direction. -/
def MixedNew (es : List Entry) : Prop :=
  ∃ a f b e c, es = a ++ f :: (b ++ e :: c) ∧ (∀ x ∈ a, x = .vertex) ∧ f.isEdge = true ∧ e.isEdge = true ∧
    f.dim ≠ e.dim ∧ ∀ x ∈ f :: b, x.ends ≠ e.ends

end Dpgo.Spec.G2o
