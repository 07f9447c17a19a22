import Verif.Spec.G2o
import Verif.Spec.Examples
import Mathlib.LinearAlgebra.Matrix.PosDef

/-! # Pose-graph files the example programs are made for -/

namespace Dpgo.Spec.G2o

open Dpgo Spec

/-- Endpoints of an edge. -/
def Entry.ends : Entry → Option (Nat × Nat)
  | .vertex => none
  | .edge2 i j _ => some (i, j)
  | .edge3 i j _ => some (i, j)

/-- Endpoints of the edges, in order. -/
def endsOf (es : List Entry) : List (Nat × Nat) := es.filterMap Entry.ends

/-- An edge of dimension `d` with positive definite information. -/
def Entry.Informed (d : Nat) : Entry → Prop
  | .vertex => True
  | .edge2 _ _ v => d = 2 ∧ (tranInfo2 v).PosDef ∧ 0 ≤ v 8
  | .edge3 _ _ v => d = 3 ∧ (tranInfo3 v).PosDef ∧ (rotInfo3 v).PosDef

/-- The text is a pose graph of dimension `d` over `n` poses: written as the format prescribes, without blank lines;
edges of one dimension, between different poses, with positive definite information; and every pose but the last
has one edge to the next, listed in order. -/
structure GraphFile (d n : Nat) (es : List Entry) (text : List Char) : Prop where
  written : ∃ ls, FileOf ls text ∧ List.Forall₂ Written es ls
  informed : ∀ e ∈ es, e.Informed d
  noSelf : ∀ p ∈ endsOf es, p.1 ≠ p.2
  below : ∀ p ∈ endsOf es, p.1 < n ∧ p.2 < n
  chain : ((endsOf es).filter fun p => p.1 + 1 == p.2).map Prod.fst = List.range (n - 1)
  two : 2 ≤ n
  small : n < 2 ^ 32

end Dpgo.Spec.G2o
