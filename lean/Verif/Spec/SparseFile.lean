import Verif.Model.SparseFile
import Verif.Spec.G2o

/-!
# Specification of sparse matrices in files
-/

namespace Dpgo.Spec

open Dpgo Spec.G2o

/-- The storage of a matrix: a list for each row, in each row the columns strictly increasing and within the
matrix. -/
structure Compressed (M : Sparse) : Prop where
  rows : M.outer.length = M.rows
  sorted : ∀ l ∈ M.outer, (l.map Prod.fst).Pairwise (· < ·)
  cols : ∀ l ∈ M.outer, ∀ e ∈ l, e.1 < M.cols

/-- `x` is the entry of the matrix at a position: the number stored there, or zero when nothing is stored. -/
def EntryAt (M : Sparse) (i j : Nat) (x : ℝ) : Prop :=
  (∃ l, M.outer[i]? = some l ∧ (j, x) ∈ l) ∨ ((∀ l, M.outer[i]? = some l → ∀ y, (j, y) ∉ l) ∧ x = 0)

/-- A row, a column and a number, separated by commas. -/
def TripletLine (t : Nat × Nat × ℝ) (line : List Char) : Prop :=
  ∃ wi wj wx, IndexText t.1 wi ∧ IndexText t.2.1 wj ∧ NumberText t.2.2 wx ∧ line = wi ++ ',' :: (wj ++ ',' :: wx)

/-- The text is a list of triplets, one on each line, every line ended. -/
def TripletText (ts : List (Nat × Nat × ℝ)) (text : List Char) : Prop :=
  ∃ ls, List.Forall₂ TripletLine ts ls ∧ text = ls.flatMap (· ++ ['\n'])

/-- Order of positions: by rows, then by columns. -/
def Before (s t : Nat × Nat × ℝ) : Prop := s.1 < t.1 ∨ (s.1 = t.1 ∧ s.2.1 < t.2.1)

/-- `y` is what the triplets say about a position: the number given for it, or zero when there is none. -/
def TripletAt (ts : List (Nat × Nat × ℝ)) (i j : Nat) (y : ℝ) : Prop :=
  (i, j, y) ∈ ts ∨ ((∀ z, (i, j, z) ∉ ts) ∧ y = 0)

end Dpgo.Spec
