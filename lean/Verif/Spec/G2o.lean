import Verif.Spec.Logger
import Mathlib.Analysis.SpecialFunctions.Trigonometric.Basic

/-!
# Specification of pose-graph files

What the lines of a file look like and which measurement an edge line stands for.
-/

namespace Dpgo.Spec.G2o

open Dpgo Spec

/-- Blanks inside a line. -/
def Blank (c : Char) : Prop := c ∈ [' ', '\t', '\x0b', '\x0c', '\r']

/-- Blank text. -/
def Blanks (s : List Char) : Prop := ∀ c ∈ s, Blank c

/-- Nothing, or something set off by a blank. -/
def Apart (s : List Char) : Prop := ∀ c t, s = c :: t → Blank c

/-- The words, each preceded by at least one blank, then possibly more text set off by a blank. -/
inductive Spaced : List (List Char) → List Char → Prop
  | nil {rest : List Char} : Apart rest → Spaced [] rest
  | cons {b w rest : List Char} {ws : List (List Char)} :
      Blanks b → b ≠ [] → Spaced ws rest → Spaced (w :: ws) (b ++ (w ++ rest))

/-- A line: possibly blanks, a keyword, words. -/
def LineOf (keyword : String) (words : List (List Char)) (line : List Char) : Prop :=
  ∃ b rest, Blanks b ∧ Spaced words rest ∧ line = b ++ (keyword.toList ++ rest) ∧ '\n' ∉ line

/-- Digits for an index. -/
def IndexText (n : Nat) (w : List Char) : Prop :=
  w ≠ [] ∧ (∀ c ∈ w, c.isDigit = true) ∧ Numeral.digitsValue w = n

/-- A decimal numeral for a number. -/
def NumberText (x : ℝ) (w : List Char) : Prop := ∃ n : Numeral, n.Valid ∧ n.text = w ∧ n.value = x

/-- What a line says.  The numbers of an edge are listed in the order of the file: for a planar edge
`dx dy dθ I11 I12 I13 I22 I23 I33`, in space `dx dy dz qx qy qz qw` and the upper triangle of the `6 × 6`
information matrix, row by row. -/
inductive Entry where
  | vertex
  | edge2 (i j : Nat) (v : Fin 9 → ℝ)
  | edge3 (i j : Nat) (v : Fin 28 → ℝ)

/-- The line is written as the format prescribes. -/
def Written : Entry → List Char → Prop
  | .vertex, l => (∃ ws, LineOf "VERTEX_SE2" ws l) ∨ ∃ ws, LineOf "VERTEX_SE3:QUAT" ws l
  | .edge2 i j v, l => ∃ wi wj ws, IndexText i wi ∧ IndexText j wj ∧
      List.Forall₂ NumberText (List.ofFn v) ws ∧ LineOf "EDGE_SE2" (wi :: wj :: ws) l
  | .edge3 i j v, l => ∃ wi wj ws, IndexText i wi ∧ IndexText j wj ∧
      List.Forall₂ NumberText (List.ofFn v) ws ∧ LineOf "EDGE_SE3:QUAT" (wi :: wj :: ws) l

/-- Translational information of a planar edge. -/
def tranInfo2 (v : Fin 9 → ℝ) : Matrix (Fin 2) (Fin 2) ℝ := !![v 3, v 4; v 4, v 6]

/-- Translational information in space. -/
def tranInfo3 (v : Fin 28 → ℝ) : Matrix (Fin 3) (Fin 3) ℝ :=
  !![v 7, v 8, v 9; v 8, v 13, v 14; v 9, v 14, v 18]

/-- Rotational information in space. -/
def rotInfo3 (v : Fin 28 → ℝ) : Matrix (Fin 3) (Fin 3) ℝ :=
  !![v 22, v 23, v 24; v 23, v 25, v 26; v 24, v 26, v 27]

/-- The information matrices of the edge can be inverted and the traces of the inverses do not vanish; indices
are exact as `double`. -/
def Usable : Entry → Prop
  | .vertex => True
  | .edge2 i j v => i < 2 ^ 53 ∧ j < 2 ^ 53 ∧ (tranInfo2 v).det ≠ 0 ∧ (tranInfo2 v)⁻¹.trace ≠ 0
  | .edge3 i j v => i < 2 ^ 53 ∧ j < 2 ^ 53 ∧ (tranInfo3 v).det ≠ 0 ∧ (tranInfo3 v)⁻¹.trace ≠ 0 ∧
      (rotInfo3 v).det ≠ 0 ∧ (rotInfo3 v)⁻¹.trace ≠ 0

/-- The measurement an edge stands for: endpoints in one robot, translation, rotation, precisions, the flag of
consecutive poses, weight one.  For a unit quaternion the rotation is that of the quaternion; otherwise the
matrix is not a rotation. -/
def Says : Entry → Meas ℝ → Prop
  | .vertex, _ => False
  | .edge2 i j v, m => m.r1 = 0 ∧ m.r2 = 0 ∧ m.p1 = i ∧ m.p2 = j ∧
      m.t.rows = 2 ∧ m.t.cols = 1 ∧ m.t.toMat 2 1 = !![v 0; v 1] ∧
      m.R.rows = 2 ∧ m.R.cols = 2 ∧
      m.R.toMat 2 2 = !![Real.cos (v 2), -Real.sin (v 2); Real.sin (v 2), Real.cos (v 2)] ∧
      m.tau = 2 / (tranInfo2 v)⁻¹.trace ∧ m.kappa = v 8 ∧
      (m.fixedWeight = true ↔ j = i + 1) ∧ m.weight = 1
  | .edge3 i j v, m => m.r1 = 0 ∧ m.r2 = 0 ∧ m.p1 = i ∧ m.p2 = j ∧
      m.t.rows = 3 ∧ m.t.cols = 1 ∧ m.t.toMat 3 1 = !![v 0; v 1; v 2] ∧
      m.R.rows = 3 ∧ m.R.cols = 3 ∧
      m.R.toMat 3 3 = quatMatrix (v 3) (v 4) (v 5) (v 6) +
        (1 - (v 3 ^ 2 + v 4 ^ 2 + v 5 ^ 2 + v 6 ^ 2)) • (1 : Matrix (Fin 3) (Fin 3) ℝ) ∧
      m.tau = 3 / (tranInfo3 v)⁻¹.trace ∧ m.kappa = 3 / (2 * (rotInfo3 v)⁻¹.trace) ∧
      (m.fixedWeight = true ↔ j = i + 1) ∧ m.weight = 1

/-- The entry is an edge. -/
def Entry.isEdge : Entry → Bool
  | .vertex => false
  | _ => true

/-- The first word of a line. -/
def FirstWord (w : List Char) (l : List Char) : Prop :=
  ∃ b rest, Blanks b ∧ Apart rest ∧ w ≠ [] ∧ (∀ c ∈ w, ¬ Blank c) ∧ l = b ++ (w ++ rest)

/-- Lines, each ended by a newline. -/
def unlines (ls : List (List Char)) : List Char := ls.flatMap fun l => l ++ ['\n']

/-- A file with the given lines; the newline of a last line that is not empty may be missing. -/
def FileOf (ls : List (List Char)) (text : List Char) : Prop :=
  (∀ l ∈ ls, '\n' ∉ l) ∧
    (text = unlines ls ∨ ∃ init last, last ≠ [] ∧ ls = init ++ [last] ∧ text = unlines init ++ last)

/-- The line says it is an edge. -/
def EdgeLine (l : List Char) : Prop := FirstWord "EDGE_SE2".toList l ∨ FirstWord "EDGE_SE3:QUAT".toList l

/-- The line begins with one of the four keywords. -/
def KnownLine (l : List Char) : Prop :=
  EdgeLine l ∨ FirstWord "VERTEX_SE2".toList l ∨ FirstWord "VERTEX_SE3:QUAT".toList l

/-- Line `k` is an edge line, or blank lines follow an edge line up to line `k`. -/
def Repeats (ls : List (List Char)) (k : Nat) : Prop :=
  ∃ j ≤ k, (∃ l, ls[j]? = some l ∧ EdgeLine l) ∧ ∀ i, j < i → i ≤ k → ∃ l, ls[i]? = some l ∧ Blanks l

/-- A line that ends after the two endpoints. -/
def BareEdge (keyword : String) (i j : Nat) (l : List Char) : Prop :=
  ∃ b b1 b2 b3 wi wj, Blanks b ∧ Blanks b1 ∧ Blanks b2 ∧ Blanks b3 ∧ b1 ≠ [] ∧ b2 ≠ [] ∧ IndexText i wi ∧
    IndexText j wj ∧ l = b ++ (keyword.toList ++ (b1 ++ (wi ++ (b2 ++ (wj ++ b3)))))

end Dpgo.Spec.G2o
