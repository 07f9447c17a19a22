import Verif.Spec.G2o

/-! # Integers as doubles, and lines whose endpoints cannot be read -/

namespace Dpgo.Spec.G2o

/-- An integer that a `double` holds exactly (53 significant bits; no upper limit on the exponent). -/
def IsDouble (v : Nat) : Prop := ∃ m e, m < 2 ^ 53 ∧ v = m * 2 ^ e

/-- `v` is a `double`, and none is nearer to `n`. -/
def NearestDouble (n v : Nat) : Prop :=
  IsDouble v ∧ ∀ w, IsDouble w → ((n : Int) - v).natAbs ≤ ((n : Int) - w).natAbs

/-- A line whose keyword is followed by something that no number begins with. -/
def WordLine (keyword : String) (l : List Char) : Prop :=
  ∃ b b1 c rest, Blanks b ∧ Blanks b1 ∧ b1 ≠ [] ∧ ¬ Blank c ∧ c.isDigit = false ∧ c ≠ '+' ∧ c ≠ '-' ∧
    l = b ++ (keyword.toList ++ (b1 ++ c :: rest))

/-- A line whose first endpoint does not fit into 64 bits. -/
def HugeLine (keyword : String) (l : List Char) : Prop :=
  ∃ b b1 w n rest, Blanks b ∧ Blanks b1 ∧ b1 ≠ [] ∧ IndexText n w ∧ 2 ^ 64 ≤ n ∧ Apart rest ∧
    l = b ++ (keyword.toList ++ (b1 ++ (w ++ rest)))

end Dpgo.Spec.G2o
