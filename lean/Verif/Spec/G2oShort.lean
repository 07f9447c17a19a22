import Verif.Spec.G2o

/-! # Edge lines that end before the second endpoint -/

namespace Dpgo.Spec.G2o

/-- A line with the keyword only. -/
def LoneKeyword (keyword : String) (l : List Char) : Prop :=
  ∃ b b1, Blanks b ∧ Blanks b1 ∧ l = b ++ (keyword.toList ++ b1)

/-- A line that ends after the first endpoint. -/
def LoneEnd (keyword : String) (i : Nat) (l : List Char) : Prop :=
  ∃ b b1 b2 wi, Blanks b ∧ Blanks b1 ∧ Blanks b2 ∧ b1 ≠ [] ∧ IndexText i wi ∧
    l = b ++ (keyword.toList ++ (b1 ++ (wi ++ b2)))

end Dpgo.Spec.G2o
