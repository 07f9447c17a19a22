import Mathlib.Data.Real.Basic
import Mathlib.Data.Nat.Digits.Defs

/-!
# Specification of decimal numerals

What a numeral looks like and which number it stands for; no reading function occurs.
-/

namespace Dpgo.Spec

/-- A decimal numeral, part by part. -/
structure Numeral where
  /-- `none`: no sign, `some true`: minus, `some false`: plus -/
  sign : Option Bool
  /-- digits before the point -/
  int : List Char
  /-- digits after the point, `none` when there is no point -/
  frac : Option (List Char)
  /-- exponent: capital mark, sign, digits -/
  exp : Option (Bool × Option Bool × List Char)

namespace Numeral

/-- The characters of a sign. -/
def signText : Option Bool → List Char
  | none => []
  | some true => ['-']
  | some false => ['+']

/-- The text of the numeral. -/
def text (n : Numeral) : List Char :=
  signText n.sign ++ n.int ++
    (match n.frac with | none => [] | some f => '.' :: f) ++
    (match n.exp with
      | none => []
      | some (cap, s, ds) => (if cap then 'E' else 'e') :: (signText s ++ ds))

/-- Digits after the point. -/
def fracDigits (n : Numeral) : List Char := n.frac.getD []

/-- A string of digits in base ten. -/
def digitsValue (ds : List Char) : Nat := Nat.ofDigits 10 (ds.reverse.map fun c => c.toNat - '0'.toNat)

/-- Factor of a sign. -/
def signValue : Option Bool → Int
  | some true => -1
  | _ => 1

/-- The exponent, zero when there is none. -/
def expValue (n : Numeral) : Int :=
  match n.exp with
  | none => 0
  | some (_, s, ds) => signValue s * digitsValue ds

/-- The number the numeral stands for. -/
noncomputable def value (n : Numeral) : ℝ :=
  signValue n.sign *
    (digitsValue n.int + digitsValue n.fracDigits / 10 ^ n.fracDigits.length) * (10 : ℝ) ^ n.expValue

/-- There is a digit before or after the point, all digits are digits, and an exponent has digits. -/
structure Valid (n : Numeral) : Prop where
  some_digit : n.int ≠ [] ∨ n.fracDigits ≠ []
  int_digits : ∀ c ∈ n.int, c.isDigit = true
  frac_digits : ∀ c ∈ n.fracDigits, c.isDigit = true
  exp_digits : ∀ cap s ds, n.exp = some (cap, s, ds) → ds ≠ [] ∧ ∀ c ∈ ds, c.isDigit = true

end Numeral

/-- `y` has at most six significant decimal digits. -/
def SixDigits (y : ℝ) : Prop := ∃ (m : Int) (e : Int), |m| < 10 ^ 6 ∧ y = m * (10 : ℝ) ^ e

/-- `y` is `x` rounded to six significant decimal digits: at most six digits, and no such number is closer. -/
def Rounded6 (x y : ℝ) : Prop := SixDigits y ∧ ∀ z, SixDigits z → |x - y| ≤ |x - z|

end Dpgo.Spec
