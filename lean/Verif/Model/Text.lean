import Verif.Basic.Res
import Mathlib.Data.Real.Basic
import Mathlib.Algebra.Order.Floor.Ring
import Mathlib.Data.Int.Log
import Mathlib.Algebra.Order.Archimedean.Real.Basic

/-!
# Text input and output of the C++ standard library

Characters are those of the "C" locale; files and lines are lists of characters.  These are the parts
of the library used by `src/DPGO_utils.cpp:113-257` and `src/PGOLogger.cpp`.  Numbers are exact: reading
a decimal numeral gives its value (the nearest `double` in the code, no overflow), and a number is
written with six significant digits of its exact value.  Reading hexadecimal numerals is left out.
-/

namespace Dpgo.Text

open Res

/-- A string. -/
abbrev Str := List Char

/-- `isspace` in the "C" locale: blank, tab, newline, vertical tab, form feed, carriage return
(used by the `>>` of src/DPGO_utils.cpp:144-203 and by `stoi`, `stod` of src/PGOLogger.cpp:111-211). -/
def isSpace (c : Char) : Bool := c == ' ' || (decide (9 ≤ c.toNat) && decide (c.toNat ≤ 13))

/-- The lines that successive `std::getline(file, line)` give (src/DPGO_utils.cpp:139,
src/PGOLogger.cpp:103-106, 169-172): the newline is dropped, and a last line without newline counts if it
is not empty. -/
def lines : Str → List Str
  | [] => []
  | c :: t =>
    if c = '\n' then [] :: lines t
    else match lines t with
      | [] => [[c]]
      | l :: ls => (c :: l) :: ls

/-- `std::getline(ss, token, ',')` (src/PGOLogger.cpp:110 ff., 175 ff.): the text up to the next comma.  A
stream that has reached its end (`none`) leaves the token as it was. -/
def field (token : Str) (ss : Option Str) : Str × Option Str :=
  match ss with
  | none => (token, none)
  | some s =>
    match s.span (· != ',') with
    | (a, []) => (a, none)
    | (a, _ :: t) => (a, some t)

/-- Value of a digit character. -/
def digitVal (c : Char) : Nat := c.toNat - 48

/-- Value of a string of digits, most significant first. -/
def natOf (ds : Str) : Nat := ds.foldl (fun n c => 10 * n + digitVal c) 0

/-- Optional sign; `true` for minus. -/
def sign : Str → Bool × Str
  | '-' :: t => (true, t)
  | '+' :: t => (false, t)
  | t => (false, t)

/-- Digits after an optional decimal point; also tells whether there was a point. -/
def fraction : Str → Str × Str
  | '.' :: t => t.span Char.isDigit
  | t => ([], t)

/-- `± digits . digits e ± exponent` as a number. -/
noncomputable def decimal (neg : Bool) (int frac : Str) (e : Int) : ℝ :=
  (if neg then -1 else 1) * (natOf (int ++ frac) : ℝ) * (10 : ℝ) ^ (e - (frac.length : Int))

/-- The exponent part at the head of a string, if it is complete: value and rest. -/
def exponent (s : Str) : Option (Int × Str) :=
  match s with
  | c :: t =>
    if c = 'e' ∨ c = 'E' then
      let (neg, u) := sign t
      let (ds, rest) := u.span Char.isDigit
      if ds.isEmpty then none else some (if neg then -(natOf ds : Int) else natOf ds, rest)
    else none
  | [] => none

/-- `strtod` without the special values: the longest decimal numeral at the head of the string (used by
`std::stod`, src/PGOLogger.cpp:114-129, 185-211). -/
noncomputable def strtod (s : Str) : Option (ℝ × Str) :=
  let (neg, s) := sign s
  let (int, s) := s.span Char.isDigit
  let (frac, s) := fraction s
  if int.isEmpty && frac.isEmpty then none
  else match exponent s with
    | some (e, rest) => some (decimal neg int frac e, rest)
    | none => some (decimal neg int frac 0, s)

/-- The string begins with `inf` or `nan`, in any capitals. -/
def isSpecial (s : Str) : Bool :=
  let w := (s.take 3).map Char.toLower
  w == ['i', 'n', 'f'] || w == ['n', 'a', 'n']

/-- `std::stod(token)` (src/PGOLogger.cpp:114-129, 185-211): blanks are skipped, a text that does not
start with a numeral throws `invalid_argument`, anything after the numeral is ignored. -/
noncomputable def stod (s : Str) : Res ℝ :=
  let s := s.dropWhile isSpace
  if isSpecial (sign s).2 then nonfinite
  else match strtod s with
    | some (x, _) => ok x
    | none => throws

/-- `std::stoi(token)` (src/PGOLogger.cpp:111, 176-182, 209): throws `invalid_argument` without digits and
`out_of_range` outside the range of `int`. -/
def stoi (s : Str) : Res Int :=
  let (neg, s) := sign (s.dropWhile isSpace)
  let ds := (s.span Char.isDigit).1
  if ds.isEmpty then throws
  else
    let v : Int := if neg then -(natOf ds : Int) else natOf ds
    if -2 ^ 31 ≤ v ∧ v < 2 ^ 31 then ok v else throws

/-- Digit character. -/
def digit (k : Nat) : Char := Char.ofNat (48 + k)

/-- `file << n` for an unsigned number (src/PGOLogger.cpp:35-38, 70). -/
def showNat (n : Nat) : Str :=
  if _h : n < 10 then [digit n] else showNat (n / 10) ++ [digit (n % 10)]
termination_by n
decreasing_by omega

/-- `file << b` for a `bool` without `boolalpha` (src/PGOLogger.cpp:48). -/
def showBool (b : Bool) : Str := if b then ['1'] else ['0']

/-- Nearest integer, ties to even (rounding of the C library when printing). -/
noncomputable def roundEven (x : ℝ) : Int :=
  if x - ⌊x⌋ < 1 / 2 then ⌊x⌋
  else if 1 / 2 < x - ⌊x⌋ then ⌊x⌋ + 1
  else if ⌊x⌋ % 2 = 0 then ⌊x⌋ else ⌊x⌋ + 1

/-- Six significant digits of a positive number: mantissa of six digits and decimal exponent of the first
digit. -/
noncomputable def sig6 (x : ℝ) : Nat × Int :=
  let e := Int.log 10 x
  let m := (roundEven (x * (10 : ℝ) ^ (5 - e))).toNat
  if m = 10 ^ 6 then (10 ^ 5, e + 1) else (m, e)

/-- Remove trailing zeros. -/
def stripZeros (s : Str) : Str := (s.reverse.dropWhile (· == '0')).reverse

/-- Point and digits, or nothing when there is no digit. -/
def pointed (s : Str) : Str := if s.isEmpty then [] else '.' :: s

/-- Decimal exponent with at least two digits. -/
def showExp (e : Int) : Str :=
  'e' :: (if e < 0 then '-' else '+') ::
    (if e.natAbs < 10 then '0' :: showNat e.natAbs else showNat e.natAbs)

/-- `%.6g` of a positive number with mantissa `m` (six digits) and exponent `e`. -/
def showGeneral (m : Nat) (e : Int) : Str :=
  let ds := showNat m
  if e < -4 ∨ 6 ≤ e then ds.take 1 ++ pointed (stripZeros (ds.drop 1)) ++ showExp e
  else if e < 0 then '0' :: '.' :: (List.replicate (e.natAbs - 1) '0' ++ stripZeros ds)
  else ds.take (e.natAbs + 1) ++ pointed (stripZeros (ds.drop (e.natAbs + 1)))

open Classical in
/-- `file << x` for a `double` with the default format and precision 6 (src/PGOLogger.cpp:39-49, 71-77).
Negative zero is printed as zero. -/
noncomputable def showReal (x : ℝ) : Str :=
  if x = 0 then ['0']
  else if x < 0 then '-' :: showGeneral (sig6 (-x)).1 (sig6 (-x)).2
  else showGeneral (sig6 x).1 (sig6 x).2

/-! ### Extraction from a string stream (`strstrm >> …`, src/DPGO_utils.cpp:141-203) -/

/-- Result of an extraction: nothing left in the stream (variable unchanged, stream fails), no number or one
out of range (a substitute is stored, stream fails), or a value and what is left. -/
inductive Extract (α : Type) where
  | ended
  | failed (a : α)
  | got (a : α) (rest : Str)

/-- `strstrm >> token` for a `std::string` (src/DPGO_utils.cpp:144). -/
def extractWord (s : Str) : Extract Str :=
  let s := s.dropWhile isSpace
  if s.isEmpty then .ended
  else .got (s.span fun c => !(isSpace c)).1 (s.span fun c => !(isSpace c)).2

/-- `strstrm >> i` for a `size_t` (src/DPGO_utils.cpp:157, 201): a minus sign negates modulo `2^64`, an
overflow fails and stores the largest value, a text without digits fails and stores zero. -/
def extractNat (s : Str) : Extract Nat :=
  let s := s.dropWhile isSpace
  if s.isEmpty then .ended
  else
    let (neg, t) := sign s
    let (ds, rest) := t.span Char.isDigit
    if ds.isEmpty then .failed 0
    else if 2 ^ 64 ≤ natOf ds then .failed (2 ^ 64 - 1)
    else .got (if neg then (2 ^ 64 - natOf ds) % 2 ^ 64 else natOf ds) rest

/-- `strstrm >> x` for a `double` (src/DPGO_utils.cpp:157-158, 201-203): the characters that can continue a
numeral are consumed, and the extraction fails unless all of them together are one; in particular an
exponent mark without digits makes it fail and store zero. -/
noncomputable def extractReal (s : Str) : Extract ℝ :=
  let s := s.dropWhile isSpace
  if s.isEmpty then .ended
  else
    let (neg, s) := sign s
    let (int, s) := s.span Char.isDigit
    let (frac, s) := fraction s
    if int.isEmpty && frac.isEmpty then .failed 0
    else match s with
      | c :: t =>
        if c = 'e' ∨ c = 'E' then
          match exponent (c :: t) with
          | some (e, rest) => .got (decimal neg int frac e) rest
          | none => .failed 0
        else .got (decimal neg int frac 0) s
      | [] => .got (decimal neg int frac 0) []

end Dpgo.Text
