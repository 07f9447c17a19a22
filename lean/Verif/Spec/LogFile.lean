import Verif.Spec.G2o

/-!
# Specification of trajectory and measurement files of any origin
-/

namespace Dpgo.Spec

open Dpgo Spec.G2o

/-- Fields separated by commas. -/
inductive Joined : List (List Char) → List Char → Prop
  | one {a : List Char} : ',' ∉ a → '\n' ∉ a → Joined [a] a
  | cons {a line : List Char} {l : List (List Char)} :
      ',' ∉ a → '\n' ∉ a → Joined l line → Joined (a :: l) (a ++ ',' :: line)

/-- A field of a row; past the end of the row, its last field. -/
def fieldOf (fs : List (List Char)) (j : Nat) : List Char := fs.getD j (fs.getLastD [])

/-- A file: a first line of any kind, then the lines of the rows. -/
def RowFile {α : Type} (mean : α → List Char → Prop) (rows : List α) (text : List Char) : Prop :=
  ∃ header ls, '\n' ∉ header ∧ List.Forall₂ mean rows ls ∧ text = header ++ '\n' :: ls.flatMap (· ++ ['\n'])

/-- What a row of a trajectory file says: index, quaternion `qx qy qz qw`, translation. -/
structure PoseRow where
  index : Nat
  q : Fin 4 → ℝ
  t : Fin 3 → ℝ

/-- The line says this. -/
def PoseRow.Says (row : PoseRow) (line : List Char) : Prop :=
  ∃ fs, Joined fs line ∧ IndexText row.index (fieldOf fs 0) ∧
    (∀ j : Fin 4, NumberText (row.q j) (fieldOf fs (1 + j))) ∧ ∀ j : Fin 3, NumberText (row.t j) (fieldOf fs (5 + j))

/-- What a row of a measurement file says: robots and poses, quaternion, translation, precisions, flag, weight. -/
structure MeasRow where
  r1 : Nat
  p1 : Nat
  r2 : Nat
  p2 : Nat
  q : Fin 4 → ℝ
  t : Fin 3 → ℝ
  kappa : ℝ
  tau : ℝ
  flag : Nat
  weight : ℝ

/-- The line says this. -/
def MeasRow.Says (row : MeasRow) (line : List Char) : Prop :=
  ∃ fs, Joined fs line ∧ IndexText row.r1 (fieldOf fs 0) ∧ IndexText row.p1 (fieldOf fs 1) ∧
    IndexText row.r2 (fieldOf fs 2) ∧ IndexText row.p2 (fieldOf fs 3) ∧
    (∀ j : Fin 4, NumberText (row.q j) (fieldOf fs (4 + j))) ∧
    (∀ j : Fin 3, NumberText (row.t j) (fieldOf fs (8 + j))) ∧ NumberText row.kappa (fieldOf fs 11) ∧
    NumberText row.tau (fieldOf fs 12) ∧ IndexText row.flag (fieldOf fs 13) ∧ NumberText row.weight (fieldOf fs 14)

/-- The whole numbers of the row fit in an `int`. -/
structure MeasRow.Small (row : MeasRow) : Prop where
  r1 : row.r1 < 2 ^ 31
  p1 : row.p1 < 2 ^ 31
  r2 : row.r2 < 2 ^ 31
  p2 : row.p2 < 2 ^ 31
  flag : row.flag < 2 ^ 31

/-- The rotation of a quaternion that need not have length one; the zero quaternion stands for no rotation. -/
def RotationOf (q : Fin 4 → ℝ) (R : Matrix (Fin 3) (Fin 3) ℝ) : Prop :=
  (q ≠ 0 → R = (∑ i, q i ^ 2)⁻¹ • quatMatrix (q 0) (q 1) (q 2) (q 3)) ∧ (q = 0 → R = 1)

/-- The measurement is the row; the weight counts only when it is asked for. -/
structure MeasRow.Is (withWeight : Bool) (row : MeasRow) (m : Meas ℝ) : Prop where
  r1 : m.r1 = row.r1
  p1 : m.p1 = row.p1
  r2 : m.r2 = row.r2
  p2 : m.p2 = row.p2
  meas3 : Meas3 m
  R : RotationOf row.q (m.R.toMat 3 3)
  t : ∀ i : Fin 3, m.t.v i 0 = row.t i
  kappa : m.kappa = row.kappa
  tau : m.tau = row.tau
  fixedWeight : m.fixedWeight = true ↔ row.flag ≠ 0
  weight : m.weight = if withWeight then row.weight else 1

end Dpgo.Spec
