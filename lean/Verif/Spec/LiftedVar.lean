import Verif.Model.LiftedVar

/-!
# What an optimisation variable is: a sequence of poses held by value
-/

namespace Dpgo.Spec

open Res

/-- `n` poses of `r` rows and `d + 1` columns; `at k i j` is entry `(i, j)` of pose `k`. -/
structure PoseSeq where
  r : Nat
  d : Nat
  n : Nat
  entry : Nat → Nat → Nat → ℝ

/-- Named values. -/
abbrev Values := Nat → Option PoseSeq

/-- All poses are `[I 0; 0 0]`. -/
def PoseSeq.start (r d n : Nat) : PoseSeq := ⟨r, d, n, fun _ i j => if i = j ∧ j < d then 1 else 0⟩

/-- The poses side by side are the matrix `X`. -/
def PoseSeq.ofData (r d n : Nat) (X : DMat ℝ) : PoseSeq := ⟨r, d, n, fun k i j => X.v i (k * (d + 1) + j)⟩

/-- Give the name a value. -/
def Values.put (A : Values) (x : Nat) (S : Option PoseSeq) : Values := fun y => if y = x then S else A y

open Classical in
/-- Declare a name. -/
noncomputable def Values.declare (A : Values) (x : Nat) (S : Res PoseSeq) : Res Values :=
  if A x = none then S >>= fun S => ok (A.put x (some S)) else ub

/-- The value of a name. -/
def Values.value (A : Values) (x : Nat) : Res PoseSeq :=
  match A x with
  | some S => ok S
  | none => ub

/-- Replace the value of a name. -/
def Values.modify (A : Values) (x : Nat) (f : PoseSeq → Res PoseSeq) : Res Values :=
  match A x with
  | some S => f S >>= fun S => ok (A.put x (some S))
  | none => ub

/-- A new variable exists only for `d ≤ r`. -/
def PoseSeq.fresh (r d n : Nat) : Res PoseSeq := if d ≤ r then ok (.start r d n) else ub

/-- Take over a matrix of the right size. -/
def PoseSeq.take (r d n : Nat) (X : DMat ℝ) : Res PoseSeq :=
  if X.rows = r ∧ X.cols = (d + 1) * n then ok (.ofData r d n X) else abort

/-- Replace some columns (`sel`) of pose `i` by those of a matrix with `cols` columns, the first one for
column `o`. -/
def PoseSeq.replace (i o cols : Nat) (B : DMat ℝ) (S : PoseSeq) : Res PoseSeq :=
  if ¬ i < S.n then abort
  else if ¬ (B.rows = S.r ∧ B.cols = cols) then ub
  else ok { S with entry := fun k a j => if k = i ∧ o ≤ j ∧ j < o + cols then B.v a (j - o) else S.entry k a j }

/-- What the statements mean for values. -/
noncomputable def valueStep (A : Values) : VOp → Res Values
  | .make x r d n => A.declare x (PoseSeq.fresh r d n)
  | .ofPoses x P => A.declare x (PoseSeq.fresh P.r P.d P.n >>= fun _ => PoseSeq.take P.r P.d P.n P.X)
  | .copy x y => A.declare x (A.value y)
  | .assign x y => A.modify x fun _ => A.value y
  | .setData x X => A.modify x fun S => PoseSeq.take S.r S.d S.n X
  | .setPose x i B => A.modify x fun S => S.replace i 0 (S.d + 1) B
  | .setRotation x i B => A.modify x fun S => S.replace i 0 S.d B
  | .setTranslation x i B => A.modify x fun S => S.replace i S.d 1 B
  | .drop x => A.value x >>= fun _ => ok (A.put x none)

/-- A sequence of statements. -/
noncomputable def valueRun (A : Values) (ops : List VOp) : Res Values := Res.foldl valueStep A ops

/-- The statement does not assign a variable to itself. -/
def NotSelf : VOp → Prop
  | .assign x y => x ≠ y
  | _ => True

end Dpgo.Spec
