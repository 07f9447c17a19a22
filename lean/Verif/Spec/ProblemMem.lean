import Verif.Model.ProblemMem

/-!
# What elements in memory stand for
-/

namespace Dpgo.Spec

/-- Buffer `b` can hold `n` poses of `r` rows and `d + 1` columns. -/
structure Room (m : Mem) (b r d n : Nat) : Prop where
  live : m.live b = true
  len : m.len b = r * ((d + 1) * n)

/-- Buffer `b` holds the matrix `V`, by columns. -/
structure Stores (m : Mem) (b : Nat) {r d n : Nat} (V : LVar r d n) : Prop where
  room : Room m b r d n
  cell : ∀ (i : Fin r) (j : Fin ((d + 1) * n)), m.cell b (r * j + i) = some (V i j)

/-- Nothing changed but the numbers in buffer `b`. -/
structure Only (b : Nat) (m m' : Mem) : Prop where
  next : m'.next = m.next
  live : m'.live = m.live
  len : m'.len = m.len
  cell : ∀ b' ≠ b, m'.cell b' = m.cell b'

/-- Buffers that exist have been numbered. -/
def Numbered (m : Mem) : Prop := ∀ b, m.live b = true → b < m.next

/-- The same buffers exist, with the same numbers in them. -/
structure Tidy (m m' : Mem) : Prop where
  live : m'.live = m.live
  len : ∀ b, m.live b = true → m'.len b = m.len b
  cell : ∀ b, m.live b = true → m'.cell b = m.cell b
  numbered : Numbered m'

/-- A matrix has the entries of `V`. -/
def Is (M : DMat ℝ) {r c : Nat} (V : Matrix (Fin r) (Fin c) ℝ) : Prop :=
  M.rows = r ∧ M.cols = c ∧ M.toMat r c = V

/-- A symmetric positive definite matrix. -/
structure Definite (P : DMat ℝ) : Prop where
  square : P.cols = P.rows
  symm : ∀ a b, P.v a b = P.v b a
  pos : ∀ V : DMat ℝ, V.cols = P.rows → (∃ i j, i < V.rows ∧ j < V.cols ∧ V.v i j ≠ 0) → 0 < (V.mul P).dot V

end Dpgo.Spec
