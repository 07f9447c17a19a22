import Verif.Model.Logger

/-!
# Sparse matrices as files

`writeSparseMatrixToFile` of `src/DPGO_utils.cpp`.  What is printed to the console is left out.
-/

namespace Dpgo

open Text

/-- `SparseMatrix`: row-major, for each row the stored entries with their columns in the order of the storage
(include/DPGO/DPGO_types.h:26, src/DPGO_utils.cpp:90-91). -/
structure Sparse where
  rows : Nat
  cols : Nat
  outer : List (List (Nat × ℝ))

/-- The line of one stored entry (src/DPGO_utils.cpp:92-94). -/
noncomputable def sparseLine (i j : Nat) (x : ℝ) : Str :=
  showNat i ++ ',' :: (showNat j ++ ',' :: (showReal x ++ ['\n']))

/-- The entries of one row (the inner loop of src/DPGO_utils.cpp:91-95). -/
noncomputable def sparseRow (i : Nat) (l : List (Nat × ℝ)) : Str := l.flatMap fun e => sparseLine i e.1 e.2

/-- The rows from number `i` on (the outer loop of src/DPGO_utils.cpp:90-96). -/
noncomputable def sparseRows : Nat → List (List (Nat × ℝ)) → Str
  | _, [] => []
  | i, l :: ls => sparseRow i l ++ sparseRows (i + 1) ls

/-- `writeSparseMatrixToFile` (src/DPGO_utils.cpp:82-98). -/
noncomputable def writeSparseMatrixToFile (k : Disk) (M : Sparse) (path : Str) : Disk :=
  if !(k.writable path) then k else k.write path (sparseRows 0 M.outer)

end Dpgo
