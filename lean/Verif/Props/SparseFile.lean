import Verif.Lemmas.SparseFile

/-!
# Sparse matrices in files (C91)
-/

namespace Dpgo.Props

open Res Text Spec Spec.G2o

/-- **C91.** The file written for a sparse matrix is a list of triplets, and in only one way; each position occurs at
most once, by rows and then by columns, exactly the stored positions occur, and what the file says about a position
is the entry of the matrix rounded to six digits.  No other file changes. -/
theorem C91_triplets {M : Sparse} (hM : Compressed M) {k : Disk} {path : Str} (hw : k.writable path = true) :
    ∃ text, (writeSparseMatrixToFile k M path).file path = some text ∧
      (∀ p, p ≠ path → (writeSparseMatrixToFile k M path).file p = k.file p) ∧
      ∃ ts, TripletText ts text ∧ (∀ ts', TripletText ts' text → ts' = ts) ∧ ts.Pairwise Before ∧
        (∀ i j, (∃ y, (i, j, y) ∈ ts) ↔ ∃ l x, M.outer[i]? = some l ∧ (j, x) ∈ l) ∧
        (∀ t ∈ ts, t.1 < M.rows ∧ t.2.1 < M.cols) ∧
        ∀ i j x y, EntryAt M i j x → TripletAt ts i j y → Rounded6 x y := by
  have e : writeSparseMatrixToFile k M path = k.write path (sparseRows 0 M.outer) := by
    unfold writeSparseMatrixToFile
    rw [hw]
    rfl
  rw [e]
  have ht := written_text M.outer 0
  have key : ∀ i j y, (i, j, y) ∈ written 0 M.outer ↔ ∃ l x, M.outer[i]? = some l ∧ (j, x) ∈ l ∧ y = round6 x := by
    intro i j y
    rw [mem_written]
    constructor
    · rintro ⟨k, l, x, h1, h2, h3, h4⟩
      have : i = k := by simpa using h3
      subst this
      exact ⟨l, x, h1, h2, h4⟩
    · rintro ⟨l, x, h1, h2, h3⟩
      exact ⟨i, l, x, h1, h2, by simp, h3⟩
  refine ⟨_, by simp [Disk.write], fun p hp => by simp [Disk.write, hp], written 0 M.outer, ht,
    fun ts' h' => tripletText_unique h' ht, written_sorted hM.sorted 0, fun i j => ?_, fun t h => ?_, ?_⟩
  · constructor
    · rintro ⟨y, h⟩
      obtain ⟨l, x, h1, h2, -⟩ := (key i j y).1 h
      exact ⟨l, x, h1, h2⟩
    · rintro ⟨l, x, h1, h2⟩
      exact ⟨round6 x, (key i j _).2 ⟨l, x, h1, h2, rfl⟩⟩
  · obtain ⟨l, x, h1, h2, -⟩ := (key t.1 t.2.1 t.2.2).1 h
    have hl := List.mem_of_getElem? h1
    refine ⟨?_, hM.cols l hl (t.2.1, x) h2⟩
    rw [← hM.rows]
    exact (List.getElem?_eq_some_iff.1 h1).1
  · rintro i j x y hx hy
    rcases hy with hy | ⟨hy, rfl⟩
    · obtain ⟨l, z, h1, h2, rfl⟩ := (key i j y).1 hy
      rcases hx with ⟨l', h1', h2'⟩ | ⟨hx, -⟩
      · rw [h1] at h1'
        cases h1'
        have hs := hM.sorted l (List.mem_of_getElem? h1)
        have hnd : (l.map Prod.fst).Nodup := hs.imp fun h => Nat.ne_of_lt h
        have : (j, z) = (j, x) := List.inj_on_of_nodup_map hnd h2 h2' rfl
        cases this
        exact rounded6_round6 x
      · exact absurd h2 (hx l h1 z)
    · rcases hx with ⟨l, h1, h2⟩ | ⟨-, rfl⟩
      · exact absurd ((key i j _).2 ⟨l, x, h1, h2, rfl⟩) (hy _)
      · have := rounded6_round6 0
        rwa [show round6 0 = 0 by simp [round6]] at this

/-- A matrix with three stored numbers; one needs more than six digits. -/
noncomputable def exSparse : Sparse := ⟨3, 4, [[(1, 2), (3, -1234567)], [], [(0, 1 / 2)]]⟩

theorem exSparse_ok : Compressed exSparse where
  rows := rfl
  sorted := by simp [exSparse]
  cols := by
    simp only [exSparse, List.forall_mem_cons, List.not_mem_nil, false_imp_iff, implies_true, and_true]
    norm_num

/-- Non-vacuity: a matrix of three rows, the middle one empty. -/
example : Compressed exSparse ∧ (⟨fun _ => none, fun _ => true⟩ : Disk).writable "Q.txt".toList = true ∧
    EntryAt exSparse 0 3 (-1234567) ∧ EntryAt exSparse 1 1 0 :=
  ⟨exSparse_ok, rfl, Or.inl ⟨_, rfl, by simp⟩, Or.inr ⟨fun l h y => by cases h; simp, rfl⟩⟩

/-- **C91.** A path that cannot be opened leaves all files as they were. -/
theorem C91_unwritable {k : Disk} {path : Str} (hw : k.writable path = false) (M : Sparse) :
    ∀ p, (writeSparseMatrixToFile k M path).file p = k.file p := by
  intro p
  unfold writeSparseMatrixToFile
  rw [hw]
  rfl

/-- **C91.** The size is not in the file: rows without stored entries at the end, and the number of columns, leave no
trace. -/
theorem C91_size (k : Disk) (path : Str) (M : Sparse) (extra c : Nat) (p : Str) :
    (writeSparseMatrixToFile k ⟨M.rows + extra, c, M.outer ++ List.replicate extra []⟩ path).file p =
      (writeSparseMatrixToFile k M path).file p := by
  have key : ∀ (ls : List (List (Nat × ℝ))) i, sparseRows i (ls ++ List.replicate extra []) = sparseRows i ls := by
    intro ls
    induction ls with
    | nil =>
      intro i
      rw [List.nil_append]
      induction extra generalizing i with
      | zero => rfl
      | succ n ih =>
        rw [List.replicate_succ]
        exact ih (i + 1)
    | cons l ls ih =>
      intro i
      rw [List.cons_append, sparseRows, sparseRows, ih]
  unfold writeSparseMatrixToFile
  rw [key]

/-- Non-vacuity: the larger matrix is a matrix too. -/
example : Compressed ⟨3 + 2, 7, exSparse.outer ++ List.replicate 2 []⟩ where
  rows := rfl
  sorted := by simp [exSparse, List.replicate_succ]
  cols := by
    simp only [exSparse, List.replicate_succ, List.replicate_zero, List.cons_append, List.nil_append,
      List.forall_mem_cons, List.not_mem_nil, false_imp_iff, implies_true, and_true]
    norm_num

end Dpgo.Props
