import Verif.Lemmas.G2oShort
import Verif.Props.G2o

/-! # C58: edge lines that end before the second endpoint -/

namespace Dpgo.Props

open Res Text Spec Spec.G2o

/-- **C58.** A line that consists of the keyword of an edge repeats the edge before. -/
theorem C58_keyword_only {kw : String} (hk : kw = "EDGE_SE2" ∨ kw = "EDGE_SE3:QUAT") {ls : List (List Char)}
    {l t : List Char} (hn : ∀ x ∈ ls ++ [l], '\n' ∉ x) (hl : FirstWord kw.toList l) (ht : LoneKeyword kw t)
    {ms : List (Meas ℝ)} {n : Nat} (h : G2o.readG2o (some (unlines (ls ++ [l]))) = ok (ms, n)) :
    ∃ init m, ms = init ++ [m] ∧ G2o.readG2o (some (unlines (ls ++ [l] ++ [t]))) = ok (init ++ [m, m], n) := by
  obtain ⟨s, hr, rfl, rfl⟩ := G2o.read_ok ⟨hn, Or.inl rfl⟩ h
  obtain ⟨s1, h1, h2⟩ := G2o.foldl_append_ok hr
  have tok : s.token = kw.toList := by
    rw [(G2o.step_ok h2).1]
    exact G2o.firstToken_first hl (hn l (by simp)) _
  obtain ⟨m, ho, hs⟩ := G2o.step_keyword hk h2 tok ht
  refine ⟨s1.out, m, ho, ?_⟩
  rw [G2o.read_of ⟨?_, Or.inl rfl⟩ ((G2o.foldl_snoc hr).trans hs), ho, List.append_assoc]
  · simp
  · intro x hx
    rcases List.mem_append.1 hx with hx | hx
    · exact hn x hx
    · rw [List.mem_singleton.1 hx]; exact G2o.keyword_newline hk ht

/-- **C58.** A line that ends after the first endpoint takes the second one, and all data, from the edge before. -/
theorem C58_one_end {kw : String} (hk : kw = "EDGE_SE2" ∨ kw = "EDGE_SE3:QUAT") {ls : List (List Char)}
    {l t : List Char} (hn : ∀ x ∈ ls ++ [l], '\n' ∉ x) (hl : FirstWord kw.toList l) {i : Nat} (hi : i < 2 ^ 53)
    (ht : LoneEnd kw i t) {ms : List (Meas ℝ)} {n : Nat} (hb : ∀ m ∈ ms, m.p2 < 2 ^ 53)
    (h : G2o.readG2o (some (unlines (ls ++ [l]))) = ok (ms, n)) :
    ∃ init m n', ms = init ++ [m] ∧ G2o.readG2o (some (unlines (ls ++ [l] ++ [t]))) =
      ok (init ++ [m, { m with p1 := i, fixedWeight := decide ((i + 1) % 2 ^ 64 = m.p2) }], n') := by
  obtain ⟨s, hr, rfl, rfl⟩ := G2o.read_ok ⟨hn, Or.inl rfl⟩ h
  obtain ⟨s1, h1, h2⟩ := G2o.foldl_append_ok hr
  have tok : s.token = kw.toList := by
    rw [(G2o.step_ok h2).1]
    exact G2o.firstToken_first hl (hn l (by simp)) _
  obtain ⟨m, ho, hs⟩ := G2o.step_end hk h2 tok hi ht
  obtain ⟨s'', hs, ho'⟩ := hs (hb m (by rw [ho]; simp))
  refine ⟨s1.out, m, (s''.numPoses + 1) % 2 ^ 64, ho, ?_⟩
  rw [G2o.read_of ⟨?_, Or.inl rfl⟩ ((G2o.foldl_snoc hr).trans hs), ho', ho, List.append_assoc]
  · rfl
  · intro x hx
    rcases List.mem_append.1 hx with hx | hx
    · exact hn x hx
    · rw [List.mem_singleton.1 hx]; exact G2o.end_newline hk ht

/-- An edge line from pose 0 to pose 1 followed by `EDGE_SE2 7`: the file is read as two edges to pose 1. -/
example : ∃ m m' n, G2o.readG2o (some (unlines ([] ++ [exEdgeText] ++ ["EDGE_SE2 7".toList]))) = ok ([m, m'], n) ∧
    m.p1 = 0 ∧ m.p2 = 1 ∧ m'.p1 = 7 ∧ m'.p2 = 1 ∧ m'.tau = m.tau := by
  have sp : Blanks [' '] := by intro c hc; simp only [List.mem_singleton] at hc; subst hc; simp [Blank]
  have em : Blanks [] := by intro c hc; simp at hc
  obtain ⟨ms, n, h, hs, -, -⟩ := C58_wellformed_partial (ls := [exEdgeText]) (es := [exEdgeEntry])
    (text := unlines [exEdgeText]) ⟨by decide, Or.inl rfl⟩ (.cons exEdge_written .nil)
    (by
      intro e he
      rw [List.mem_singleton.1 he]
      exact exEdge_usable)
  rw [show ([exEdgeEntry] : List Entry).filter Entry.isEdge = [exEdgeEntry] from rfl] at hs
  cases hs with
  | @cons _ m _ _ hm hs =>
    cases hs
    obtain ⟨-, -, p1, p2, -⟩ := hm
    have hf : FirstWord "EDGE_SE2".toList exEdgeText := by
      rcases exEdge_first with hf | hf
      · exact hf
      · have a := G2o.firstToken_first hf (by decide) []
        exact absurd a (by decide)
    obtain ⟨init, m₁, n', h1, h2⟩ := C58_one_end (kw := "EDGE_SE2") (ls := []) (l := exEdgeText) (i := 7) (Or.inl rfl)
      (by decide) hf (by norm_num)
      ⟨[], [' '], [], ['7'], em, sp, em, by simp, digit_index '7' (by decide), rfl⟩
      (by intro x hx; rw [List.mem_singleton.1 hx, p2]; norm_num) h
    obtain ⟨rfl, rfl⟩ : init = [] ∧ m₁ = m := by
      cases init with
      | nil => simpa using h1.symm
      | cons x l => simp at h1
    exact ⟨_, _, n', h2, p1, p2, rfl, p2, rfl⟩

/-- A line with the keyword only. -/
example : LoneKeyword "EDGE_SE2" "EDGE_SE2".toList := by
  have em : Blanks [] := by intro c hc; simp at hc
  exact ⟨[], [], em, em, by decide⟩

end Dpgo.Props
