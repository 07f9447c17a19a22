import Verif.Props.G2o
import Verif.Lemmas.G2oRound

/-!
# Large and unreadable endpoints in g2o files (C58, continued)

The indices pass through `double` on the way to the number of poses; an endpoint that is not a number is replaced by
zero, and the rest of the line by the line before.
-/

namespace Dpgo.Props

open Res Spec Spec.G2o

/-- **C58.** For every file with measurements that is read, whatever the indices, the number of poses is one more than
the largest endpoint after each has been replaced by a nearest `double`; the addition does not wrap. -/
theorem C58_rounded_count (file : Option (List Char)) {ms : List (Meas ℝ)} {n : Nat}
    (h : G2o.readG2o file = ok (ms, n)) (hne : ms ≠ []) :
    ∃ v, n = v + 1 ∧ IsDouble v ∧ (∃ m ∈ ms, NearestDouble m.p1 v ∨ NearestDouble m.p2 v) ∧
      ∀ m ∈ ms, ∃ a b, NearestDouble m.p1 a ∧ NearestDouble m.p2 b ∧ a ≤ v ∧ b ≤ v := by
  have h' : G2o.readG2o (some (file.getD [])) = ok (ms, n) := h
  obtain ⟨s, h1, rfl, rfl⟩ := G2o.read_ok (G2o.fileOf_lines _) h'
  obtain ⟨c1, -, c3, c4⟩ : G2o.Counts s := G2o.foldl_inv (fun _ _ _ => G2o.counts_step)
    (s := G2o.start) ⟨by simp [G2o.start], fun _ => rfl, fun h => absurd rfl h, by norm_num [G2o.start]⟩ h1
  obtain ⟨m, hm, e⟩ := c3 hne
  have hd : NearestDouble m.p1 s.numPoses ∨ NearestDouble m.p2 s.numPoses := by
    rcases e with e | e <;> rw [← e]
    · exact Or.inl (G2o.toDouble_nearest _)
    · exact Or.inr (G2o.toDouble_nearest _)
  have hv : IsDouble s.numPoses := by rcases hd with h | h <;> exact h.1
  exact ⟨s.numPoses, Nat.mod_eq_of_lt (G2o.isDouble_succ hv c4), hv, ⟨m, hm, hd⟩, fun x hx =>
    ⟨_, _, G2o.toDouble_nearest _, G2o.toDouble_nearest _, (c1 x hx).1, (c1 x hx).2⟩⟩

/-- A file to which it applies, with an endpoint that no `double` holds. -/
example : ∃ m n, G2o.readG2o (some "EDGE_SE2 0 9007199254740993 1 0 0 1 0 0 1 0 2".toList) = ok ([m], n) ∧
    ¬ IsDouble m.p2 := by
  obtain ⟨m, n, h, e, -⟩ := C58_large_index
  refine ⟨m, n, h, ?_⟩
  rw [e]
  rintro ⟨a, k, ha, hk⟩
  rcases k with _ | k
  · simp only [pow_zero, mul_one] at hk
    omega
  · have e2 : a * 2 ^ (k + 1) = 2 * (a * 2 ^ k) := by ring
    omega

/-- Above `2^54` the doubles are multiples of four: `2^54 + 3` can only be rounded up. -/
example : ∀ v, NearestDouble (2 ^ 54 + 3) v → v = 2 ^ 54 + 4 := by
  rintro v ⟨⟨a, k, ha, rfl⟩, h⟩
  have h4 := h (2 ^ 54 + 4) ⟨2 ^ 52 + 1, 2, by norm_num, by norm_num⟩
  rcases k with _ | _ | k
  · simp only [pow_zero, mul_one] at h4
    omega
  · simp only [zero_add, pow_one] at h4
    omega
  · have e : a * 2 ^ (k + 1 + 1) = 4 * (a * 2 ^ k) := by ring
    rw [e] at h4 ⊢
    omega

/-- **C58.** An edge line whose first endpoint is not a number, after an edge line of the same kind, is not refused: it
adds the edge before once more, but from pose `0`. -/
theorem C58_word {kw : String} (hk : kw = "EDGE_SE2" ∨ kw = "EDGE_SE3:QUAT") {ls : List (List Char)}
    {l t : List Char} (hn : ∀ x ∈ ls ++ [l] ++ [t], '\n' ∉ x) (hl : FirstWord kw.toList l) (ht : WordLine kw t)
    {ms : List (Meas ℝ)} {n : Nat} (h : G2o.readG2o (some (unlines (ls ++ [l]))) = ok (ms, n)) :
    ∃ init m n', ms = init ++ [m] ∧ G2o.readG2o (some (unlines (ls ++ [l] ++ [t]))) =
      ok (init ++ [m, { m with p1 := 0, fixedWeight := decide (m.p2 = 1) }], n') := by
  obtain ⟨s, hr, rfl, rfl⟩ := G2o.read_ok ⟨fun x hx => hn x (List.mem_append_left _ hx), Or.inl rfl⟩ h
  obtain ⟨s1, h1, h2⟩ := G2o.foldl_append_ok hr
  have tok : s.token = kw.toList := by
    rw [(G2o.step_ok h2).1]
    exact G2o.firstToken_first hl (hn l (by simp)) _
  obtain ⟨m, s'', ho, hs, ho'⟩ := G2o.step_word hk h2 tok ht (hn t (by simp))
  refine ⟨s1.out, m, (s''.numPoses + 1) % 2 ^ 64, ho, ?_⟩
  rw [G2o.read_of ⟨hn, Or.inl rfl⟩ ((G2o.foldl_snoc hr).trans hs), ho', ho, List.append_assoc]
  rfl

/-- An edge from a pose with a name. -/
example : WordLine "EDGE_SE2" "EDGE_SE2 a 1 1 0 0 1 0 0 1 0 2".toList := by
  refine ⟨[], [' '], 'a', " 1 1 0 0 1 0 0 1 0 2".toList, by intro c hc; simp at hc, ?_, by simp, ?_, by decide,
    by decide, by decide, by decide⟩
  · intro c hc
    rw [List.mem_singleton.1 hc]
    simp [Blank]
  · unfold Blank
    decide

/-- Both lines together: the second edge is the first again. -/
example : ∃ m n, G2o.readG2o (some (unlines ([] ++ [exEdgeText] ++ ["EDGE_SE2 a 7".toList]))) = ok ([m, m], n) := by
  obtain ⟨ms, n, h, hs, -⟩ := C58_wellformed_partial (ls := [] ++ [exEdgeText]) (es := [exEdgeEntry])
    ⟨by decide, Or.inl rfl⟩ (.cons exEdge_written .nil)
    (by intro e he; rw [List.mem_singleton.1 he]; exact exEdge_usable)
  have ef : ([exEdgeEntry] : List Entry).filter Entry.isEdge = [exEdgeEntry] := rfl
  rw [ef] at hs
  cases hs with
  | @cons _ m _ _ hm hs =>
    cases hs
    have hw : WordLine "EDGE_SE2" "EDGE_SE2 a 7".toList := by
      refine ⟨[], [' '], 'a', " 7".toList, by intro c hc; simp at hc, ?_, by simp, ?_, by decide, by decide, by decide,
        by decide⟩
      · intro c hc
        rw [List.mem_singleton.1 hc]
        simp [Blank]
      · unfold Blank
        decide
    have hf : FirstWord "EDGE_SE2".toList exEdgeText := by
      rcases exEdge_first with h | h
      · exact h
      · exact absurd (G2o.firstToken_first h (by decide) []) (by decide)
    obtain ⟨init, m', n', e, h'⟩ := C58_word (Or.inl rfl) (by decide) hf hw h
    have hi : init = [] := by
      have := congrArg List.length e
      simp only [List.length_singleton, List.length_append] at this
      exact List.length_eq_zero_iff.1 (by omega)
    subst hi
    simp only [List.nil_append, List.cons.injEq, and_true] at e
    subst e
    refine ⟨m, n', h'.trans ?_⟩
    obtain ⟨-, -, hp1, hp2, -, -, -, -, -, -, -, -, hfix, -⟩ := hm
    have hf1 : m.fixedWeight = true := hfix.2 rfl
    have em : { m with p1 := 0, fixedWeight := decide (m.p2 = 1) } = m := by
      cases m
      simp only at hp1 hp2 hf1
      subst hp1 hp2 hf1
      rfl
    rw [em]
    rfl

/-- **C58.** A file with an edge line whose first endpoint does not fit into 64 bits is never read to the end. -/
theorem C58_huge {kw : String} (hk : kw = "EDGE_SE2" ∨ kw = "EDGE_SE3:QUAT") {ls : List (List Char)}
    {text : List Char} (hf : FileOf ls text) {l : List Char} (hl : l ∈ ls) (h : HugeLine kw l) :
    ∀ r, G2o.readG2o (some text) ≠ ok r := by
  rintro ⟨ms, n⟩ hr
  obtain ⟨s, hr, -, -⟩ := G2o.read_ok hf hr
  obtain ⟨s1, s2, h'⟩ := G2o.foldl_mem hl hr
  exact G2o.step_huge hk h s1 s2 h'

/-- `2^64` does not fit. -/
example : HugeLine "EDGE_SE2" "EDGE_SE2 18446744073709551616 1 1 0 0 1 0 0 1 0 2".toList := by
  refine ⟨[], [' '], "18446744073709551616".toList, 18446744073709551616, " 1 1 0 0 1 0 0 1 0 2".toList,
    by intro c hc; simp at hc, ?_, by simp, ⟨by decide, by decide, by decide⟩, by norm_num, ?_, by decide⟩
  · intro c hc
    rw [List.mem_singleton.1 hc]
    simp [Blank]
  · intro c t e
    have : c = ' ' := by
      have := congrArg List.head? e
      simpa using this.symm
    subst this
    simp [Blank]

end Dpgo.Props
