import Verif.Lemmas.G2oRot
import Verif.Spec.Chordal
import Verif.Props.Partition

/-!
# Reading pose-graph files (C58)

The property "exactly one measurement per edge line" fails for files with blank lines and with truncated lines
(`C58_violated`, `C58_blank_line`, `C58_truncated`).  It holds for well-formed files (`C58_wellformed_partial`);
`C58_count` gives the exact number of measurements for every file that is read.
-/

namespace Dpgo.Props

open Res Text Spec Spec.G2o

/-! ### Two lines for the examples -/

theorem digit_number (c : Char) (hc : c.isDigit = true) : NumberText ((c.toNat - '0'.toNat : Nat) : ℝ) [c] := by
  refine ⟨⟨none, [c], none, none⟩, ⟨by simp, by simpa using hc, by simp [Numeral.fracDigits], by simp⟩, rfl, ?_⟩
  simp [Numeral.value, Numeral.signValue, Numeral.digitsValue, Numeral.fracDigits, Numeral.expValue]

theorem digit_index (c : Char) (hc : c.isDigit = true) : IndexText (c.toNat - '0'.toNat) [c] :=
  ⟨by simp, by simpa using hc, by simp [Numeral.digitsValue]⟩

/-- An edge line: pose 1 is one step ahead of pose 0. -/
def exEdgeText : List Char := "EDGE_SE2 0 1 1 0 0 1 0 0 1 0 2".toList

/-- What it says. -/
noncomputable def exEdgeEntry : Entry := .edge2 0 1 ![1, 0, 0, 1, 0, 0, 1, 0, 2]

theorem exEdge_written : Written exEdgeEntry exEdgeText := by
  have sp : Blanks [' '] := by intro c hc; simp only [List.mem_singleton] at hc; subst hc; simp [Blank]
  have z : NumberText (0 : ℝ) ['0'] := by simpa using digit_number '0' (by decide)
  have o : NumberText (1 : ℝ) ['1'] := by simpa using digit_number '1' (by decide)
  have t : NumberText (2 : ℝ) ['2'] := by simpa using digit_number '2' (by decide)
  refine ⟨['0'], ['1'], [['1'], ['0'], ['0'], ['1'], ['0'], ['0'], ['1'], ['0'], ['2']], digit_index '0' (by decide),
    digit_index '1' (by decide), ?_, ?_⟩
  · simp only [List.ofFn_succ, List.ofFn_zero]
    refine .cons o (.cons z (.cons z (.cons o (.cons z (.cons z (.cons o (.cons z (.cons t .nil))))))))
  · refine ⟨[], " 0 1 1 0 0 1 0 0 1 0 2".toList, by intro c hc; simp at hc, ?_, by decide, by decide⟩
    have c : ∀ {w rest : List Char} {ws : List (List Char)}, Spaced ws rest → Spaced (w :: ws) ([' '] ++ (w ++ rest)) :=
      fun h => .cons sp (by simp) h
    exact c (c (c (c (c (c (c (c (c (c (c (.nil (by intro c t e; cases e))))))))))))

theorem exEdge_usable : Usable exEdgeEntry := by
  have e : tranInfo2 ![1, 0, 0, 1, 0, 0, 1, 0, 2] = 1 := by
    ext i j
    fin_cases i <;> fin_cases j <;> simp [tranInfo2]
  refine ⟨by norm_num, by norm_num, ?_, ?_⟩
  · rw [e]; simp
  · rw [e]; simp

/-- A vertex line. -/
def exVertexText : List Char := "VERTEX_SE2 0 0 0 0".toList

theorem exVertex_written : Written .vertex exVertexText := by
  refine Or.inl ⟨[], [], " 0 0 0 0".toList, by intro c hc; simp at hc, .nil ?_, by decide, by decide⟩
  intro c t e
  have : c = ' ' := by
    have := congrArg List.head? e
    simpa using this.symm
  subst this
  simp [Blank]

/-! ### Well-formed files -/

/-- **C58.** A file of written lines (vertices and edges of either kind, any blanks between the words, any trailing
text, last newline or not) whose information matrices can be inverted is read as stated: one measurement per edge,
in order, each with the endpoints, translation, rotation, precisions and flag of its line; the number of poses is
one more than the largest index (and `1` when there is no edge).

Missing: blank lines, truncated lines and lines of other types, for which the property fails (below). -/
theorem C58_wellformed_partial {es : List Entry} {ls : List (List Char)} {text : List Char} (hf : FileOf ls text)
    (hw : List.Forall₂ Written es ls) (hu : ∀ e ∈ es, Usable e) :
    ∃ ms n, G2o.readG2o (some text) = ok (ms, n) ∧ List.Forall₂ Says (es.filter Entry.isEdge) ms ∧
      (ms ≠ [] → NumPoses ms n) ∧ (ms = [] → n = 1) := by
  obtain ⟨s, ms, h1, ho, hs, hb⟩ := G2o.run_written hw hu G2o.start
  have ho : s.out = ms := ho
  have hfit : G2o.Fits s := G2o.foldl_inv (fun _ _ _ => G2o.fits_step)
    (s := G2o.start) ⟨by simp [G2o.start], fun _ => rfl, fun _ h => absurd rfl h⟩ h1
  refine ⟨ms, _, (G2o.read_of hf h1).trans (by rw [ho]), hs, ?_, ?_⟩
  · intro hne
    obtain ⟨a, m, hm, b⟩ := hfit.2.2 (by rw [ho]; exact hb) (by rw [ho]; exact hne)
    rw [ho] at a hm
    have := hb m hm
    rw [Nat.mod_eq_of_lt (by omega)]
    refine ⟨fun x hx => ?_, m, hm, by omega⟩
    have := a x hx
    omega
  · intro he
    rw [hfit.2.1 (by rw [ho]; exact he)]
    rfl

/-- A vertex, an edge and a vertex, without the last newline. -/
example : ∃ m, G2o.readG2o (some "VERTEX_SE2 0 0 0 0\nEDGE_SE2 0 1 1 0 0 1 0 0 1 0 2\nVERTEX_SE2 0 0 0 0".toList) =
    ok ([m], 2) ∧ m.p1 = 0 ∧ m.p2 = 1 ∧ m.tau = 1 ∧ m.kappa = 2 ∧ m.fixedWeight = true := by
  obtain ⟨ms, n, h, hs, hn, -⟩ := C58_wellformed_partial
    (ls := [exVertexText, exEdgeText, exVertexText]) (es := [.vertex, exEdgeEntry, .vertex])
    (text := "VERTEX_SE2 0 0 0 0\nEDGE_SE2 0 1 1 0 0 1 0 0 1 0 2\nVERTEX_SE2 0 0 0 0".toList)
    ⟨by decide, Or.inr ⟨[exVertexText, exEdgeText], exVertexText, by decide, rfl, by decide⟩⟩
    (.cons exVertex_written (.cons exEdge_written (.cons exVertex_written .nil)))
    (by
      intro e he
      simp only [List.mem_cons, List.not_mem_nil, or_false] at he
      rcases he with rfl | rfl | rfl
      · trivial
      · exact exEdge_usable
      · trivial)
  have ef : ([.vertex, exEdgeEntry, .vertex] : List Entry).filter Entry.isEdge = [exEdgeEntry] := rfl
  rw [ef] at hs
  cases hs with
  | @cons _ m _ _ hm hs =>
    cases hs
    have hN := hn (by simp)
    obtain ⟨-, -, p1, p2, -, -, -, -, -, -, tau, kappa, fixed, -⟩ := hm
    have e : tranInfo2 ![1, 0, 0, 1, 0, 0, 1, 0, 2] = 1 := by
      ext i j
      fin_cases i <;> fin_cases j <;> simp [tranInfo2]
    rw [e] at tau
    obtain ⟨a, x, hx, b⟩ := hN
    simp only [List.mem_singleton] at hx
    subst hx
    have := a x (by simp)
    have hn2 : n = 2 := by omega
    subst hn2
    refine ⟨x, h, p1, p2, by rw [tau]; norm_num, by rw [kappa]; simp, fixed.2 rfl⟩

/-- **C58.** Planar edges carry rotations; in space the matrix is the rotation of the quaternion of the line when
that has unit length. -/
theorem C58_rotation {e : Entry} {m : Meas ℝ} (h : Says e m) :
    (∀ i j v, e = .edge2 i j v → IsRot (m.R.toMat 2 2)) ∧
      ∀ i j v, e = .edge3 i j v → v 3 ^ 2 + v 4 ^ 2 + v 5 ^ 2 + v 6 ^ 2 = 1 →
        m.R.toMat 3 3 = quatMatrix (v 3) (v 4) (v 5) (v 6) ∧ IsRot (m.R.toMat 3 3) := by
  constructor
  · rintro i j v rfl
    obtain ⟨-, -, -, -, -, -, -, -, -, hR, -⟩ := h
    rw [hR]
    exact G2o.planar_isRot _
  · rintro i j v rfl hq
    obtain ⟨-, -, -, -, -, -, -, -, -, hR, -⟩ := h
    have e : m.R.toMat 3 3 = quatMatrix (v 3) (v 4) (v 5) (v 6) := by rw [hR, hq]; simp
    exact ⟨e, by rw [e]; exact G2o.quat_isRot hq⟩

/-- **C58.** A quaternion that is not of unit length (and turns at all) is read as a matrix that is not a
rotation: nothing normalises it. -/
theorem C58_not_rotation {i j : Nat} {v : Fin 28 → ℝ} {m : Meas ℝ} (h : Says (.edge3 i j v) m)
    (h1 : v 3 ^ 2 + v 4 ^ 2 + v 5 ^ 2 ≠ 0) (h2 : v 3 ^ 2 + v 4 ^ 2 + v 5 ^ 2 + v 6 ^ 2 ≠ 1) :
    ¬ IsRot (m.R.toMat 3 3) := by
  obtain ⟨-, -, -, -, -, -, -, -, -, hR, -⟩ := h
  rintro ⟨ho, -⟩
  have := G2o.quat_trace (v 3) (v 4) (v 5) (v 6)
  rw [← hR, ho] at this
  simp only [Matrix.trace_one, Fintype.card_fin] at this
  have : (v 3 ^ 2 + v 4 ^ 2 + v 5 ^ 2) * (v 3 ^ 2 + v 4 ^ 2 + v 5 ^ 2 + v 6 ^ 2 - 1) = 0 := by
    push_cast at this
    linarith
  rcases mul_eq_zero.1 this with h | h
  · exact h1 h
  · exact h2 (by linarith)

/-- Twice a unit quaternion. -/
example : ∃ (v : Fin 28 → ℝ) (m : Meas ℝ), Says (.edge3 0 1 v) m ∧ v 3 ^ 2 + v 4 ^ 2 + v 5 ^ 2 ≠ 0 ∧
    v 3 ^ 2 + v 4 ^ 2 + v 5 ^ 2 + v 6 ^ 2 ≠ 1 := by
  let v : Fin 28 → ℝ := ![0, 0, 0, 2, 0, 0, 0, 1, 0, 0, 0, 0, 0, 1, 0, 0, 0, 0, 1, 0, 0, 0, 1, 0, 0, 1, 0, 1]
  refine ⟨v, ⟨0, 0, 0, 1, ⟨3, 3, fun a b => if h : a < 3 ∧ b < 3 then
      (quatMatrix (v 3) (v 4) (v 5) (v 6) +
        (1 - (v 3 ^ 2 + v 4 ^ 2 + v 5 ^ 2 + v 6 ^ 2)) • (1 : Matrix (Fin 3) (Fin 3) ℝ)) ⟨a, h.1⟩ ⟨b, h.2⟩ else 0⟩,
    ⟨3, 1, fun _ _ => 0⟩, 3 / (2 * (rotInfo3 v)⁻¹.trace), 3 / (tranInfo3 v)⁻¹.trace, true, 1⟩, ?_, ?_, ?_⟩
  · refine ⟨rfl, rfl, rfl, rfl, rfl, rfl, ?_, rfl, rfl, ?_, rfl, rfl, by simp, rfl⟩
    · ext a b
      fin_cases a <;> fin_cases b <;> simp [DMat.toMat, v]
    · ext a b
      simp [DMat.toMat]
  · simp [v]
  · simp [v]; norm_num

/-! ### Every file -/

open Classical in
/-- **C58.** The exact number of measurements for every file that is read: one for every line that is an edge line
or a blank line whose last non-blank line is an edge line. -/
theorem C58_count {ls : List (List Char)} {text : List Char} (hf : FileOf ls text) {ms : List (Meas ℝ)} {n : Nat}
    (h : G2o.readG2o (some text) = ok (ms, n)) :
    ms.length = (List.range ls.length).countP fun k => decide (Repeats ls k) := by
  obtain ⟨s, h1, rfl, -⟩ := G2o.read_ok hf h
  exact (G2o.count_lines hf.1 h1).1

open Classical in
/-- **C58.** Without blank lines, one measurement per edge line, whatever else the lines contain. -/
theorem C58_count_partial {ls : List (List Char)} {text : List Char} (hf : FileOf ls text)
    (hb : ∀ l ∈ ls, ¬ Blanks l) {ms : List (Meas ℝ)} {n : Nat} (h : G2o.readG2o (some text) = ok (ms, n)) :
    ms.length = ls.countP fun l => decide (EdgeLine l) := by
  rw [C58_count hf h]
  exact G2o.countP_range _ _ _ fun k hk => G2o.repeats_no_blanks hb hk

/-- Every text is a file, so the theorems about files speak about every text. -/
theorem C58_every_text (text : List Char) : ∃ ls, FileOf ls text := ⟨_, G2o.fileOf_lines text⟩

/-- **C58.** For every file that is read, all endpoints belong to one robot, all weights are one, and with indices
below `2^53` the number of poses is one more than the largest index, `1` without measurements. -/
theorem C58_numPoses (file : Option (List Char)) {ms : List (Meas ℝ)} {n : Nat}
    (h : G2o.readG2o file = ok (ms, n)) :
    (∀ m ∈ ms, m.r1 = 0 ∧ m.r2 = 0 ∧ m.weight = 1) ∧ (ms = [] → n = 1) ∧
      ((∀ m ∈ ms, m.p1 < 2 ^ 53 ∧ m.p2 < 2 ^ 53) → ms ≠ [] → NumPoses ms n) := by
  have h' : G2o.readG2o (some (file.getD [])) = ok (ms, n) := h
  obtain ⟨s, h1, rfl, rfl⟩ := G2o.read_ok (G2o.fileOf_lines _) h'
  obtain ⟨f1, f2, f3⟩ : G2o.Fits s := G2o.foldl_inv (fun _ _ _ => G2o.fits_step)
    (s := G2o.start) ⟨by simp [G2o.start], fun _ => rfl, fun _ h => absurd rfl h⟩ h1
  refine ⟨f1, fun he => by rw [f2 he]; rfl, fun hb hne => ?_⟩
  obtain ⟨a, m, hm, b⟩ := f3 hb hne
  have := hb m hm
  rw [Nat.mod_eq_of_lt (by omega)]
  refine ⟨fun x hx => ?_, m, hm, by omega⟩
  have := a x hx
  omega

/-- **C58, C59.** What the example program does with a file: whatever is read can be partitioned over the robots,
and no edge is lost. -/
theorem C58_partition (file : Option (List Char)) {ms : List (Meas ℝ)} {n : Nat}
    (h : G2o.readG2o file = ok (ms, n)) (hb : ∀ m ∈ ms, m.p1 < 2 ^ 53 ∧ m.p2 < 2 ^ 53) (hn : n < 2 ^ 32) {N : Nat}
    (hN : 0 < N) (hNn : N ≤ n) :
    ∃ M s, Example.partition (N : Int) n ms = ok (M, s) ∧
      2 * (s.odometry.map List.length).sum + 2 * (s.privateLcs.map List.length).sum +
        (s.sharedLcs.map List.length).sum = 2 * ms.length := by
  have hD : ∀ m ∈ ms, EndsBelow n m := by
    intro m hm
    exact ((C58_numPoses file h).2.2 hb (List.ne_nil_of_mem hm)).1 m hm
  obtain ⟨M, s, -, e, -⟩ := C59_edges N n hN hNn hn ms hD
  exact ⟨M, s, e, C59_count N n hN hNn hn ms hD M s e⟩

/-- **C58.** A line that is neither blank nor of a known type prevents any result. -/
theorem C58_unknown {ls : List (List Char)} {text : List Char} (hf : FileOf ls text) {l : List Char} (hl : l ∈ ls)
    (h1 : ¬ Blanks l) (h2 : ¬ KnownLine l) : ∀ r, G2o.readG2o (some text) ≠ ok r := by
  rintro ⟨ms, n⟩ h
  obtain ⟨s, h, -, -⟩ := G2o.read_ok hf h
  obtain ⟨s1, s2, h'⟩ := G2o.foldl_mem hl h
  rw [G2o.step_unknown (hf.1 l hl) h1 h2] at h'
  cases h'

/-- **C58.** After lines that can be read, such a line ends the program (`LOG(FATAL)`). -/
theorem C58_unknown_abort {ls : List (List Char)} {l : List Char} (hn : ∀ x ∈ ls ++ [l], '\n' ∉ x)
    (h1 : ¬ Blanks l) (h2 : ¬ KnownLine l) {r : List (Meas ℝ) × Nat}
    (h : G2o.readG2o (some (unlines ls)) = ok r) (rest : List (List Char)) (hr : ∀ x ∈ rest, '\n' ∉ x) :
    G2o.readG2o (some (unlines (ls ++ [l] ++ rest))) = abort := by
  obtain ⟨s, h, -, -⟩ := G2o.read_ok (n := r.2) (ms := r.1) ⟨fun x hx => hn x (by simp [hx]), Or.inl rfl⟩ h
  rw [G2o.read_eq ⟨?_, Or.inl rfl⟩]
  · rw [G2o.foldl_abort (G2o.foldl_snoc h |>.trans (G2o.step_unknown (hn l (by simp)) h1 h2 s))]
    rfl
  · intro x hx
    rcases List.mem_append.1 hx with hx | hx
    · exact hn x hx
    · exact hr x hx

/-- A comment line. -/
example : ¬ Blanks "# comment".toList ∧ ¬ KnownLine "# comment".toList := by
  have hn : '\n' ∉ "# comment".toList := by decide
  have ft : (G2o.firstToken [] "# comment".toList).1 = "#".toList := by decide
  refine ⟨fun h => absurd (h '#' (by decide)) (by unfold Blank; decide), ?_⟩
  rintro ((h | h) | h | h) <;>
  · have := G2o.firstToken_first h hn []
    rw [ft] at this
    exact absurd this (by decide)

/-! ### Violations -/

/-- **C58.** A blank line after an edge line adds a copy of that edge: reading goes on with the words of the line
before. -/
theorem C58_blank_line {ls : List (List Char)} {l b : List Char} (hn : ∀ x ∈ ls ++ [l], '\n' ∉ x)
    (hl : EdgeLine l) (hb : Blanks b) {ms : List (Meas ℝ)} {n : Nat}
    (h : G2o.readG2o (some (unlines (ls ++ [l]))) = ok (ms, n)) :
    ∃ init m, ms = init ++ [m] ∧ G2o.readG2o (some (unlines (ls ++ [l] ++ [b]))) = ok (init ++ [m, m], n) := by
  obtain ⟨s, hr, rfl, rfl⟩ := G2o.read_ok ⟨hn, Or.inl rfl⟩ h
  obtain ⟨s1, h1, h2⟩ := G2o.foldl_append_ok hr
  have hnl := hn l (by simp)
  have ht : s.token = G2o.kwEdge2 ∨ s.token = G2o.kwEdge3 := by
    rw [(G2o.step_ok h2).1]
    refine (G2o.edge_token hnl ?_ _).1 hl
    rcases hl with hl | hl <;> exact G2o.not_blanks_of_first hl
  obtain ⟨m, ho, hs⟩ := G2o.step_blank h2 ht hb
  have hb' : '\n' ∉ b := fun hc => absurd (hb _ hc) (by unfold Blank; decide)
  refine ⟨s1.out, m, ho, ?_⟩
  rw [G2o.read_of ⟨?_, Or.inl rfl⟩ ((G2o.foldl_snoc hr).trans hs), ho, List.append_assoc]
  · rfl
  · intro x hx
    rcases List.mem_append.1 hx with hx | hx
    · exact hn x hx
    · rw [List.mem_singleton.1 hx]; exact hb'

theorem exEdge_first : EdgeLine exEdgeText := by
  refine Or.inl ⟨[], " 0 1 1 0 0 1 0 0 1 0 2".toList, by intro c hc; simp at hc, ?_, by decide, ?_, by decide⟩
  · intro c t e
    have : c = ' ' := by
      have := congrArg List.head? e
      simpa using this.symm
    subst this
    simp [Blank]
  · unfold Blank
    decide

theorem exEdge_read : ∃ m n, G2o.readG2o (some (unlines ([] ++ [exEdgeText]))) = ok ([m], n) := by
  obtain ⟨ms, n, h, hs, -⟩ := C58_wellformed_partial (ls := [] ++ [exEdgeText]) (es := [exEdgeEntry])
    ⟨by decide, Or.inl rfl⟩ (.cons exEdge_written .nil)
    (by intro e he; rw [List.mem_singleton.1 he]; exact exEdge_usable)
  have ef : ([exEdgeEntry] : List Entry).filter Entry.isEdge = [exEdgeEntry] := rfl
  rw [ef] at hs
  cases hs with
  | @cons _ m _ _ hm hs =>
    cases hs
    exact ⟨m, n, h⟩

open Classical in
/-- **C58 fails.** One edge line and an empty line give two measurements. -/
theorem C58_violated : ¬ ∀ (ls : List (List Char)) (text : List Char) (ms : List (Meas ℝ)) (n : Nat), FileOf ls text →
    G2o.readG2o (some text) = ok (ms, n) → ms.length = ls.countP fun l => decide (EdgeLine l) := by
  intro hall
  obtain ⟨m, n, h⟩ := exEdge_read
  have hb : Blanks [] := by intro c hc; simp at hc
  obtain ⟨init, m', e, h'⟩ := C58_blank_line (by decide) exEdge_first hb h
  have hi : init = [] := by
    have := congrArg List.length e
    simp only [List.length_singleton, List.length_append] at this
    exact List.length_eq_zero_iff.1 (by omega)
  subst hi
  have := hall _ _ _ _ ⟨by decide, Or.inl rfl⟩ h'
  have ne : ¬ EdgeLine [] := by
    rintro (h | h) <;> exact G2o.not_blanks_of_first h hb
  simp [exEdge_first, ne] at this

/-- **C58.** A line that ends after the endpoints takes translation, rotation and precisions of the edge before. -/
theorem C58_truncated {kw : String} (hk : kw = "EDGE_SE2" ∨ kw = "EDGE_SE3:QUAT") {ls : List (List Char)}
    {l t : List Char} (hn : ∀ x ∈ ls ++ [l], '\n' ∉ x) (hl : FirstWord kw.toList l) {i j : Nat} (hi : i < 2 ^ 53)
    (hj : j < 2 ^ 53) (ht : BareEdge kw i j t) {ms : List (Meas ℝ)} {n : Nat}
    (h : G2o.readG2o (some (unlines (ls ++ [l]))) = ok (ms, n)) :
    ∃ init m n', ms = init ++ [m] ∧ G2o.readG2o (some (unlines (ls ++ [l] ++ [t]))) =
      ok (init ++ [m, { m with p1 := i, p2 := j, fixedWeight := decide ((i + 1) % 2 ^ 64 = j) }], n') := by
  obtain ⟨s, hr, rfl, rfl⟩ := G2o.read_ok ⟨hn, Or.inl rfl⟩ h
  obtain ⟨s1, h1, h2⟩ := G2o.foldl_append_ok hr
  have tok : s.token = kw.toList := by
    rw [(G2o.step_ok h2).1]
    exact G2o.firstToken_first hl (hn l (by simp)) _
  have hnt := G2o.bare_newline hk ht
  have key : ∃ m s'', s.out = s1.out ++ [m] ∧ G2o.step s t = ok s'' ∧ s''.out = s.out ++
      [{ m with p1 := i, p2 := j, fixedWeight := decide ((i + 1) % 2 ^ 64 = j) }] := by
    rcases hk with rfl | rfl
    · exact G2o.step_bare2 h2 tok hi hj ht
    · exact G2o.step_bare3 h2 tok hi hj ht
  obtain ⟨m, s'', ho, hs, ho'⟩ := key
  refine ⟨s1.out, m, (s''.numPoses + 1) % 2 ^ 64, ho, ?_⟩
  rw [G2o.read_of ⟨?_, Or.inl rfl⟩ ((G2o.foldl_snoc hr).trans hs), ho', ho, List.append_assoc]
  · rfl
  · intro x hx
    rcases List.mem_append.1 hx with hx | hx
    · exact hn x hx
    · rw [List.mem_singleton.1 hx]; exact hnt

/-- **C58.** Without an edge before it, such a line computes with variables that were never set. -/
theorem C58_truncated_first {kw : String} (hk : kw = "EDGE_SE2" ∨ kw = "EDGE_SE3:QUAT") {i j : Nat} (hi : i < 2 ^ 53)
    (hj : j < 2 ^ 53) {t : List Char} (ht : BareEdge kw i j t) (rest : List (List Char))
    (hr : ∀ x ∈ rest, '\n' ∉ x) : G2o.readG2o (some (unlines (t :: rest))) = ub := by
  rw [G2o.read_eq ⟨?_, Or.inl rfl⟩]
  · rw [Res.foldl, G2o.step_bare_first hk rfl hi hj ht]
    rfl
  · intro x hx
    rcases List.mem_cons.1 hx with rfl | hx
    · exact G2o.bare_newline hk ht
    · exact hr x hx

/-- A line with endpoints only. -/
example : BareEdge "EDGE_SE2" 1 2 "EDGE_SE2 1 2".toList := by
  have sp : Blanks [' '] := by intro c hc; simp only [List.mem_singleton] at hc; subst hc; simp [Blank]
  have em : Blanks [] := by intro c hc; simp at hc
  exact ⟨[], [' '], [' '], [], ['1'], ['2'], em, sp, sp, em, by simp, by simp, digit_index '1' (by decide),
    digit_index '2' (by decide), by decide⟩

/-- **C58.** A file that begins with a blank line ends the program. -/
theorem C58_first_blank {b : List Char} (hb : Blanks b) (rest : List (List Char)) (hr : ∀ x ∈ rest, '\n' ∉ x) :
    G2o.readG2o (some (unlines (b :: rest))) = abort := by
  rw [G2o.read_eq ⟨?_, Or.inl rfl⟩]
  · rw [Res.foldl]
    have : G2o.step G2o.start b = abort := by
      unfold G2o.step
      simp only [G2o.firstToken_blanks hb, G2o.start]
      rw [if_neg (by decide), if_neg (by decide), if_neg (by decide)]
    rw [this]
    rfl
  · intro x hx
    rcases List.mem_cons.1 hx with rfl | hx
    · exact fun hc => absurd (hb _ hc) (by unfold Blank; decide)
    · exact hr x hx

/-- **C58.** Indices pass through `double`: for an edge to pose `2^53 + 1` the number of poses is one less than it
should be, so the endpoint lies outside. -/
theorem C58_large_index : ∃ m n,
    G2o.readG2o (some "EDGE_SE2 0 9007199254740993 1 0 0 1 0 0 1 0 2".toList) = ok ([m], n) ∧ m.p2 = 2 ^ 53 + 1 ∧
      ¬ EndsBelow n m ∧ ¬ NumPoses [m] n := by
  have sp : Blanks [' '] := by intro c hc; simp only [List.mem_singleton] at hc; subst hc; simp [Blank]
  have em : Blanks [] := by intro c hc; simp at hc
  have hwj : IndexText 9007199254740993 "9007199254740993".toList := by
    exact ⟨by decide, by decide, by decide⟩
  have ap : ∀ r : List Char, Apart (' ' :: r) := by
    intro r c t e
    simp only [List.cons.injEq] at e
    rw [← e.1]
    simp [Blank]
  let tail : List Char := " 1 0 0 1 0 0 1 0 2".toList
  have htail : Spaced [['1'], ['0'], ['0'], ['1'], ['0'], ['0'], ['1'], ['0'], ['2']] tail := by
    have c : ∀ {w rest : List Char} {ws : List (List Char)}, Spaced ws rest → Spaced (w :: ws) ([' '] ++ (w ++ rest)) :=
      fun h => .cons sp (by simp) h
    exact c (c (c (c (c (c (c (c (c (.nil (by intro c t e; cases e))))))))))
  have hvs : List.Forall₂ NumberText (List.ofFn (![1, 0, 0, 1, 0, 0, 1, 0, 2] : Fin 9 → ℝ))
      [['1'], ['0'], ['0'], ['1'], ['0'], ['0'], ['1'], ['0'], ['2']] := by
    have z : NumberText (0 : ℝ) ['0'] := by simpa using digit_number '0' (by decide)
    have o : NumberText (1 : ℝ) ['1'] := by simpa using digit_number '1' (by decide)
    have t : NumberText (2 : ℝ) ['2'] := by simpa using digit_number '2' (by decide)
    simp only [List.ofFn_succ, List.ofFn_zero]
    exact .cons o (.cons z (.cons z (.cons o (.cons z (.cons z (.cons o (.cons z (.cons t .nil))))))))
  have hr := G2o.pullRegs_eq (rs := G2o.regs2) (by decide) (by rw [List.length_ofFn]; rfl) hvs htail G2o.start.reg
  obtain ⟨m, hm, -⟩ := G2o.edge2_says (i := 0) (j := 1) exEdge_usable hr
  have hm' := (G2o.edge2_ok hm).2.2.2.2.2 0 9007199254740993
  have step := G2o.step_edge2 (s := G2o.start) (l := "EDGE_SE2 0 9007199254740993 1 0 0 1 0 0 1 0 2".toList)
    (rest := " 0 9007199254740993 1 0 0 1 0 0 1 0 2".toList) (i := 0) (j := 9007199254740993)
    (ss1 := some " 9007199254740993 1 0 0 1 0 0 1 0 2".toList) (ss2 := some tail)
    (G2o.firstToken_word em (w := "EDGE_SE2".toList) (by decide) (by decide) (ap _) [])
    (by
      have := G2o.extractNat_eq (b := [' ']) (w := ['0']) (rest := " 9007199254740993 1 0 0 1 0 0 1 0 2".toList) sp
        (digit_index '0' (by decide)) (by decide) (ap _)
      exact congrArg (fun r => match r with
        | .ended => (none, none) | .failed a => (some a, none) | .got a rest => (some a, some rest)) this)
    (by
      have := G2o.extractNat_eq (b := [' ']) (rest := tail) sp hwj (by decide) (ap _)
      exact congrArg (fun r => match r with
        | .ended => (none, none) | .failed a => (some a, none) | .got a rest => (some a, some rest)) this)
    hm' (v := 2 ^ 53) (show G2o.maxPair 0 9007199254740993 = ok (2 ^ 53) by rfl)
  have hread := G2o.read_of (text := "EDGE_SE2 0 9007199254740993 1 0 0 1 0 0 1 0 2".toList)
    (ls := [] ++ ["EDGE_SE2 0 9007199254740993 1 0 0 1 0 0 1 0 2".toList])
    ⟨by decide, Or.inr ⟨[], _, by decide, rfl, rfl⟩⟩ ((G2o.foldl_snoc (s := G2o.start) rfl).trans step)
  refine ⟨_, _, hread, rfl, ?_, ?_⟩
  · rintro ⟨-, h⟩
    exact absurd (show 9007199254740993 < (max 0 (2 ^ 53) + 1) % 2 ^ 64 from h) (by decide)
  · rintro ⟨h, -⟩
    exact absurd (show 9007199254740993 < (max 0 (2 ^ 53) + 1) % 2 ^ 64 from (h _ (List.mem_singleton.2 rfl)).2) (by decide)

/-- **C58.** An empty file and a file that cannot be opened are read without complaint, as one pose without
measurements. -/
theorem C58_no_file : G2o.readG2o none = ok ([], 1) ∧ G2o.readG2o (some []) = ok ([], 1) := ⟨rfl, rfl⟩

end Dpgo.Props
