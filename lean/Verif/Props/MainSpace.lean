import Verif.Props.Rest

/-!
# A pose-graph file in three dimensions (C88, C90)

The theorems on files hold in two and three dimensions; the file below meets their hypotheses in three, with
rotations that are not the identity.
-/

namespace Dpgo.Props

open Matrix Res Text Spec Spec.G2o Example

/-- An edge in space: pose `j` is `k` above pose `i`, turned by the quaternion `(0, 0, s, c)`. -/
noncomputable def exAbove (i j k s c : Nat) : Entry :=
  .edge3 i j ![0, 0, k, 0, 0, s, c, 1, 0, 0, 0, 0, 0, 1, 0, 0, 0, 0, 1, 0, 0, 0, 1, 0, 0, 1, 0, 1]

/-- Its line. -/
def exAboveText (i j k s c : Char) : Str :=
  "EDGE_SE3:QUAT".toList ++ (' ' :: i :: ' ' :: j :: " 0 0".toList ++ (' ' :: k :: " 0 0".toList ++
    (' ' :: s :: ' ' :: c :: " 1 0 0 0 0 0 1 0 0 0 0 1 0 0 0 1 0 0 1 0 1".toList)))

theorem exAbove_written {i j k s c : Char} (hi : i.isDigit = true) (hj : j.isDigit = true) (hk : k.isDigit = true)
    (hs : s.isDigit = true) (hc : c.isDigit = true) (hn : '\n' ∉ exAboveText i j k s c) :
    Written (exAbove (i.toNat - '0'.toNat) (j.toNat - '0'.toNat) (k.toNat - '0'.toNat) (s.toNat - '0'.toNat)
      (c.toNat - '0'.toNat)) (exAboveText i j k s c) := by
  have sp : Blanks [' '] := by intro c hc; simp only [List.mem_singleton] at hc; subst hc; simp [Blank]
  have z : NumberText (0 : ℝ) ['0'] := by simpa using digit_number '0' (by decide)
  have o : NumberText (1 : ℝ) ['1'] := by simpa using digit_number '1' (by decide)
  refine ⟨[i], [j], [['0'], ['0'], [k], ['0'], ['0'], [s], [c], ['1'], ['0'], ['0'], ['0'], ['0'], ['0'], ['1'], ['0'],
    ['0'], ['0'], ['0'], ['1'], ['0'], ['0'], ['0'], ['1'], ['0'], ['0'], ['1'], ['0'], ['1']], digit_index i hi,
    digit_index j hj, ?_, ?_⟩
  · simp only [List.ofFn_succ, List.ofFn_zero]
    exact .cons z (.cons z (.cons (digit_number k hk) (.cons z (.cons z (.cons (digit_number s hs)
      (.cons (digit_number c hc) (.cons o (.cons z (.cons z (.cons z (.cons z (.cons z (.cons o (.cons z (.cons z
      (.cons z (.cons z (.cons o (.cons z (.cons z (.cons z (.cons o (.cons z (.cons z (.cons o (.cons z
      (.cons o .nil)))))))))))))))))))))))))))
  · refine ⟨[], _, by intro c hc; simp at hc, ?_, rfl, hn⟩
    have c : ∀ {w rest : List Char} {ws : List (List Char)}, Spaced ws rest → Spaced (w :: ws) ([' '] ++ (w ++ rest)) :=
      fun h => .cons sp (by simp) h
    exact c (c (c (c (c (c (c (c (c (c (c (c (c (c (c (c (c (c (c (c (c (c (c (c (c (c (c (c (c (c
      (.nil (by intro c t e; cases e)))))))))))))))))))))))))))))))

/-- A vertex in space. -/
def exHighText : Str := "VERTEX_SE3:QUAT 0 0 0 0 0 0 0 1".toList

/-- A vertex, the steps from 0 to 3, each with half a turn about the third axis, and an edge from 0 to 2. -/
def exSpaceText : Str :=
  exHighText ++ '\n' :: (exAboveText '0' '1' '1' '1' '0' ++ '\n' :: (exAboveText '1' '2' '1' '1' '0' ++
    '\n' :: (exAboveText '0' '2' '2' '0' '1' ++ '\n' :: (exAboveText '2' '3' '1' '1' '0' ++ ['\n']))))

/-- What the file says. -/
noncomputable def exSpaceEntries : List Entry :=
  [.vertex, exAbove 0 1 1 1 0, exAbove 1 2 1 1 0, exAbove 0 2 2 0 1, exAbove 2 3 1 1 0]

theorem exAbove_info (k s c : Nat) :
    tranInfo3 ![0, 0, (k : ℝ), 0, 0, s, c, 1, 0, 0, 0, 0, 0, 1, 0, 0, 0, 0, 1, 0, 0, 0, 1, 0, 0, 1, 0, 1] = 1 ∧
    rotInfo3 ![0, 0, (k : ℝ), 0, 0, s, c, 1, 0, 0, 0, 0, 0, 1, 0, 0, 0, 0, 1, 0, 0, 0, 1, 0, 0, 1, 0, 1] = 1 := by
  constructor
  · ext a b
    fin_cases a <;> fin_cases b <;> first | exact Matrix.one_apply_eq _ |>.symm | exact (Matrix.one_apply_ne (by decide)).symm
  · ext a b
    fin_cases a <;> fin_cases b <;> first | exact Matrix.one_apply_eq _ |>.symm | exact (Matrix.one_apply_ne (by decide)).symm

theorem exAbove_informed (i j k s c : Nat) : (exAbove i j k s c).Informed 3 := by
  obtain ⟨e1, e2⟩ := exAbove_info k s c
  refine ⟨rfl, ?_, ?_⟩
  · rw [e1]
    exact Matrix.PosDef.one
  · rw [e2]
    exact Matrix.PosDef.one

theorem exHigh_written : Written .vertex exHighText := by
  refine Or.inr ⟨[], [], " 0 0 0 0 0 0 0 1".toList, by intro c hc; simp at hc, .nil ?_, rfl, by decide⟩
  intro c t e
  have : c = ' ' := by
    have := congrArg List.head? e
    simpa using this.symm
  subst this
  simp [Blank]

set_option maxRecDepth 8000 in
theorem exSpace_file : GraphFile 3 4 exSpaceEntries exSpaceText where
  written := by
    refine ⟨[exHighText, exAboveText '0' '1' '1' '1' '0', exAboveText '1' '2' '1' '1' '0',
      exAboveText '0' '2' '2' '0' '1', exAboveText '2' '3' '1' '1' '0'], ⟨?_, Or.inl ?_⟩, ?_⟩
    · simp only [List.forall_mem_cons]
      exact ⟨by decide, by decide, by decide, by decide, by decide, by simp⟩
    · simp only [unlines, exSpaceText, List.flatMap_cons, List.flatMap_nil, List.append_assoc, List.cons_append,
        List.nil_append]
    refine .cons exHigh_written (.cons ?_ (.cons ?_ (.cons ?_ (.cons ?_ .nil))))
    · exact exAbove_written (i := '0') (j := '1') (k := '1') (s := '1') (c := '0') rfl rfl rfl rfl rfl (by decide)
    · exact exAbove_written (i := '1') (j := '2') (k := '1') (s := '1') (c := '0') rfl rfl rfl rfl rfl (by decide)
    · exact exAbove_written (i := '0') (j := '2') (k := '2') (s := '0') (c := '1') rfl rfl rfl rfl rfl (by decide)
    · exact exAbove_written (i := '2') (j := '3') (k := '1') (s := '1') (c := '0') rfl rfl rfl rfl rfl (by decide)
  informed e he := by
    simp only [exSpaceEntries, List.mem_cons, List.not_mem_nil, or_false] at he
    rcases he with rfl | rfl | rfl | rfl | rfl
    · trivial
    all_goals exact exAbove_informed _ _ _ _ _
  noSelf p hp := by
    have : p ∈ [(0, 1), (1, 2), (0, 2), (2, 3)] := hp
    revert p
    decide
  below p hp := by
    have : p ∈ [(0, 1), (1, 2), (0, 2), (2, 3)] := hp
    revert p
    decide
  chain := rfl
  two := by norm_num
  small := by norm_num

/-- Half a turn about the third axis for every other pose. -/
def exTurns (i : Nat) : Matrix (Fin 3) (Fin 3) ℝ := if i % 2 = 0 then 1 else !![-1, 0, 0; 0, -1, 0; 0, 0, 1]

theorem exSpace_exact (D : List (Meas ℝ)) (h : List.Forall₂ Says (exSpaceEntries.filter Entry.isEdge) D) :
    NoiseFree 3 4 D exTurns (fun i => ![0, 0, (i : ℝ)]) := by
  have key : ∀ m ∈ D, ∃ i j k s c, j = i + k ∧ Says (exAbove i j k s c) m ∧
      (s = 1 ∧ c = 0 ∧ k % 2 = 1 ∨ s = 0 ∧ c = 1 ∧ k % 2 = 0) := by
    intro m hm
    obtain ⟨x, hx, rfl⟩ := List.getElem_of_mem hm
    have hl := h.length_eq
    have hs := (List.forall₂_iff_get.1 h).2 x (by omega) hx
    simp only [List.get_eq_getElem] at hs
    have hmem := List.getElem_mem (l := exSpaceEntries.filter Entry.isEdge) (n := x) (by omega)
    generalize (exSpaceEntries.filter Entry.isEdge)[x]'(by omega) = e at hs hmem
    have hmem := List.mem_filter.1 hmem
    simp only [exSpaceEntries, List.mem_cons, List.not_mem_nil, or_false] at hmem
    rcases hmem with ⟨rfl | rfl | rfl | rfl | rfl, h2⟩
    · cases h2
    · exact ⟨0, 1, 1, 1, 0, rfl, hs, by simp⟩
    · exact ⟨1, 2, 1, 1, 0, rfl, hs, by simp⟩
    · exact ⟨0, 2, 2, 0, 1, rfl, hs, by simp⟩
    · exact ⟨2, 3, 1, 1, 0, rfl, hs, by simp⟩
  have hR : ∀ m ∈ D, m.R.toMat 3 3 = exTurns (m.p2 - m.p1) ∧ m.p1 ≤ m.p2 ∧ m.t.v 0 0 = 0 ∧ m.t.v 1 0 = 0 ∧
      m.t.v 2 0 = ((m.p2 - m.p1 : Nat) : ℝ) ∧ 0 < m.kappa ∧ 0 < m.tau := by
    intro m hm
    obtain ⟨i, j, k, s, c, hk, ⟨-, -, p1, p2, -, -, ht, -, -, hR, htau, hkap, -⟩, hsc⟩ := key m hm
    obtain ⟨e1, e2⟩ := exAbove_info k s c
    rw [e1] at htau
    rw [e2] at hkap
    have ek : m.p2 - m.p1 = k := by omega
    refine ⟨?_, by omega, congrFun (congrFun ht 0) 0, congrFun (congrFun ht 1) 0, ?_, ?_, ?_⟩
    · rw [ek]
      refine hR.trans ?_
      change quatMatrix 0 0 (s : ℝ) (c : ℝ) + (1 - (0 ^ 2 + 0 ^ 2 + (s : ℝ) ^ 2 + (c : ℝ) ^ 2)) • 1 = _
      unfold exTurns
      rcases hsc with ⟨rfl, rfl, hk2⟩ | ⟨rfl, rfl, hk2⟩
      · rw [if_neg (by omega)]
        ext a b
        fin_cases a <;> fin_cases b <;> simp [quatMatrix]
      · rw [if_pos hk2]
        ext a b
        fin_cases a <;> fin_cases b <;> simp [quatMatrix]
    · rw [ek]
      exact congrFun (congrFun ht 2) 0
    · rw [hkap]
      simp
    · rw [htau]
      simp
  have hZ : (!![-1, 0, 0; 0, -1, 0; 0, 0, 1] : Matrix (Fin 3) (Fin 3) ℝ) * !![-1, 0, 0; 0, -1, 0; 0, 0, 1] = 1 := by
    ext a b
    fin_cases a <;> fin_cases b <;> simp [Matrix.mul_apply, Fin.sum_univ_three]
  have hmul : ∀ i k : Nat, exTurns (i + k) = exTurns i * exTurns k := by
    intro i k
    unfold exTurns
    rcases Nat.mod_two_eq_zero_or_one i with hi | hi <;> rcases Nat.mod_two_eq_zero_or_one k with hk | hk <;>
      simp [Nat.add_mod, hi, hk, hZ]
  refine ⟨fun m hm => ?_, fun i _ => ?_, fun m hm => ?_, fun m hm => ?_⟩
  · obtain ⟨-, -, -, -, -, h1, h2⟩ := hR m hm
    exact ⟨h1, h2⟩
  · unfold exTurns
    split
    · exact ⟨by simp, by simp⟩
    · refine ⟨?_, by simp [Matrix.det_fin_three]⟩
      ext a b
      fin_cases a <;> fin_cases b <;> simp [Matrix.mul_apply, Fin.sum_univ_three]
  · obtain ⟨h1, h2, -⟩ := hR m hm
    rw [h1, ← hmul, Nat.add_sub_cancel' h2]
  · obtain ⟨-, h2, t0, t1, t2, -⟩ := hR m hm
    have hcol : colV 3 m.t = ![0, 0, ((m.p2 - m.p1 : Nat) : ℝ)] := by
      ext a
      fin_cases a
      · exact t0
      · exact t1
      · exact t2
    have hmv : exTurns m.p1 *ᵥ ![0, 0, ((m.p2 - m.p1 : Nat) : ℝ)] = ![0, 0, ((m.p2 - m.p1 : Nat) : ℝ)] := by
      unfold exTurns
      split
      · simp
      · ext a
        fin_cases a <;> simp [Matrix.mulVec, dotProduct, Fin.sum_univ_three]
    rw [hcol, hmv]
    ext a
    fin_cases a
    · simp
    · simp
    · show (m.p2 : ℝ) = m.p1 + ((m.p2 - m.p1 : Nat) : ℝ)
      rw [Nat.cast_sub h2]
      ring

/-- Non-vacuity of C88 and C90 in three dimensions: on this file the first two programs print 0, and the multi-robot
example with two robots prints one line, with cost 0 and gradient norm 0. -/
example : ∃ (o : AgentOracles) (files : Files) (s : LoopState), files "space.g2o".toList = some exSpaceText ∧
    mainChordal o files ["chordal".toList, "space.g2o".toList] = ok (.done 0) ∧
    mainSingle o files ["single".toList, "space.g2o".toList] = ok (.done 0) ∧
    mainMulti o exOpt Options.shipped (fun _ _ => 7) files ["multi".toList, "2".toList, "space.g2o".toList] =
      ok (.done s) ∧ s.lines = [⟨0, 0, 0, 0⟩] := by
  obtain ⟨svd, hs⟩ := exists_lawfulSvd
  obtain ⟨qr, hq⟩ := exists_lawfulLsq
  have ho : LawfulLsq (exDemo svd qr).qr := hq
  have hs' : LawfulSvd (exDemo svd qr).svd := hs
  have hr : ∀ c, LawfulRtr ((exDemo svd qr).opt c) := fun _ => exOpt_lawful
  have hz : KeepsZero exOpt := fun _ _ _ _ => rfl
  have hY : OrthoCols ((exDemo svd qr).stiefel 3 5) := by
    have : (exDemo svd qr).stiefel 3 5 = Matrix.of fun (a : Fin 5) (c : Fin 3) => if a.1 = c.1 then 1 else 0 := rfl
    rw [this]
    unfold OrthoCols
    ext i j
    fin_cases i <;> fin_cases j <;> simp [Matrix.mul_apply, Fin.sum_univ_five]
  obtain ⟨h1, h2⟩ := C88_exact (o := exDemo svd qr) (files := fun _ => some exSpaceText) (prog := "chordal".toList)
    (name := "space.g2o".toList) exSpace_file rfl hs' ho hr exSpace_exact []
  obtain ⟨-, h3⟩ := C88_exact (o := exDemo svd qr) (files := fun _ => some exSpaceText) (prog := "single".toList)
    (name := "space.g2o".toList) exSpace_file rfl hs' ho hr exSpace_exact []
  obtain ⟨s, e, h⟩ := C90_program (o := exDemo svd qr) (oc := exOpt) (q := Options.shipped)
    (files := fun _ => some exSpaceText) (prog := "multi".toList) (name := "space.g2o".toList) exSpace_file rfl hs' ho hY
    hr hz (N := 2) (by norm_num) (by norm_num) (by norm_num) (by norm_num [Options.shipped])
    (by norm_num [Options.shipped]) (by norm_num [Options.shipped]) exSpace_exact (w := ['2']) (rest := [])
    (digit_index '2' (by decide)) (by simp) (fun _ _ => 7) []
  exact ⟨exDemo svd qr, fun _ => some exSpaceText, s, rfl, h1, h3, e, h⟩

end Dpgo.Props
