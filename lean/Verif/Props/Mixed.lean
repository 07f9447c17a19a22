import Verif.Props.MainSpace
import Verif.Lemmas.Mixed

/-!
# Files that mix dimensions (C93)

The format allows planar and spatial edges in one file, and the reader takes them.  The dimension of the problem is that
of the first edge; the sizes of the others are tested when they enter the pose graph.  An edge between poses that are
joined already is dropped before this test, though the chordal initialisation still reads it.
-/

namespace Dpgo.Props

open Res Text Spec Spec.G2o Example

variable {es : List Entry} {ls : List (List Char)} {text name prog : Str} {files : Files}

/-- **C93, partial.** A well-formed file in which an edge has another dimension than the first one makes all four
programs abort, provided that no earlier edge joins the same poses in the same direction.  The full claim, for all
`Mixed` files, fails: `C93_violated`. -/
theorem C93_refused_partial (o : AgentOracles) (so : SolverOracles) (oc : OptOracles) (q : Options)
    (junk : Nat → Nat → ℝ) (hf : files name = some text) (hl : FileOf ls text) (hw : List.Forall₂ Written es ls)
    (hu : ∀ e ∈ es, Usable e) (hs : ∀ p ∈ endsOf es, p.1 < 2 ^ 32 ∧ p.2 < 2 ^ 32) (hm : MixedNew es)
    (more : List Str) :
    mainChordal o files [prog, name] = abort ∧ mainSingle o files (prog :: name :: more) = abort ∧
    mainGnc so files (prog :: name :: more) = abort ∧
    ∀ N w, 0 < N → N < 2 ^ 31 → IndexText N w → mainMulti o oc q junk files (prog :: w :: name :: more) = abort := by
  obtain ⟨D, n, e, hS, -, -⟩ := C58_wellformed_partial hl hw hu
  rw [← hf] at e
  have hcen : centralGraph D = abort := by
    unfold centralGraph
    rcases mixed_central hS hs hm (dimensionOf D) with h | ⟨g, h1, h2⟩
    · simp only [h]
      rfl
    · simp only [h1, ok_bind, h2]
  refine ⟨?_, ?_, ?_, fun N w h0 h1 hw => ?_⟩
  · unfold mainChordal chordalProgram
    simp only [e, ok_bind, hcen, abort_bind]
  · unfold mainSingle singleProgram
    simp only [e, ok_bind, hcen, abort_bind]
  · unfold mainGnc gncProgram
    simp only [e, ok_bind, hcen, abort_bind, Res.check]
    split <;> rfl
  · have := atoi_digits hw (rest := []) (by simp) h1
    rw [List.append_nil] at this
    unfold mainMulti
    simp only [this, e, ok_bind]
    rw [if_neg (by omega)]
    unfold demo demoLoop demoStart
    rcases mixed_central hS hs hm q.r with h | ⟨g, h1, h2⟩
    · simp only [h, abort_bind]
    · simp only [h1, ok_bind, h2, abort_bind]

theorem exAbove_usable (i j k s c : Nat) (hi : i < 2 ^ 53) (hj : j < 2 ^ 53) : Usable (exAbove i j k s c) := by
  obtain ⟨e1, e2⟩ := exAbove_info k s c
  refine ⟨hi, hj, ?_, ?_, ?_, ?_⟩
  · rw [e1]; simp
  · rw [e1]; simp
  · rw [e2]; simp
  · rw [e2]; simp

/-- A planar edge from 0 to 1, then one in space from 1 to 2. -/
example (o : AgentOracles) (so : SolverOracles) (oc : OptOracles) (q : Options) (junk : Nat → Nat → ℝ) :
    mainChordal o (fun _ => some (exEdgeText ++ '\n' :: (exAboveText '1' '2' '1' '1' '0' ++ ['\n'])))
      ["chordal".toList, "mixed.g2o".toList] = abort := by
  have hl : FileOf [exEdgeText, exAboveText '1' '2' '1' '1' '0']
      (exEdgeText ++ '\n' :: (exAboveText '1' '2' '1' '1' '0' ++ ['\n'])) := by
    refine ⟨?_, Or.inl ?_⟩
    · simp only [List.forall_mem_cons]
      exact ⟨by decide, by decide, by simp⟩
    · simp only [unlines, List.flatMap_cons, List.flatMap_nil, List.append_assoc, List.cons_append, List.nil_append]
  have hm : MixedNew [exEdgeEntry, exAbove 1 2 1 1 0] := by
    refine ⟨[], exEdgeEntry, [], exAbove 1 2 1 1 0, [], rfl, by simp, rfl, rfl, ?_, ?_⟩
    · change 2 ≠ 3
      decide
    · intro x hx
      simp only [List.mem_singleton] at hx
      subst hx
      change some (0, 1) ≠ some (1, 2)
      decide
  refine (C93_refused_partial (files := fun _ => some _) (name := "mixed.g2o".toList) o so oc q junk rfl hl
    (.cons exEdge_written (.cons (exAbove_written (i := '1') (j := '2') (k := '1') (s := '1') (c := '0') rfl rfl rfl rfl
      rfl (by decide)) .nil)) ?_ ?_ hm []).1
  · simp only [List.forall_mem_cons]
    exact ⟨exEdge_usable, exAbove_usable _ _ _ _ _ (by decide) (by decide), by simp⟩
  · intro p hp
    have : p ∈ [(0, 1), (1, 2)] := hp
    revert p
    decide

/-- A spatial edge from 0 to 1 and a planar one between the same poses. -/
theorem exRepeat : FileOf [exAboveText '0' '1' '1' '1' '0', exEdgeText]
      (exAboveText '0' '1' '1' '1' '0' ++ '\n' :: (exEdgeText ++ ['\n'])) ∧
    List.Forall₂ Written [exAbove 0 1 1 1 0, exEdgeEntry] [exAboveText '0' '1' '1' '1' '0', exEdgeText] ∧
    ∀ e ∈ [exAbove 0 1 1 1 0, exEdgeEntry], Usable e := by
  refine ⟨⟨?_, Or.inl ?_⟩, ?_, ?_⟩
  · simp only [List.forall_mem_cons]
    exact ⟨by decide, by decide, by simp⟩
  · simp only [unlines, List.flatMap_cons, List.flatMap_nil, List.append_assoc, List.cons_append, List.nil_append]
  · exact .cons (exAbove_written (i := '0') (j := '1') (k := '1') (s := '1') (c := '0') rfl rfl rfl rfl rfl (by decide))
      (.cons exEdge_written .nil)
  · simp only [List.forall_mem_cons]
    exact ⟨exAbove_usable _ _ _ _ _ (by norm_num) (by norm_num), exEdge_usable, by simp⟩

/-- **C93, violated.** A spatial edge from 0 to 1 followed by a planar one between the same poses: every line is well
formed, the pose graph drops the second edge unseen, and the chordal initialisation reads rows and columns of it that
do not exist. -/
theorem C93_violated : ∃ es ls text, FileOf ls text ∧ List.Forall₂ Written es ls ∧ (∀ e ∈ es, Usable e) ∧
    (∀ p ∈ endsOf es, p.1 < 2 ^ 32 ∧ p.2 < 2 ^ 32) ∧ Mixed es ∧
    ∀ (o : AgentOracles) (files : Files) (prog name : Str), files name = some text →
      mainChordal o files [prog, name] = ub := by
  obtain ⟨hl, hw, hu⟩ := exRepeat
  refine ⟨_, _, _, hl, hw, hu, ?_, ⟨[], exAbove 0 1 1 1 0, [], exEdgeEntry, [], rfl, by simp, rfl, rfl, ?_⟩, ?_⟩
  · intro p hp
    have : p ∈ [(0, 1), (0, 1)] := hp
    revert p
    decide
  · change 3 ≠ 2
    decide
  · intro o files prog name hf
    obtain ⟨D, n, e, hS, -, -⟩ := C58_wellformed_partial hl hw hu
    rw [← hf] at e
    have hS : List.Forall₂ Says [exAbove 0 1 1 1 0, exEdgeEntry] D := hS
    obtain ⟨m0, D', h0, hS', rfl⟩ := List.forall₂_cons_left_iff.1 hS
    obtain ⟨m1, D'', h1, hn, rfl⟩ := List.forall₂_cons_left_iff.1 hS'
    cases hn
    obtain ⟨r1, r2, p1, p2, tr, tc, -, Rr, Rc, -⟩ := h0
    obtain ⟨s1, s2, q1, q2, tr', -⟩ := h1
    obtain ⟨g, hg⟩ := repeated_central r1 r2 p1 p2 tr tc Rr Rc s1 s2 q1 q2
    unfold mainChordal chordalProgram
    simp only [e, ok_bind, hg]
    have : chordalInitialization o.svd o.qr [m0, m1] = ub := by
      unfold chordalInitialization getDimensionAndNumPoses constructBMatrices bMatricesOf
      simp [tr, tc, tr', measReadable, Res.check, Res.require]
    rw [this]
    rfl

/-- **C93.** When the first edge is spatial and another one planar, repeated or not, the chordal example never prints a
number: it aborts, or it reads beyond the planar edge. -/
theorem C93_spatial_first (o : AgentOracles) (hf : files name = some text) (hl : FileOf ls text)
    (hw : List.Forall₂ Written es ls) (hu : ∀ e ∈ es, Usable e) {a b : List Entry} {i j : Nat} {v : Fin 28 → ℝ}
    (he : es = a ++ .edge3 i j v :: b) (ha : ∀ x ∈ a, x = .vertex) (hb : ∃ i j v, .edge2 i j v ∈ b) :
    mainChordal o files [prog, name] = abort ∨ mainChordal o files [prog, name] = ub := by
  obtain ⟨D, n, e, hS, -, -⟩ := C58_wellformed_partial hl hw hu
  rw [← hf] at e
  have ha' : a.filter Entry.isEdge = [] := by
    rw [List.filter_eq_nil_iff]
    intro x hx
    rw [ha x hx]
    simp [Entry.isEdge]
  rw [he, List.filter_append, ha', List.nil_append, List.filter_cons_of_pos rfl] at hS
  have hone : ∀ x ∈ D, x.r1 = 0 ∧ x.r2 = 0 := by
    intro x hx
    obtain ⟨y, -, hy⟩ := forall₂_right_mem hS hx
    exact ⟨(says_shape hy).1, (says_shape hy).2.1⟩
  obtain ⟨m0, D', h0, hS', rfl⟩ := List.forall₂_cons_left_iff.1 hS
  obtain ⟨i', j', v', hin⟩ := hb
  obtain ⟨m, hm, hsm⟩ := forall₂_right_mem hS'.flip (List.mem_filter.2 ⟨hin, rfl⟩)
  have hsm : Says (.edge2 i' j' v') m := hsm
  have hc : chordalInitialization o.svd o.qr (m0 :: D') = ub :=
    chordal_planar (says_shape h0).2.2.2.1 (says_shape h0).2.2.2.2.1 hm (says_shape hsm).2.2.2.1
  unfold mainChordal chordalProgram
  simp only [e, ok_bind]
  rcases central_ends hone with hg | ⟨g, hg⟩
  · left
    simp only [hg, abort_bind]
  · right
    simp only [hg, ok_bind, hc]
    rfl

/-- Non-vacuity, on the file of `C93_violated`. -/
example (o : AgentOracles) :
    mainChordal o (fun _ => some (exAboveText '0' '1' '1' '1' '0' ++ '\n' :: (exEdgeText ++ ['\n']))) [[], []] = abort ∨
    mainChordal o (fun _ => some (exAboveText '0' '1' '1' '1' '0' ++ '\n' :: (exEdgeText ++ ['\n']))) [[], []] = ub :=
  C93_spatial_first (files := fun _ => some _) o rfl exRepeat.1 exRepeat.2.1 exRepeat.2.2 (a := []) rfl (by simp)
    ⟨0, 1, _, List.mem_singleton_self _⟩

end Dpgo.Props
