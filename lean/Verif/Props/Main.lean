import Verif.Lemmas.Main
import Verif.Props.Demo
import Mathlib.Algebra.Order.Star.Real

/-!
# The example programs from the file to the result (C88)

The four programs of `examples/` on the text of a pose-graph file: what they compute refers to the edges written in
the file.
-/

namespace Dpgo.Props

open Res Text Spec Spec.G2o Example

section
variable {o : AgentOracles} {files : Files} {d n : Nat} {es : List Entry} {text prog name : Str}

/-- **C88.** A pose-graph file is read as the dataset it describes: one measurement per edge line, in order, each
saying what its line says, and with the properties the programs rely on. -/
theorem C88_dataset (h : GraphFile d n es text) :
    ∃ D, G2o.readG2o (some text) = ok (D, n) ∧ Dataset d n D ∧ List.Forall₂ Says (es.filter Entry.isEdge) D :=
  read_graph h

/-- **C88.** The chordal example prints twice the cost, over the edges of the file, of the chordal
initialisation. -/
theorem C88_chordal (h : GraphFile d n es text) (hf : files name = some text) (hq : LawfulLsq o.qr) :
    ∃ D T, List.Forall₂ Says (es.filter Entry.isEdge) D ∧ chordalInitialization o.svd o.qr D = ok T ∧
      ArrOk d d n T ∧ mainChordal o files [prog, name] = ok (.done (2 * pgoCost d D T)) := by
  obtain ⟨D, e, hD, hs⟩ := read_graph h
  obtain ⟨T, e1, hT, e2⟩ := C74_chordal (o := o) hD.toOneRobot hD.precise hq
  refine ⟨D, T, hs, e1, hT, ?_⟩
  unfold mainChordal
  simp only [hf, e, e2, ok_bind]

/-- **C88.** The single-robot example prints twice the cost, over the edges of the file, of a trajectory that is
no worse than the chordal initialisation. -/
theorem C88_single (h : GraphFile d n es text) (hf : files name = some text) (hq : LawfulLsq o.qr)
    (ho : ∀ k, LawfulRtr (o.opt k)) (more : List Str) :
    ∃ D T P, List.Forall₂ Says (es.filter Entry.isEdge) D ∧ ArrOk d d n T ∧
      chordalInitialization o.svd o.qr (odometryFirst D) = ok P ∧ pgoCost d D T ≤ pgoCost d D P ∧
      mainSingle o files (prog :: name :: more) = ok (.done (2 * pgoCost d D T)) := by
  obtain ⟨D, e, hD, hs⟩ := read_graph h
  obtain ⟨T, P, e1, hT, e2, hle⟩ := C74_single (o := o) hD h.two hq ho
  refine ⟨D, T, P, hs, hT, e2, hle, ?_⟩
  unfold mainSingle
  simp only [hf, e, e1, ok_bind]

/-- **C88.** If the edges of the file agree with a trajectory, both programs print 0. -/
theorem C88_exact (h : GraphFile d n es text) (hf : files name = some text) (hsvd : LawfulSvd o.svd)
    (hq : LawfulLsq o.qr) (ho : ∀ k, LawfulRtr (o.opt k)) {Rs : Nat → Matrix (Fin d) (Fin d) ℝ}
    {ts : Nat → Fin d → ℝ} (hx : ∀ D, List.Forall₂ Says (es.filter Entry.isEdge) D → NoiseFree d n D Rs ts)
    (more : List Str) :
    mainChordal o files [prog, name] = ok (.done 0) ∧ mainSingle o files (prog :: name :: more) = ok (.done 0) := by
  obtain ⟨D, e, hD, hs⟩ := read_graph h
  have hx := hx D hs
  have e1 := C74_chordal_exact (o := o) hD.toOneRobot hx (linked_dataset hD) hsvd hq
  have e2 := C74_single_exact (o := o) hD h.two hx hsvd hq ho
  unfold mainChordal mainSingle
  simp only [hf, e, e1, e2, ok_bind]
  exact ⟨trivial, trivial⟩

/-- **C88.** The robust example keeps the edges of the file and only changes their weights, within 0 and 1; edges
between consecutive poses keep weight 1.  It returns a trajectory whose cost under these weights is no larger than
that of the trajectory obtained by following the steps, unless the largest residual of its first
estimate is exactly 25/2, when the weights are not numbers. -/
theorem C88_gnc {so : SolverOracles} (h : GraphFile d n es text) (hf : files name = some text)
    (ho : ∀ k, LawfulRtr (so.opt k)) (more : List Str) :
    ∃ D P, List.Forall₂ Says (es.filter Entry.isEdge) D ∧
      (ArrOk d d n P ∧ rotM d d P 0 = 1 ∧ traV d d P 0 = 0 ∧
        ∀ m ∈ firstWins D, m.p1 + 1 = m.p2 → Satisfied d P m.p1 m.p2 m) ∧
      ((∃ T ms', mainGnc so files (prog :: name :: more) = ok (.done (T, ms')) ∧ ArrOk d d n T ∧
        List.Forall₂ SameButWeight D ms' ∧ (∀ m ∈ ms', 0 ≤ m.weight ∧ m.weight ≤ 1) ∧
        (∀ m ∈ ms', m.p1 + 1 = m.p2 → m.weight = 1) ∧ pgoCost d ms' T ≤ pgoCost d ms' P) ∨
      (mainGnc so files (prog :: name :: more) = nonfinite ∧ ∃ T rs,
        solvePGO so 0 gncParams.opt D (some P) = ok T ∧ pgoResiduals T D = ok rs ∧ 2 * maxCoeff rs = 25)) := by
  obtain ⟨D, e, hD, hs⟩ := read_graph h
  obtain ⟨P, hP, h0, h1, hch, hor⟩ := C74_gnc (o := so) hD h.two ho
  refine ⟨D, P, hs, ⟨hP, h0, h1, hch⟩, ?_⟩
  rcases hor with ⟨T, ms', e1, hT, hsame, hw, hle⟩ | ⟨e1, T, rs, e2, e3, e4⟩
  · refine Or.inl ⟨T, ms', ?_, hT, hsame, hw, gnc_consecutive hs e1, hle⟩
    unfold mainGnc
    simp only [hf, e, e1, ok_bind]
  · refine Or.inr ⟨?_, T, rs, e2, e3, e4⟩
    unfold mainGnc
    simp only [hf, e, e1, ok_bind]
    rfl

/-- **C88.** If the edges of the file agree with a trajectory, the robust example keeps all of them with weight 1 and
returns a trajectory that agrees with all of them. -/
theorem C88_gnc_exact {so : SolverOracles} (h : GraphFile d n es text) (hf : files name = some text)
    (ho : ∀ k, LawfulRtr (so.opt k)) {Rs : Nat → Matrix (Fin d) (Fin d) ℝ} {ts : Nat → Fin d → ℝ}
    (hx : ∀ D, List.Forall₂ Says (es.filter Entry.isEdge) D → NoiseFree d n D Rs ts) (more : List Str) :
    ∃ D T, List.Forall₂ Says (es.filter Entry.isEdge) D ∧ (∀ m ∈ D, m.weight = 1) ∧
      mainGnc so files (prog :: name :: more) = ok (.done (T, D)) ∧ ArrOk d d n T ∧
      ∀ m ∈ D, Satisfied d T m.p1 m.p2 m := by
  obtain ⟨D, e, hD, hs⟩ := read_graph h
  obtain ⟨T, e1, hT, hsat⟩ := C74_gnc_exact (o := so) hD h.two (hx D hs) ho
  refine ⟨D, T, hs, hD.unit, ?_, hT, hsat⟩
  unfold mainGnc
  simp only [hf, e, e1, ok_bind]

/-- **C88.** With at least two poses per robot the multi-robot example runs to its end on the file, for as many robots
as its first argument says (what follows the digits is ignored), and what it prints refers to the edges of the
file. -/
theorem C88_multi {oc : OptOracles} {q : Options} (h : GraphFile d n es text) (hf : files name = some text)
    (hq : LawfulLsq o.qr) {N : Nat} (hN : 0 < N) (hNn : 2 * N ≤ n) (hn : n * (d + 1) < 2 ^ 32) (hrd : d ≤ q.r)
    (hit : q.numIters < 2 ^ 32) {w rest : Str} (hw : IndexText N w) (hr : ∀ c t, rest = c :: t → c.isDigit = false)
    (junk : Nat → Nat → ℝ) (more : List Str) :
    ∃ D s, List.Forall₂ Says (es.filter Entry.isEdge) D ∧ Dataset d n D ∧ demo o oc q junk N n D = ok s ∧
      mainMulti o oc q junk files (prog :: (w ++ rest) :: name :: more) = ok (.done s) ∧
      s.lines.map (·.iter) = List.range s.lines.length ∧ (∀ l ∈ s.lines, l.robot < N) ∧
      ∀ l ∈ s.lines, ∃ X : DMat ℝ, l.cost = 2 * teamCost q.r d D fun _ => X := by
  obtain ⟨D, e, hD, hs⟩ := read_graph h
  have hsm := h.small
  have hacc : q.acceleration = true → u32 (2 * N) ≠ 0 := fun _ => by
    have : u32 (2 * N) = 2 * N := Nat.mod_eq_of_lt (by omega)
    omega
  obtain ⟨s, e1⟩ := C68_runs (o := o) (oc := oc) hN hNn hn hD hrd hacc hq hit junk
  obtain ⟨h1, -, h3, -⟩ := C68_output (o := o) (oc := oc) hN hNn hn hD hrd hacc hq hit junk e1
  refine ⟨D, s, hs, hD, e1, ?_, h1, h3, fun l hl => ?_⟩
  · unfold mainMulti
    simp only [atoi_digits hw hr (by omega), hf, e, ok_bind]
    rw [if_neg (by omega), e1]
    rfl
  · obtain ⟨k, hk, rfl⟩ := List.getElem_of_mem hl
    obtain ⟨sk, -, hc, -⟩ := C69_cost (o := o) (oc := oc) hN hNn hn hD hrd hacc hq hit junk e1
      (List.getElem?_eq_getElem hk)
    exact ⟨_, hc⟩

end

/-! ### Arguments -/

/-- **C88.** With the wrong number of arguments the programs stop with a message and do not look at any file. -/
theorem C88_usage (o : AgentOracles) (so : SolverOracles) (oc : OptOracles) (q : Options) (junk : Nat → Nat → ℝ)
    (files : Files) (argv : List Str) :
    (argv.length ≠ 2 → mainChordal o files argv = ok .refused) ∧
    (argv.length < 2 → mainSingle o files argv = ok .refused ∧ mainGnc so files argv = ok .refused) ∧
    (argv.length < 3 → mainMulti o oc q junk files argv = ok .refused) := by
  rcases argv with _ | ⟨a, _ | ⟨b, _ | ⟨c, l⟩⟩⟩ <;> simp [mainChordal, mainSingle, mainGnc, mainMulti]

/-- **C88.** A plus sign or blanks before the number of robots make no difference. -/
theorem C88_sign (o : AgentOracles) (oc : OptOracles) (q : Options) (junk : Nat → Nat → ℝ) (files : Files)
    (prog name : Str) (more : List Str) {N : Nat} {w rest : Str} (hw : IndexText N w)
    {c : Char} (hc : isSpace c = true) :
    mainMulti o oc q junk files (prog :: ('+' :: (w ++ rest)) :: name :: more) =
      mainMulti o oc q junk files (prog :: (w ++ rest) :: name :: more) ∧
    ∀ t, mainMulti o oc q junk files (prog :: (c :: t) :: name :: more) =
      mainMulti o oc q junk files (prog :: t :: name :: more) :=
  ⟨by simp only [mainMulti, atoi_plus hw], fun t => by simp only [mainMulti, atoi_blank hc]⟩

/-- **C88.** A number of robots beyond the range of `int`, as in `4294967298`, is undefined behaviour, whatever the
file. -/
theorem C88_overflow (o : AgentOracles) (oc : OptOracles) (q : Options) (junk : Nat → Nat → ℝ) (files : Files)
    (prog name : Str) (more : List Str) {N : Nat} {w rest : Str} (hw : IndexText N w)
    (hr : ∀ c t, rest = c :: t → c.isDigit = false) (hN : 2 ^ 31 ≤ N) :
    mainMulti o oc q junk files (prog :: (w ++ rest) :: name :: more) = ub := by
  simp only [mainMulti, atoi_large hw hr hN]
  rfl

/-- **C88.** A number of robots that is zero or negative, or no number at all, is refused before the file is
opened. -/
theorem C88_robots (o : AgentOracles) (oc : OptOracles) (q : Options) (junk : Nat → Nat → ℝ) (files : Files)
    (prog name : Str) (more : List Str) :
    (∀ w, IndexText 0 w → mainMulti o oc q junk files (prog :: w :: name :: more) = ok .refused) ∧
    (∀ N w, N ≤ 2 ^ 31 → IndexText N w →
      mainMulti o oc q junk files (prog :: ('-' :: w) :: name :: more) = ok .refused) ∧
    ∀ c t, isSpace c = false → c.isDigit = false → c ≠ '-' → c ≠ '+' →
      mainMulti o oc q junk files (prog :: (c :: t) :: name :: more) = ok .refused := by
  refine ⟨fun w hw => ?_, fun N w hN hw => ?_, fun c t h1 h2 h3 h4 => ?_⟩
  · have := atoi_digits hw (rest := []) (by simp) (by norm_num)
    rw [List.append_nil] at this
    simp [mainMulti, this]
  · simp [mainMulti, atoi_negative hw hN]
  · simp [mainMulti, atoi_word h1 h2 h3 h4]

/-! ### Files without measurements -/

/-- **C88.** A file that cannot be opened, or is empty, makes all four programs stop with a failed check. -/
theorem C88_no_file (o : AgentOracles) (so : SolverOracles) (oc : OptOracles) (q : Options) (junk : Nat → Nat → ℝ)
    {files : Files} {name : Str} (hf : files name = none ∨ files name = some []) (prog : Str) (more : List Str) :
    mainChordal o files [prog, name] = abort ∧ mainSingle o files (prog :: name :: more) = abort ∧
    mainGnc so files (prog :: name :: more) = abort ∧
    ∀ N w, 0 < N → N < 2 ^ 31 → IndexText N w → mainMulti o oc q junk files (prog :: w :: name :: more) = abort := by
  have e : G2o.readG2o (files name) = ok ([], 1) := by
    rcases hf with h | h <;> rw [h]
    · exact C58_no_file.1
    · exact C58_no_file.2
  refine ⟨?_, ?_, ?_, fun N w h0 h1 hw => ?_⟩
  · unfold mainChordal
    simp only [e, ok_bind]
    rfl
  · unfold mainSingle
    simp only [e, ok_bind, single_nil, abort_bind]
  · unfold mainGnc
    simp only [e, ok_bind]
    rfl
  · have := atoi_digits hw (rest := []) (by simp) h1
    rw [List.append_nil] at this
    unfold mainMulti
    simp only [this, e, ok_bind]
    rw [if_neg (by omega), demo_nil o oc q junk (by omega)]
    rfl

/-- **C88.** A line that is neither blank nor of a known type: no program gives a result. -/
theorem C88_unknown (o : AgentOracles) (so : SolverOracles) (oc : OptOracles) (q : Options) (junk : Nat → Nat → ℝ)
    {files : Files} {name text : Str} {ls : List (List Char)} (hf : files name = some text) (hl : FileOf ls text)
    {l : List Char} (hm : l ∈ ls) (h1 : ¬ Blanks l) (h2 : ¬ KnownLine l) (prog : Str) (more : List Str) :
    (∀ r, mainChordal o files [prog, name] ≠ ok r) ∧ (∀ r, mainSingle o files (prog :: name :: more) ≠ ok r) ∧
    (∀ r, mainGnc so files (prog :: name :: more) ≠ ok r) ∧
    ∀ w r, mainMulti o oc q junk files (prog :: w :: name :: more) ≠ ok (.done r) := by
  have e := C58_unknown hl hm h1 h2
  rw [← hf] at e
  refine ⟨fun r c => ?_, fun r c => ?_, fun r c => ?_, fun w r c => ?_⟩
  · unfold mainChordal at c
    obtain ⟨x, c, -⟩ := bind_eq_ok.1 c
    exact e x c
  · unfold mainSingle at c
    obtain ⟨x, c, -⟩ := bind_eq_ok.1 c
    exact e x c
  · unfold mainGnc at c
    obtain ⟨x, c, -⟩ := bind_eq_ok.1 c
    exact e x c
  · unfold mainMulti at c
    obtain ⟨v, -, c⟩ := bind_eq_ok.1 c
    split at c
    · cases c
    · obtain ⟨x, c, -⟩ := bind_eq_ok.1 c
      exact e x c

/-! ## Example: four poses on a line -/

/-- A planar edge: pose `j` is `k` ahead of pose `i`. -/
noncomputable def exAhead (i j k : Nat) : Entry := .edge2 i j ![k, 0, 0, 1, 0, 0, 1, 0, 2]

/-- Its line. -/
def exAheadText (i j k : Char) : Str := "EDGE_SE2".toList ++ ' ' :: i :: ' ' :: j :: ' ' :: k :: " 0 0 1 0 0 1 0 2".toList

theorem exAhead_written {i j k : Char} (hi : i.isDigit = true) (hj : j.isDigit = true) (hk : k.isDigit = true)
    (hn : '\n' ∉ exAheadText i j k) :
    Written (exAhead (i.toNat - '0'.toNat) (j.toNat - '0'.toNat) (k.toNat - '0'.toNat)) (exAheadText i j k) := by
  have sp : Blanks [' '] := by intro c hc; simp only [List.mem_singleton] at hc; subst hc; simp [Blank]
  have z : NumberText (0 : ℝ) ['0'] := by simpa using digit_number '0' (by decide)
  have o : NumberText (1 : ℝ) ['1'] := by simpa using digit_number '1' (by decide)
  have t : NumberText (2 : ℝ) ['2'] := by simpa using digit_number '2' (by decide)
  refine ⟨[i], [j], [[k], ['0'], ['0'], ['1'], ['0'], ['0'], ['1'], ['0'], ['2']], digit_index i hi, digit_index j hj, ?_, ?_⟩
  · simp only [List.ofFn_succ, List.ofFn_zero]
    refine .cons (digit_number k hk) (.cons z (.cons z (.cons o (.cons z (.cons z (.cons o (.cons z (.cons t .nil))))))))
  · refine ⟨[], ' ' :: i :: ' ' :: j :: ' ' :: k :: " 0 0 1 0 0 1 0 2".toList, by intro c hc; simp at hc, ?_, rfl, hn⟩
    have c : ∀ {w rest : List Char} {ws : List (List Char)}, Spaced ws rest → Spaced (w :: ws) ([' '] ++ (w ++ rest)) :=
      fun h => .cons sp (by simp) h
    exact c (c (c (c (c (c (c (c (c (c (c (.nil (by intro c t e; cases e))))))))))))

/-- A vertex, the steps from 0 to 3 and an edge from 0 to 2. -/
def exLineText : Str :=
  ("VERTEX_SE2 0 0 0 0\n" ++ "EDGE_SE2 0 1 1 0 0 1 0 0 1 0 2\n" ++ "EDGE_SE2 1 2 1 0 0 1 0 0 1 0 2\n" ++
    "EDGE_SE2 0 2 2 0 0 1 0 0 1 0 2\n" ++ "EDGE_SE2 2 3 1 0 0 1 0 0 1 0 2\n").toList

/-- What the file says. -/
noncomputable def exLineEntries : List Entry :=
  [.vertex, exAhead 0 1 1, exAhead 1 2 1, exAhead 0 2 2, exAhead 2 3 1]

theorem exAhead_informed (i j k : Nat) : (exAhead i j k).Informed 2 := by
  have e : tranInfo2 ![(k : ℝ), 0, 0, 1, 0, 0, 1, 0, 2] = 1 := by
    ext a b
    fin_cases a <;> fin_cases b <;> simp [tranInfo2]
  refine ⟨rfl, ?_, by simp⟩
  rw [e]
  exact Matrix.PosDef.one

set_option maxRecDepth 4000 in
theorem exLine_file : GraphFile 2 4 exLineEntries exLineText where
  written := by
    refine ⟨[exVertexText, exAheadText '0' '1' '1', exAheadText '1' '2' '1', exAheadText '0' '2' '2',
      exAheadText '2' '3' '1'], ⟨by decide, Or.inl rfl⟩, ?_⟩
    refine .cons exVertex_written (.cons ?_ (.cons ?_ (.cons ?_ (.cons ?_ .nil))))
    · exact exAhead_written (i := '0') (j := '1') (k := '1') (by decide) (by decide) (by decide) (by decide)
    · exact exAhead_written (i := '1') (j := '2') (k := '1') (by decide) (by decide) (by decide) (by decide)
    · exact exAhead_written (i := '0') (j := '2') (k := '2') (by decide) (by decide) (by decide) (by decide)
    · exact exAhead_written (i := '2') (j := '3') (k := '1') (by decide) (by decide) (by decide) (by decide)
  informed e he := by
    simp only [exLineEntries, List.mem_cons, List.not_mem_nil, or_false] at he
    rcases he with rfl | rfl | rfl | rfl | rfl
    · trivial
    all_goals exact exAhead_informed _ _ _
  noSelf p hp := by
    have : p ∈ [(0, 1), (1, 2), (0, 2), (2, 3)] := hp
    revert p
    decide
  below p hp := by
    have : p ∈ [(0, 1), (1, 2), (0, 2), (2, 3)] := hp
    revert p
    decide
  chain := rfl
  two := by norm_num
  small := by norm_num

/-- The poses: on a line, one step apart. -/
theorem exLine_exact (D : List (Meas ℝ)) (h : List.Forall₂ Says (exLineEntries.filter Entry.isEdge) D) :
    NoiseFree 2 4 D (fun _ => 1) (fun i => ![(i : ℝ), 0]) := by
  have key : ∀ m ∈ D, ∃ i j k, j = i + k ∧ Says (exAhead i j k) m := by
    intro m hm
    obtain ⟨x, hx, rfl⟩ := List.getElem_of_mem hm
    have hl := h.length_eq
    have hs := (List.forall₂_iff_get.1 h).2 x (by omega) hx
    simp only [List.get_eq_getElem] at hs
    have hmem := List.getElem_mem (l := exLineEntries.filter Entry.isEdge) (n := x) (by omega)
    generalize (exLineEntries.filter Entry.isEdge)[x]'(by omega) = e at hs hmem
    have hmem := List.mem_filter.1 hmem
    simp only [exLineEntries, List.mem_cons, List.not_mem_nil, or_false] at hmem
    rcases hmem with ⟨rfl | rfl | rfl | rfl | rfl, h2⟩
    · cases h2
    · exact ⟨0, 1, 1, rfl, hs⟩
    · exact ⟨1, 2, 1, rfl, hs⟩
    · exact ⟨0, 2, 2, rfl, hs⟩
    · exact ⟨2, 3, 1, rfl, hs⟩
  have e1 : ∀ k : Nat, tranInfo2 ![(k : ℝ), 0, 0, 1, 0, 0, 1, 0, 2] = 1 := by
    intro k
    ext a b
    fin_cases a <;> fin_cases b <;> simp [tranInfo2]
  refine ⟨fun m hm => ?_, fun i _ => ⟨by simp, by simp⟩, fun m hm => ?_, fun m hm => ?_⟩ <;>
    obtain ⟨i, j, k, hk, -, -, p1, p2, -, -, ht, -, -, hR, htau, hkap, -⟩ := key m hm
  · rw [htau, hkap, e1]
    simp
  · rw [hR]
    ext a b
    fin_cases a <;> fin_cases b <;> simp
  · rw [p1, p2, hk, Matrix.one_mulVec]
    ext a
    have := congrFun (congrFun ht a) 0
    fin_cases a
    · change ((i + k : Nat) : ℝ) = i + m.t.v 0 0
      have : m.t.v 0 0 = k := this
      rw [this]
      push_cast
      rfl
    · change (0 : ℝ) = 0 + m.t.v 1 0
      have : m.t.v 1 0 = 0 := this
      rw [this, add_zero]

/-- Non-vacuity of the theorems above: on this file the first two programs print 0, the third returns all
weights as 1, and the fourth runs with two robots, also when the number is
followed by a letter. -/
example : ∃ (o : AgentOracles) (files : Files), files "line.g2o".toList = some exLineText ∧
    mainChordal o files ["chordal".toList, "line.g2o".toList] = ok (.done 0) ∧
    mainSingle o files ["single".toList, "line.g2o".toList] = ok (.done 0) ∧
    (∃ T D, mainGnc o.toSolverOracles files ["gnc".toList, "line.g2o".toList] = ok (.done (T, D)) ∧
      D.length = 4 ∧ ∀ m ∈ D, m.weight = 1) ∧
    ∃ s, mainMulti o exOpt Options.shipped (fun _ _ => 0) files ["multi".toList, "2x".toList, "line.g2o".toList] =
      ok (.done s) := by
  obtain ⟨svd, hs⟩ := exists_lawfulSvd
  obtain ⟨qr, hq⟩ := exists_lawfulLsq
  refine ⟨exDemo svd qr, fun _ => some exLineText, rfl, ?_⟩
  obtain ⟨h1, h2⟩ := C88_exact (o := exDemo svd qr) (files := fun _ => some exLineText) (prog := "chordal".toList)
    (name := "line.g2o".toList) exLine_file rfl hs hq (fun _ => exOpt_lawful) exLine_exact []
  obtain ⟨-, s, -, -, -, h3, -⟩ := C88_multi (o := exDemo svd qr) (oc := exOpt) (q := Options.shipped)
    (files := fun _ => some exLineText) (prog := "multi".toList) (name := "line.g2o".toList) exLine_file rfl hq
    (N := 2) (by norm_num) (by norm_num) (by norm_num) (by norm_num [Options.shipped]) (by norm_num [Options.shipped])
    (w := ['2']) (rest := ['x']) (digit_index '2' (by decide)) (by rintro c t ⟨⟩; decide) (fun _ _ => 0) []
  obtain ⟨D, T, hD, hw, h4, -⟩ := C88_gnc_exact (so := (exDemo svd qr).toSolverOracles)
    (files := fun _ => some exLineText) (prog := "gnc".toList) (name := "line.g2o".toList) exLine_file rfl
    (fun _ => exOpt_lawful) exLine_exact []
  exact ⟨h1, h2, ⟨T, D, h4, hD.length_eq.symm, hw⟩, s, h3⟩

/-- Non-vacuity of `C88_overflow` and `C88_sign`. -/
example : IndexText 4294967298 "4294967298".toList ∧ 2 ^ 31 ≤ 4294967298 ∧ isSpace ' ' = true :=
  ⟨⟨by decide, by decide, by decide⟩, by norm_num, by decide⟩

/-- Non-vacuity of `C88_unknown`: a comment. -/
example : FileOf ["# comment".toList, exVertexText] (unlines ["# comment".toList, exVertexText]) ∧
    ¬ Blanks "# comment".toList ∧ ¬ KnownLine "# comment".toList := by
  have hn : '\n' ∉ "# comment".toList := by decide
  have ft : (G2o.firstToken [] "# comment".toList).1 = "#".toList := by decide
  refine ⟨⟨by decide, Or.inl rfl⟩, fun h => absurd (h '#' (by decide)) (by unfold Blank; decide), ?_⟩
  rintro ((h | h) | h | h) <;>
  · have := G2o.firstToken_first h hn []
    rw [ft] at this
    exact absurd this (by decide)

end Dpgo.Props
