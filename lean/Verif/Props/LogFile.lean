import Verif.Props.G2o
import Verif.Lemmas.LogFile

/-!
# Loading trajectory and measurement files of any origin (C92)
-/

namespace Dpgo.Props

open Res Text Spec Spec.G2o Logger

section
variable {dir filename : Str} {k : Disk} {rows : List PoseRow} {text : Str}

/-- **C92.** A trajectory file is accepted exactly when its rows carry the indices from zero to one less than their
number, each once, in any order.  Then every pose is what the row with its index says, with a proper rotation. -/
theorem C92_trajectory (h : RowFile PoseRow.Says rows text) (hf : k.file (dir ++ filename) = some text)
    (hn : 4 * rows.length < 2 ^ 32) :
    ((rows.map (·.index)).Perm (List.range rows.length) →
      ∃ T, loadTrajectory dir k filename = ok T ∧ T.rows = 3 ∧ T.cols = 4 * rows.length ∧
        ∀ row ∈ rows, RotationOf row.q ((T.block 0 (4 * row.index) 3 3).toMat 3 3) ∧
          IsRot ((T.block 0 (4 * row.index) 3 3).toMat 3 3) ∧ ∀ a : Fin 3, T.v a (4 * row.index + 3) = row.t a) ∧
    (¬ (rows.map (·.index)).Perm (List.range rows.length) → loadTrajectory dir k filename = throws) := by
  have hb := rowFile_body (fun _ _ => poseRow_line) h
  have hlen : (lines text).tail.length = rows.length := hb.length_eq.symm
  have unf : ∀ tk, Res.foldl (fun (acc : List (Nat × DMat ℝ) × Str) line => do
      let (p, token) ← loadPose acc.2 line
      return (acc.1 ++ [p], token)) ([], []) (lines text).tail =
        ok (rows.map (fun r => (r.index, poseOf r)), tk) →
      loadTrajectory dir k filename = Res.foldl (fun T i => do
        match (rows.map (fun r => (r.index, poseOf r))).find? (fun p => p.1 == i) with
        | none => throws
        | some p =>
          require (T.inRange 0 (u32 (4 * i)) 3 4)
          return T.setBlock 0 (u32 (4 * i)) p.2) (DMat.zero 3 (4 * rows.length) : DMat ℝ)
            (List.range rows.length) := by
    intro tk e
    unfold loadTrajectory
    rw [hf]
    simp only
    rw [e]
    simp only [ok_bind, hlen]
    rw [u32_of_lt (show rows.length < 2 ^ 32 by omega), u32_of_lt hn]
    rfl
  constructor
  · intro hp
    have hsm : ∀ r ∈ rows, r.index < 2 ^ 31 := by
      intro r hr
      have := List.mem_range.1 (hp.subset (List.mem_map_of_mem hr))
      omega
    have hnd : (rows.map (·.index)).Nodup := hp.nodup_iff.2 List.nodup_range
    obtain ⟨tk, e⟩ := read_rows hb hsm [] []
    rw [List.nil_append] at e
    rw [unf tk e]
    have hex : ∀ i, ∃ P : DMat ℝ, P.rows = 3 ∧ P.cols = 4 ∧ (i < rows.length →
        ∃ r ∈ rows, r.index = i ∧ P = poseOf r ∧
          (rows.map (fun r => (r.index, poseOf r))).find? (fun p => p.1 == i) = some (i, P)) := by
      intro i
      by_cases hi : i < rows.length
      · obtain ⟨r, hr, hri⟩ := List.mem_map.1 (hp.symm.subset (List.mem_range.2 hi))
        cases hx : (rows.map (fun r => (r.index, poseOf r))).find? (fun p => p.1 == i) with
        | none =>
          have := List.find?_eq_none.1 hx _ (List.mem_map_of_mem hr)
          simp only [beq_iff_eq] at this
          exact absurd hri this
        | some p =>
          obtain ⟨r', hr', rfl⟩ := List.mem_map.1 (List.mem_of_find?_eq_some hx)
          have h1 : r'.index = i := by simpa using List.find?_some hx
          exact ⟨poseOf r', rfl, rfl, fun _ => ⟨r', hr', h1, rfl, by rw [h1]⟩⟩
      · exact ⟨DMat.zero 3 4, rfl, rfl, fun h => absurd h hi⟩
    choose P hP1 hP2 hP using hex
    obtain ⟨T, eT, t1, t2, t3⟩ := place_table hn (rows.map (fun r => (r.index, poseOf r))) P
      (fun i => ⟨hP1 i, hP2 i⟩) (le_refl _) fun i hi => by
        obtain ⟨-, -, -, -, e⟩ := hP i hi
        exact e
    refine ⟨T, eT, t1, t2, fun row hr => ?_⟩
    have hi : row.index < rows.length := List.mem_range.1 (hp.subset (List.mem_map_of_mem hr))
    obtain ⟨r', hr', h1, h2, -⟩ := hP row.index hi
    obtain rfl : r' = row := List.inj_on_of_nodup_map hnd hr' hr h1
    have hT := t3 r'.index hi
    rw [h2] at hT
    have hblk : (T.block 0 (4 * r'.index) 3 3).toMat 3 3 = (quatOf r'.q).normalize.toRotation.toMat 3 3 := by
      ext a b
      simp only [DMat.toMat_apply, DMat.block]
      rw [Nat.zero_add, hT a a.2 b (by omega)]
      simp only [poseOf, if_pos b.2]
    obtain ⟨q1, q2⟩ := rotationOf_normalize r'.q
    rw [hblk]
    refine ⟨q1, q2, fun a => ?_⟩
    rw [hT a a.2 3 (by norm_num)]
    exact vecOf_v r'.t a
  · intro hp
    by_cases hsm : ∀ r ∈ rows, r.index < 2 ^ 31
    · obtain ⟨tk, e⟩ := read_rows hb hsm [] []
      rw [List.nil_append] at e
      rw [unf tk e]
      refine place_missing hn _ ?_ ?_
      · intro p hp
        obtain ⟨r, -, rfl⟩ := List.mem_map.1 hp
        exact ⟨rfl, rfl⟩
      · by_contra hall
        push Not at hall
        refine hp (List.Perm.symm ?_)
        have hsub : List.range rows.length ⊆ rows.map (·.index) := by
          intro i hi
          have hx := hall i (List.mem_range.1 hi)
          obtain ⟨p, hx⟩ := Option.ne_none_iff_exists'.1 hx
          obtain ⟨r, hr, rfl⟩ := List.mem_map.1 (List.mem_of_find?_eq_some hx)
          have h1 : r.index = i := by simpa using List.find?_some hx
          exact List.mem_map.2 ⟨r, hr, h1⟩
        exact (List.subperm_of_subset List.nodup_range hsub).perm_of_length_le (by simp)
    · push Not at hsm
      obtain ⟨r, hr, hrb⟩ := hsm
      unfold loadTrajectory
      rw [hf]
      simp only
      rw [read_rows_large hb ⟨r, hr, by omega⟩ [] []]
      rfl

/-- **C92.** The order of the rows does not matter: files with the same rows in another order load as the same
trajectory, or both are refused. -/
theorem C92_order {rows' : List PoseRow} {text' : Str} {k' : Disk} (h : RowFile PoseRow.Says rows text)
    (h' : RowFile PoseRow.Says rows' text') (hp : rows.Perm rows') (hf : k.file (dir ++ filename) = some text)
    (hf' : k'.file (dir ++ filename) = some text') (hn : 4 * rows.length < 2 ^ 32) :
    (loadTrajectory dir k filename = throws ∧ loadTrajectory dir k' filename = throws) ∨
    ∃ T T', loadTrajectory dir k filename = ok T ∧ loadTrajectory dir k' filename = ok T' ∧
      T.Same T' := by
  obtain ⟨a1, a2⟩ := C92_trajectory h hf hn
  obtain ⟨b1, b2⟩ := C92_trajectory (dir := dir) (filename := filename) h' hf' (by rw [← hp.length_eq]; exact hn)
  have hiff : (rows.map (·.index)).Perm (List.range rows.length) ↔
      (rows'.map (·.index)).Perm (List.range rows'.length) := by
    rw [hp.length_eq]
    exact ⟨fun q => (hp.map _).symm.trans q, fun q => (hp.map _).trans q⟩
  by_cases hq : (rows.map (·.index)).Perm (List.range rows.length)
  · obtain ⟨T, e, r1, c1, s1⟩ := a1 hq
    obtain ⟨T', e', r2, c2, s2⟩ := b1 (hiff.1 hq)
    refine Or.inr ⟨T, T', e, e', ?_⟩
    have cell : ∀ i < rows.length, ∀ a : Fin 3, ∀ b < 4, T.v a (4 * i + b) = T'.v a (4 * i + b) := by
      intro i hi a b hb
      obtain ⟨r, hr, rfl⟩ := List.mem_map.1 (hq.symm.subset (List.mem_range.2 hi))
      obtain ⟨x1, -, x3⟩ := s1 r hr
      obtain ⟨y1, -, y3⟩ := s2 r (hp.subset hr)
      by_cases hb3 : b < 3
      · have : (T.block 0 (4 * r.index) 3 3).toMat 3 3 = (T'.block 0 (4 * r.index) 3 3).toMat 3 3 := by
          by_cases hz : r.q = 0
          · rw [x1.2 hz, y1.2 hz]
          · rw [x1.1 hz, y1.1 hz]
        have := congrFun (congrFun this a) ⟨b, hb3⟩
        simpa [DMat.toMat_apply, DMat.block] using this
      · obtain rfl : b = 3 := by omega
        rw [x3 a, y3 a]
    refine ⟨r1.trans r2.symm, by rw [c1, c2, hp.length_eq], fun a c ha hc => ?_⟩
    rw [r1] at ha
    rw [c1] at hc
    have := cell (c / 4) (by omega) ⟨a, ha⟩ (c % 4) (by omega)
    rwa [show 4 * (c / 4) + c % 4 = c by omega] at this
  · exact Or.inl ⟨a2 hq, b2 (mt hiff.2 hq)⟩

end

/-- **C92.** A measurement file is loaded row by row, each measurement being what its row says, when all whole numbers
fit in an `int`; otherwise it is refused. -/
theorem C92_measurements {k : Disk} {path : Str} {rows : List MeasRow} {text : Str}
    (h : RowFile MeasRow.Says rows text) (hf : k.file path = some text) (lw : Bool) :
    ((∀ r ∈ rows, r.Small) → ∃ ms, loadMeasurements k path lw = ok ms ∧ List.Forall₂ (MeasRow.Is lw) rows ms) ∧
    ((∃ r ∈ rows, ¬ r.Small) → loadMeasurements k path lw = throws) := by
  have hb := rowFile_body (fun _ _ => measRow_line) h
  constructor
  · intro hs
    obtain ⟨ms, tk, e, hms⟩ := read_meas hb hs lw [] []
    refine ⟨ms, ?_, hms⟩
    unfold loadMeasurements
    rw [hf]
    simp only
    rw [e]
    rfl
  · intro hs
    unfold loadMeasurements
    rw [hf]
    simp only
    rw [read_meas_large hb hs lw [] []]
    rfl

/-! ### Rows that are cut short, blank lines -/

/-- **C92.** A row that ends early is not refused: the missing numbers are those of its last field.  Here the row of
pose 0 ends after the first coordinate of the translation, and the other two become equal to it. -/
theorem C92_short_row {dir filename header w : Str} {k : Disk} {x : ℝ} (hh : '\n' ∉ header) (hw : NumberText x w)
    (hf : k.file (dir ++ filename) = some (header ++ '\n' :: ("0,0,0,0,1,".toList ++ (w ++ ['\n'])))) :
    ∃ T, loadTrajectory dir k filename = ok T ∧ T.cols = 4 ∧ ∀ a : Fin 3, T.v a 3 = x := by
  obtain ⟨n, hv, ht, hx⟩ := hw
  have hw : NumberText x w := ⟨n, hv, ht, hx⟩
  have hpl : ∀ c ∈ w, c ≠ ',' ∧ c ≠ '\n' := fun c hc => numChar_ne (text_chars hv c (ht ▸ hc))
  have p : ∀ c : Char, c.isDigit = true → ',' ∉ [c] ∧ '\n' ∉ [c] := fun c hc => by
    constructor <;> (intro hm; rw [List.mem_singleton] at hm; subst hm; exact absurd hc (by decide))
  have h0 : IndexText 0 ['0'] := digit_index '0' (by decide)
  have z : NumberText 0 ['0'] := by simpa using digit_number '0' (by decide)
  have o : NumberText 1 ['1'] := by simpa using digit_number '1' (by decide)
  have hrow : PoseRow.Says ⟨0, ![0, 0, 0, 1], fun _ => x⟩ ("0,0,0,0,1,".toList ++ w) := by
    refine ⟨[['0'], ['0'], ['0'], ['0'], ['1'], w], ?_, h0, ?_, ?_⟩
    · exact .cons (p '0' rfl).1 (p '0' rfl).2 (.cons (p '0' rfl).1 (p '0' rfl).2 (.cons (p '0' rfl).1 (p '0' rfl).2
        (.cons (p '0' rfl).1 (p '0' rfl).2 (.cons (p '1' rfl).1 (p '1' rfl).2 (.one (fun hc => (hpl _ hc).1 rfl)
          (fun hc => (hpl _ hc).2 rfl))))))
    · intro j
      fin_cases j
      · exact z
      · exact z
      · exact z
      · exact o
    · intro j
      fin_cases j <;> exact hw
  obtain ⟨h1, -⟩ := C92_trajectory (dir := dir) (filename := filename) (rows := [⟨0, ![0, 0, 0, 1], fun _ => x⟩])
    ⟨header, ["0,0,0,0,1,".toList ++ w], hh, .cons hrow .nil, rfl⟩ (by rw [hf]; simp) (by norm_num)
  obtain ⟨T, e, -, hc, hT⟩ := h1 (.refl _)
  exact ⟨T, e, hc, (hT _ (List.mem_singleton.2 rfl)).2.2⟩

/-- **C92.** A blank line after the rows is refused, whatever follows. -/
theorem C92_blank {dir filename header rest : Str} {k : Disk} {rows : List PoseRow} {ls : List Str}
    (hh : '\n' ∉ header) (hr : List.Forall₂ PoseRow.Says rows ls)
    (hf : k.file (dir ++ filename) = some (header ++ '\n' :: (ls.flatMap (· ++ ['\n']) ++ '\n' :: rest))) :
    loadTrajectory dir k filename = throws := by
  have hl : ∀ l ∈ ls, ∀ c ∈ l, c ≠ '\n' := by
    intro l hl
    obtain ⟨i, hi, rfl⟩ := List.getElem_of_mem hl
    exact poseRow_line (hr.get (by rw [hr.length_eq]; exact hi) hi)
  have hlines : (lines (header ++ '\n' :: (ls.flatMap (· ++ ['\n']) ++ '\n' :: rest))).tail = ls ++ [] :: lines rest := by
    rw [lines_append (fun c hc e => hh (e ▸ hc)), List.tail_cons]
    clear hr hf
    induction ls with
    | nil => exact lines_append (l := []) (by simp) rest
    | cons l ls ih =>
      rw [List.flatMap_cons, List.append_assoc, List.append_assoc]
      exact (lines_append (hl l (by simp)) _).trans (congrArg _ (ih fun x hx => hl x (by simp [hx])))
  unfold loadTrajectory
  rw [hf]
  simp only
  rw [hlines, foldl_append]
  by_cases hsm : ∀ r ∈ rows, r.index < 2 ^ 31
  · obtain ⟨tk, e⟩ := read_rows hr hsm [] []
    rw [e]
    rfl
  · push Not at hsm
    obtain ⟨r, hr', hrb⟩ := hsm
    rw [read_rows_large hr ⟨r, hr', by omega⟩ [] []]
    rfl

/-! ### Examples -/

/-- Two rows, the second pose first, with a quaternion of length two. -/
noncomputable def exRows : List PoseRow := [⟨1, ![0, 0, 0, 2], ![3, 0, 0]⟩, ⟨0, ![0, 0, 0, 1], ![0, 0, 0]⟩]

def exRowsText : Str := "any header\n1,0,0,0,2,3,0,0\n0,0,0,0,1,0,0,0\n".toList

theorem exRow_says (i a c : Char) (hi : i.isDigit = true) (ha : a.isDigit = true) (hc : c.isDigit = true) :
    PoseRow.Says ⟨i.toNat - 48, ![0, 0, 0, ((a.toNat - 48 : Nat) : ℝ)], ![((c.toNat - 48 : Nat) : ℝ), 0, 0]⟩
      (i :: ",0,0,0,".toList ++ a :: ',' :: c :: ",0,0".toList) := by
  have p : ∀ c : Char, c.isDigit = true → ',' ∉ [c] ∧ '\n' ∉ [c] := fun c hc => by
    constructor <;> (intro hm; rw [List.mem_singleton] at hm; subst hm; exact absurd hc (by decide))
  have z : NumberText 0 ['0'] := by simpa using digit_number '0' (by decide)
  refine ⟨[[i], ['0'], ['0'], ['0'], [a], [c], ['0'], ['0']], ?_, digit_index i hi, ?_, ?_⟩
  · exact .cons (p i hi).1 (p i hi).2 (.cons (p '0' rfl).1 (p '0' rfl).2 (.cons (p '0' rfl).1 (p '0' rfl).2
      (.cons (p '0' rfl).1 (p '0' rfl).2 (.cons (p a ha).1 (p a ha).2 (.cons (p c hc).1 (p c hc).2
        (.cons (p '0' rfl).1 (p '0' rfl).2 (.one (p '0' rfl).1 (p '0' rfl).2)))))))
  · intro j
    fin_cases j
    · exact z
    · exact z
    · exact z
    · exact digit_number a ha
  · intro j
    fin_cases j
    · exact digit_number c hc
    · exact z
    · exact z

theorem exRows_file : RowFile PoseRow.Says exRows exRowsText := by
  refine ⟨"any header".toList, ["1,0,0,0,2,3,0,0".toList, "0,0,0,0,1,0,0,0".toList], by decide, ?_, rfl⟩
  have h1 := exRow_says '1' '2' '3' rfl rfl rfl
  have h2 := exRow_says '0' '1' '0' rfl rfl rfl
  refine .cons ?_ (.cons ?_ .nil)
  · simpa using h1
  · simpa using h2

/-- Non-vacuity: the rows above are accepted, and so are the same rows in the other order. -/
example : RowFile PoseRow.Says exRows exRowsText ∧ (exRows.map (·.index)).Perm (List.range exRows.length) ∧
    exRows.Perm exRows.reverse ∧
    ∃ T, loadTrajectory [] ⟨fun _ => some exRowsText, fun _ => true⟩ "t.csv".toList = ok T ∧ T.v 0 7 = 3 := by
  have hp : (exRows.map (·.index)).Perm (List.range exRows.length) := by
    show [1, 0].Perm [0, 1]
    decide
  obtain ⟨T, e, -, -, hT⟩ := (C92_trajectory (dir := []) (filename := "t.csv".toList)
    (k := ⟨fun _ => some exRowsText, fun _ => true⟩) exRows_file rfl (by norm_num [exRows])).1 hp
  have := (hT ⟨1, ![0, 0, 0, 2], ![3, 0, 0]⟩ (by simp [exRows])).2.2 0
  exact ⟨exRows_file, hp, (List.reverse_perm _).symm, T, e, this⟩

/-- Non-vacuity of the theorems on short rows and blank lines. -/
example : '\n' ∉ "h".toList ∧ NumberText 7 ['7'] ∧
    List.Forall₂ PoseRow.Says exRows ["1,0,0,0,2,3,0,0".toList, "0,0,0,0,1,0,0,0".toList] := by
  refine ⟨by decide, by simpa using digit_number '7' (by decide), .cons ?_ (.cons ?_ .nil)⟩
  · simpa using exRow_says '1' '2' '3' rfl rfl rfl
  · simpa using exRow_says '0' '1' '0' rfl rfl rfl

/-- Non-vacuity for measurement files: one row that ends after the flag; its weight is read from the flag. -/
example : RowFile MeasRow.Says [⟨0, 1, 2, 3, ![0, 0, 0, 1], ![0, 0, 0], 4, 5, 1, 1⟩]
    "header\n0,1,2,3,0,0,0,1,0,0,0,4,5,1\n".toList ∧
    MeasRow.Small ⟨0, 1, 2, 3, ![0, 0, 0, 1], ![0, 0, 0], 4, 5, 1, 1⟩ := by
  have p : ∀ c : Char, c.isDigit = true → ',' ∉ [c] ∧ '\n' ∉ [c] := fun c hc => by
    constructor <;> (intro hm; rw [List.mem_singleton] at hm; subst hm; exact absurd hc (by decide))
  have z : NumberText 0 ['0'] := by simpa using digit_number '0' (by decide)
  have o : NumberText 1 ['1'] := by simpa using digit_number '1' (by decide)
  have f4 : NumberText 4 ['4'] := by simpa using digit_number '4' (by decide)
  have f5 : NumberText 5 ['5'] := by simpa using digit_number '5' (by decide)
  refine ⟨⟨"header".toList, ["0,1,2,3,0,0,0,1,0,0,0,4,5,1".toList], by decide, .cons ?_ .nil, rfl⟩,
    ⟨by norm_num, by norm_num, by norm_num, by norm_num, by norm_num⟩⟩
  refine ⟨[['0'], ['1'], ['2'], ['3'], ['0'], ['0'], ['0'], ['1'], ['0'], ['0'], ['0'], ['4'], ['5'], ['1']], ?_,
    digit_index '0' rfl, digit_index '1' rfl, digit_index '2' rfl, digit_index '3' rfl, ?_, ?_,
    f4, f5, digit_index '1' rfl, o⟩
  · have s : ∀ (c : Char) {l : List Str} {line : Str}, c.isDigit = true → Joined l line →
        Joined ([c] :: l) (c :: ',' :: line) := fun c _ _ hc h => .cons (p c hc).1 (p c hc).2 h
    exact s '0' rfl (s '1' rfl (s '2' rfl (s '3' rfl (s '0' rfl (s '0' rfl (s '0' rfl (s '1' rfl (s '0' rfl
      (s '0' rfl (s '0' rfl (s '4' rfl (s '5' rfl (.one (p '1' rfl).1 (p '1' rfl).2)))))))))))))
  · intro j
    fin_cases j
    · exact z
    · exact z
    · exact z
    · exact o
  · intro j
    fin_cases j <;> exact z

end Dpgo.Props
