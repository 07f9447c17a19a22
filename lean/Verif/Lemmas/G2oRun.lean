import Verif.Lemmas.G2o
import Mathlib.Data.List.Induction

/-!
# Reading whole pose-graph files
-/

namespace Dpgo.G2o

open Res Text Spec Spec.G2o

/-! ### Files and lines -/

theorem lines_unlines {ls : List Str} (h : ∀ l ∈ ls, '\n' ∉ l) (tail : Str) :
    lines (unlines ls ++ tail) = ls ++ lines tail := by
  induction ls with
  | nil => rfl
  | cons l ls ih =>
    have hl : ∀ c ∈ l, c ≠ '\n' := fun c hc e => h l (by simp) (e ▸ hc)
    have e : unlines (l :: ls) ++ tail = l ++ '\n' :: (unlines ls ++ tail) := by
      simp [unlines]
    rw [e, lines_append hl, ih (fun x hx => h x (by simp [hx]))]
    rfl

theorem lines_file {ls : List Str} {text : Str} (h : FileOf ls text) : lines text = ls := by
  obtain ⟨hn, rfl | ⟨init, last, hne, rfl, rfl⟩⟩ := h
  · have := lines_unlines hn []
    simpa [lines] using this
  · rw [lines_unlines fun l hl => hn l (by simp [hl])]
    rw [lines_last (fun c hc e => hn last (by simp) (e ▸ hc)) hne]

/-- Every text is a file with some lines. -/
theorem fileOf_lines (text : Str) : FileOf (lines text) text := by
  induction text with
  | nil => exact ⟨by simp [lines], Or.inl rfl⟩
  | cons c t ih =>
    obtain ⟨h1, h2⟩ := ih
    rw [lines]
    by_cases hc : c = '\n'
    · subst hc
      rw [if_pos rfl]
      refine ⟨?_, ?_⟩
      · intro l hl
        rcases List.mem_cons.1 hl with rfl | hl
        · simp
        · exact h1 l hl
      · rcases h2 with h2 | ⟨init, last, hne, e1, e2⟩
        · left
          conv_lhs => rw [h2]
          rfl
        · right
          exact ⟨[] :: init, last, hne, by rw [e1]; rfl, by
            conv_lhs => rw [e2]
            rfl⟩
    · rw [if_neg hc]
      cases hl : lines t with
      | nil =>
        have ht : t = [] := by
          rcases h2 with h2 | ⟨init, last, hne, e1, e2⟩
          · rw [hl] at h2; exact h2
          · rw [hl] at e1; simp at e1
        subst ht
        exact ⟨by simpa using fun h => hc h.symm, Or.inr ⟨[], [c], by simp, rfl, rfl⟩⟩
      | cons l ls =>
        rw [hl] at h1 h2
        refine ⟨?_, ?_⟩
        · intro x hx
          rcases List.mem_cons.1 hx with rfl | hx
          · have := h1 l (by simp)
            simp only [List.mem_cons, not_or]
            exact ⟨fun h => hc h.symm, this⟩
          · exact h1 x (by simp [hx])
        · rcases h2 with h2 | ⟨init, last, hne, e1, e2⟩
          · left
            rw [h2]
            simp [unlines]
          · right
            cases init with
            | nil =>
              simp only [List.nil_append, List.cons.injEq] at e1
              obtain ⟨rfl, rfl⟩ := e1
              exact ⟨[], c :: l, by simp, rfl, by rw [e2]; rfl⟩
            | cons x init =>
              simp only [List.cons_append, List.cons.injEq] at e1
              obtain ⟨rfl, rfl⟩ := e1
              refine ⟨(c :: l) :: init, last, hne, rfl, ?_⟩
              rw [e2]
              simp [unlines]

theorem read_eq {ls : List Str} {text : Str} (h : FileOf ls text) :
    readG2o (some text) = (Res.foldl step start ls).bind fun s => ok (s.out, (s.numPoses + 1) % 2 ^ 64) := by
  unfold readG2o
  rw [Option.getD_some, lines_file h]
  rfl

/-! ### First words -/

theorem firstToken_word {b w rest : Str} (hb : Blanks b) (hne : w ≠ []) (hw : ∀ c ∈ w, isSpace c = false)
    (hr : Apart rest) (tok : Str) : firstToken tok (b ++ (w ++ rest)) = (w, some rest) := by
  unfold firstToken
  rw [extractWord_eq hb hne hw hr]

theorem firstToken_blanks {b : Str} (hb : Blanks b) (tok : Str) : firstToken tok b = (tok, none) := by
  unfold firstToken
  rw [extractWord_blanks hb]

/-- The token of a line with a first word is that word. -/
theorem firstToken_first {w l : Str} (h : FirstWord w l) (hn : '\n' ∉ l) (tok : Str) :
    (firstToken tok l).1 = w := by
  obtain ⟨b, rest, hb, hr, hne, hw, rfl⟩ := h
  rw [firstToken_word hb hne ?_ hr]
  intro c hc
  by_contra hs
  refine hw c hc (space_blank (by simpa using hs) ?_)
  rintro rfl
  exact hn (by simp [hc])

theorem first_of_token {w l : Str} (hn : '\n' ∉ l) (hb : ¬ Blanks l) {tok : Str}
    (h : (firstToken tok l).1 = w) : FirstWord w l := by
  rcases word_cases hn with h' | ⟨b, w', rest, rfl, h1, h2, h3, h4⟩
  · exact absurd h' hb
  · rw [firstToken_word h1 h2 h3 h4] at h
    subst h
    refine ⟨b, rest, h1, h4, h2, ?_, rfl⟩
    intro c hc hbl
    have := h3 c hc
    rw [blank_space hbl] at this
    cases this

theorem not_blanks_of_first {w l : Str} (h : FirstWord w l) : ¬ Blanks l := by
  obtain ⟨b, rest, hb, hr, hne, hw, rfl⟩ := h
  intro hbl
  cases w with
  | nil => exact hne rfl
  | cons c w => exact hw c (by simp) (hbl c (by simp))

theorem kw_plain {w : String} (h : w = "EDGE_SE2" ∨ w = "EDGE_SE3:QUAT" ∨ w = "VERTEX_SE2" ∨ w = "VERTEX_SE3:QUAT") :
    w.toList ≠ [] ∧ ∀ c ∈ w.toList, isSpace c = false := by
  rcases h with rfl | rfl | rfl | rfl <;> decide

/-! ### One line -/

theorem edge2_ok {i j : Nat} {reg : Reg → Option ℝ} {m : Meas ℝ} (h : G2o.edge2 i j reg = ok m) :
    m.r1 = 0 ∧ m.r2 = 0 ∧ m.p1 = i ∧ m.p2 = j ∧ m.weight = 1 ∧ ∀ i' j', G2o.edge2 i' j' reg =
      ok { m with p1 := i', p2 := j', fixedWeight := decide ((i' + 1) % 2 ^ 64 = j') } := by
  unfold G2o.edge2 at h ⊢
  simp only [bind_eq_ok, pure_eq] at h
  obtain ⟨a1, e1, a2, e2, a3, e3, a4, e4, a5, e5, a6, e6, a7, e7, a8, e8, a9, e9, h⟩ := h
  cases h
  refine ⟨rfl, rfl, rfl, rfl, rfl, ?_⟩
  intro i' j'
  simp only [e1, e2, e3, e4, e5, e6, e7, e8, e9, ok_bind, pure_eq]

theorem edge3_ok {i j : Nat} {reg : Reg → Option ℝ} {m : Meas ℝ} (h : G2o.edge3 i j reg = ok m) :
    m.r1 = 0 ∧ m.r2 = 0 ∧ m.p1 = i ∧ m.p2 = j ∧ m.weight = 1 ∧ ∀ i' j', G2o.edge3 i' j' reg =
      ok { m with p1 := i', p2 := j', fixedWeight := decide ((i' + 1) % 2 ^ 64 = j') } := by
  unfold G2o.edge3 at h ⊢
  simp only [bind_eq_ok, pure_eq] at h
  obtain ⟨a1, e1, a2, e2, a3, e3, a4, e4, a5, e5, a6, e6, a7, e7, a8, e8, a9, e9, b1, f1, b2, f2, b3, f3, b4, f4,
    b5, f5, b6, f6, b7, f7, b8, f8, b9, f9, c1, g1, c2, g2, c3, g3, c4, g4, c5, g5, h⟩ := h
  cases h
  refine ⟨rfl, rfl, rfl, rfl, rfl, ?_⟩
  intro i' j'
  simp only [e1, e2, e3, e4, e5, e6, e7, e8, e9, f1, f2, f3, f4, f5, f6, f7, f8, f9, g1, g2, g3, g4, g5, ok_bind,
    pure_eq]

/-- What an edge step leaves behind. -/
def Left (edge : Nat → Nat → (Reg → Option ℝ) → Res (Meas ℝ)) (s s' : State) : Prop :=
  ∃ i j m v, s'.i = some i ∧ s'.j = some j ∧ edge i j s'.reg = ok m ∧ maxPair m.p1 m.p2 = ok v ∧
    s'.out = s.out ++ [m] ∧ s'.numPoses = max s.numPoses v

theorem get_ok {α : Type} {o : Option α} {a : α} (h : get o = ok a) : o = some a := by
  cases o with
  | none => cases h
  | some x => cases h; rfl

theorem push_ok {s s' : State} {m : Meas ℝ} (h : push s m = ok s') :
    ∃ v, maxPair m.p1 m.p2 = ok v ∧ s' = { s with numPoses := max s.numPoses v, out := s.out ++ [m] } := by
  unfold push at h
  simp only [bind_eq_ok, pure_eq] at h
  obtain ⟨v, hv, h⟩ := h
  cases h
  refine ⟨v, hv, ?_⟩
  congr 1
  split_ifs <;> omega

theorem step_ok {s s' : State} {l : Str} (h : step s l = ok s') :
    s'.token = (firstToken s.token l).1 ∧
      ((s'.token = kwEdge2 ∧ Left G2o.edge2 s s') ∨ (s'.token = kwEdge3 ∧ Left G2o.edge3 s s') ∨
        ((s'.token = kwVertex2 ∨ s'.token = kwVertex3) ∧ s' = { s with token := s'.token })) := by
  unfold step at h
  generalize ht : firstToken s.token l = ft at h
  obtain ⟨tok, ss⟩ := ft
  simp only at h ⊢
  by_cases h2 : tok = kwEdge2
  · rw [if_pos h2] at h
    generalize pullNat s.i ss = pi at h
    obtain ⟨i, ss1⟩ := pi
    simp only at h
    generalize pullNat s.j ss1 = pj at h
    obtain ⟨j, ss2⟩ := pj
    simp only [bind_eq_ok] at h
    obtain ⟨vi, hi, vj, hj, m, hm, h⟩ := h
    obtain ⟨v, hv, rfl⟩ := push_ok h
    exact ⟨rfl, Or.inl ⟨h2, vi, vj, m, v, get_ok hi, get_ok hj, hm, hv, rfl, rfl⟩⟩
  · rw [if_neg h2] at h
    by_cases h3 : tok = kwEdge3
    · rw [if_pos h3] at h
      generalize pullNat s.i ss = pi at h
      obtain ⟨i, ss1⟩ := pi
      simp only at h
      generalize pullNat s.j ss1 = pj at h
      obtain ⟨j, ss2⟩ := pj
      simp only [bind_eq_ok] at h
      obtain ⟨vi, hi, vj, hj, m, hm, h⟩ := h
      obtain ⟨v, hv, rfl⟩ := push_ok h
      exact ⟨rfl, Or.inr (Or.inl ⟨h3, vi, vj, m, v, get_ok hi, get_ok hj, hm, hv, rfl, rfl⟩)⟩
    · rw [if_neg h3] at h
      by_cases h4 : tok = kwVertex2 ∨ tok = kwVertex3
      · rw [if_pos h4] at h
        cases h
        exact ⟨rfl, Or.inr (Or.inr ⟨h4, rfl⟩)⟩
      · rw [if_neg h4] at h
        cases h

/-- An edge step that succeeds. -/
theorem step_edge2 {s : State} {l rest : Str} (ht : firstToken s.token l = (kwEdge2, some rest)) {i j : Nat}
    {ss1 ss2 : Option Str} (h1 : pullNat s.i (some rest) = (some i, ss1)) (h2 : pullNat s.j ss1 = (some j, ss2)) {m : Meas ℝ}
    (hm : G2o.edge2 i j (pullRegs regs2 s.reg ss2) = ok m) {v : Nat} (hv : maxPair m.p1 m.p2 = ok v) :
    step s l = ok ⟨kwEdge2, some i, some j, pullRegs regs2 s.reg ss2, max s.numPoses v, s.out ++ [m]⟩ := by
  unfold step
  simp only [ht, h1, h2, if_true, get, ok_bind, hm, push, hv, pure_eq]
  congr 2
  split_ifs <;> omega

theorem step_edge3 {s : State} {l rest : Str} (ht : firstToken s.token l = (kwEdge3, some rest)) {i j : Nat}
    {ss1 ss2 : Option Str} (h1 : pullNat s.i (some rest) = (some i, ss1)) (h2 : pullNat s.j ss1 = (some j, ss2)) {m : Meas ℝ}
    (hm : G2o.edge3 i j (pullRegs regs3 s.reg ss2) = ok m) {v : Nat} (hv : maxPair m.p1 m.p2 = ok v) :
    step s l = ok ⟨kwEdge3, some i, some j, pullRegs regs3 s.reg ss2, max s.numPoses v, s.out ++ [m]⟩ := by
  unfold step
  simp only [ht, h1, h2, show ¬ (kwEdge3 = kwEdge2) by decide, if_false, if_true, get, ok_bind, hm, push, hv,
    pure_eq]
  congr 2
  split_ifs <;> omega

/-- A blank line after an edge repeats the edge. -/
theorem step_blank {s s' : State} {l b : Str} (h : step s l = ok s') (he : s'.token = kwEdge2 ∨ s'.token = kwEdge3)
    (hb : Blanks b) :
    ∃ m, s'.out = s.out ++ [m] ∧ step s' b = ok { s' with out := s'.out ++ [m] } := by
  obtain ⟨-, h⟩ := step_ok h
  have v2 : ∀ t : Str, (t = kwEdge2 ∨ t = kwEdge3) → ¬ (t = kwVertex2 ∨ t = kwVertex3) := by
    rintro t (rfl | rfl) <;> decide
  rcases h with ⟨ht, i, j, m, v, hi, hj, hm, hv, ho, hn⟩ | ⟨ht, i, j, m, v, hi, hj, hm, hv, ho, hn⟩ | ⟨ht, -⟩
  · refine ⟨m, ho, ?_⟩
    unfold step
    simp only [firstToken_blanks hb, ht, if_true, pullNat, pullRegs_none, hi, hj, get, ok_bind, hm, push, hv,
      pure_eq]
    rw [if_neg (by omega)]
  · refine ⟨m, ho, ?_⟩
    unfold step
    simp only [firstToken_blanks hb, ht, show ¬ (kwEdge3 = kwEdge2) by decide, if_false, if_true, pullNat,
      pullRegs_none, hi, hj, get, ok_bind, hm, push, hv, pure_eq]
    rw [if_neg (by omega)]
  · exact absurd ht (v2 _ he)

/-! ### Written lines -/

theorem lineOf_token {kw : String}
    (hk : kw = "EDGE_SE2" ∨ kw = "EDGE_SE3:QUAT" ∨ kw = "VERTEX_SE2" ∨ kw = "VERTEX_SE3:QUAT") {ws : List Str}
    {l : Str} (h : LineOf kw ws l) (tok : Str) :
    ∃ rest, firstToken tok l = (kw.toList, some rest) ∧ Spaced ws rest ∧ '\n' ∉ l := by
  obtain ⟨b, rest, hb, hs, rfl, hn⟩ := h
  obtain ⟨h1, h2⟩ := kw_plain hk
  exact ⟨rest, firstToken_word hb h1 h2 (spaced_apart hs) tok, hs, hn⟩

theorem pullNat_spaced {n : Nat} {w : Str} {ws : List Str} {rest : Str} (hw : IndexText n w) (hn : n < 2 ^ 64)
    (hs : Spaced (w :: ws) rest) (v : Option Nat) :
    ∃ rest', pullNat v (some rest) = (some n, some rest') ∧ Spaced ws rest' := by
  cases hs with
  | @cons b _ rest' _ hb hne hs =>
    exact ⟨rest', by simp only [pullNat, extractNat_eq hb hw hn (spaced_apart hs)], hs⟩

/-- What a line adds to the result. -/
structure Adds (e : Entry) (s s' : State) (ms : List (Meas ℝ)) : Prop where
  out : s'.out = s.out ++ ms
  edge : e.isEdge = true → ∃ m, ms = [m] ∧ Says e m ∧ m.p1 < 2 ^ 53 ∧ m.p2 < 2 ^ 53
  vertex : e.isEdge = false → ms = []

/-- A written line does what it says. -/
theorem step_written {e : Entry} {l : Str} (hw : Written e l) (hu : Usable e) (s : State) :
    ∃ s' ms, step s l = ok s' ∧ Adds e s s' ms := by
  cases e with
  | vertex =>
    have key : ∀ kw : String, (kw = "VERTEX_SE2" ∨ kw = "VERTEX_SE3:QUAT") → (∃ ws, LineOf kw ws l) →
        step s l = ok { s with token := kw.toList } := by
      rintro kw hk ⟨ws, h⟩
      obtain ⟨rest, ht, -, -⟩ := lineOf_token (Or.inr (Or.inr hk)) h s.token
      unfold step
      simp only [ht]
      rcases hk with rfl | rfl
      · rw [if_neg (by decide), if_neg (by decide), if_pos (by decide)]
      · rw [if_neg (by decide), if_neg (by decide), if_pos (by decide)]
    have fin : ∀ t, Adds .vertex s { s with token := t } [] := fun t =>
      ⟨by simp, by simp [Entry.isEdge], fun _ => rfl⟩
    rcases hw with hw | hw
    · exact ⟨_, [], key _ (Or.inl rfl) hw, fin _⟩
    · exact ⟨_, [], key _ (Or.inr rfl) hw, fin _⟩
  | edge2 i j v =>
    obtain ⟨wi, wj, ws, hi, hj, hv, hl⟩ := hw
    obtain ⟨b1, b2, -⟩ := id hu
    obtain ⟨rest, ht, hs, -⟩ := lineOf_token (Or.inl rfl) hl s.token
    obtain ⟨rest1, e1, hs1⟩ := pullNat_spaced hi (by omega) hs s.i
    obtain ⟨rest2, e2, hs2⟩ := pullNat_spaced hj (by omega) hs1 s.j
    have hr := pullRegs_eq (rs := regs2) (by decide) (by rw [List.length_ofFn]; rfl) hv hs2 s.reg
    obtain ⟨m, hm, hsays⟩ := edge2_says hu hr
    obtain ⟨-, -, p1, p2, -⟩ := edge2_ok hm
    exact ⟨_, [m], step_edge2 ht e1 e2 hm (maxPair_small (by omega) (by omega)), rfl,
      fun _ => ⟨m, rfl, hsays, by omega, by omega⟩, by simp [Entry.isEdge]⟩
  | edge3 i j v =>
    obtain ⟨wi, wj, ws, hi, hj, hv, hl⟩ := hw
    obtain ⟨b1, b2, -⟩ := id hu
    obtain ⟨rest, ht, hs, -⟩ := lineOf_token (Or.inr (Or.inl rfl)) hl s.token
    obtain ⟨rest1, e1, hs1⟩ := pullNat_spaced hi (by omega) hs s.i
    obtain ⟨rest2, e2, hs2⟩ := pullNat_spaced hj (by omega) hs1 s.j
    have hr := pullRegs_eq (rs := regs3) (by decide) (by rw [List.length_ofFn]; rfl) hv hs2 s.reg
    obtain ⟨m, hm, hsays⟩ := edge3_says hu hr
    obtain ⟨-, -, p1, p2, -⟩ := edge3_ok hm
    exact ⟨_, [m], step_edge3 ht e1 e2 hm (maxPair_small (by omega) (by omega)), rfl,
      fun _ => ⟨m, rfl, hsays, by omega, by omega⟩, by simp [Entry.isEdge]⟩

/-- All lines of a well-formed file. -/
theorem run_written {es : List Entry} {ls : List Str} (hw : List.Forall₂ Written es ls) (hu : ∀ e ∈ es, Usable e)
    (s : State) :
    ∃ s' ms, Res.foldl step s ls = ok s' ∧ s'.out = s.out ++ ms ∧
      List.Forall₂ Says (es.filter Entry.isEdge) ms ∧ ∀ m ∈ ms, m.p1 < 2 ^ 53 ∧ m.p2 < 2 ^ 53 := by
  induction hw generalizing s with
  | nil => exact ⟨s, [], rfl, by simp, List.Forall₂.nil, by simp⟩
  | @cons e l es ls hw _ ih =>
    obtain ⟨s1, ms1, h1, ha⟩ := step_written hw (hu e (by simp)) s
    obtain ⟨s2, ms2, h2, ho, hf, hb⟩ := ih (fun x hx => hu x (by simp [hx])) s1
    refine ⟨s2, ms1 ++ ms2, ?_, by rw [ho, ha.out, List.append_assoc], ?_, ?_⟩
    · rw [Res.foldl, h1]
      exact h2
    · cases he : e.isEdge with
      | true =>
        obtain ⟨m, rfl, hm, -⟩ := ha.edge he
        rw [List.filter_cons_of_pos he]
        exact List.Forall₂.cons hm hf
      | false =>
        rw [ha.vertex he, List.filter_cons_of_neg (by simp [he])]
        exact hf
    · intro m hm
      rcases List.mem_append.1 hm with hm | hm
      · cases he : e.isEdge with
        | true =>
          obtain ⟨m', rfl, -, b1, b2⟩ := ha.edge he
          rw [List.mem_singleton.1 hm]
          exact ⟨b1, b2⟩
        | false => rw [ha.vertex he] at hm; simp at hm
      · exact hb m hm

/-! ### Lines without data -/

theorem extractReal_blanks {b : Str} (hb : Blanks b) : extractReal b = .ended := by
  have h1 : (b ++ []).dropWhile isSpace = [] := dropWhile_blanks (blanks_space hb) (by intro c t e; cases e)
  rw [List.append_nil] at h1
  unfold extractReal
  simp only [h1, List.isEmpty_nil, if_true]

theorem pullRegs_blanks {b : Str} (hb : Blanks b) (rs : List Reg) (reg : Reg → Option ℝ) :
    pullRegs rs reg (some b) = reg := by
  cases rs with
  | nil => rfl
  | cons r rs =>
    simp only [pullRegs, pullReal, extractReal_blanks hb]
    rw [pullRegs_none, Function.update_eq_self]

theorem bare_pull {kw : String} (hk : kw = "EDGE_SE2" ∨ kw = "EDGE_SE3:QUAT") {i j : Nat} {l : Str}
    (h : BareEdge kw i j l) (hi : i < 2 ^ 53) (hj : j < 2 ^ 53) (tok : Str) (vi vj : Option Nat) :
    ∃ r0 r1 b, firstToken tok l = (kw.toList, some r0) ∧ pullNat vi (some r0) = (some i, some r1) ∧
      pullNat vj (some r1) = (some j, some b) ∧ Blanks b := by
  obtain ⟨b, b1, b2, b3, wi, wj, hb, hb1, hb2, hb3, n1, n2, hwi, hwj, rfl⟩ := h
  obtain ⟨k1, k2⟩ := kw_plain (w := kw) (by tauto)
  have a3 : Apart b3 := fun c t e => hb3 c (by rw [e]; simp)
  have ap : ∀ (b : Str) (r : Str), Blanks b → b ≠ [] → Apart (b ++ r) := by
    intro b r hb hne c t e
    cases b with
    | nil => exact absurd rfl hne
    | cons x b =>
      simp only [List.cons_append, List.cons.injEq] at e
      exact e.1 ▸ hb x (by simp)
  refine ⟨b1 ++ (wi ++ (b2 ++ (wj ++ b3))), b2 ++ (wj ++ b3), b3,
    firstToken_word hb k1 k2 (ap b1 _ hb1 n1) tok, ?_, ?_, hb3⟩
  · simp only [pullNat]
    rw [extractNat_eq hb1 hwi (by omega) (ap b2 _ hb2 n2)]
  · simp only [pullNat]
    rw [extractNat_eq hb2 hwj (by omega) a3]

theorem bare_newline {kw : String} (hk : kw = "EDGE_SE2" ∨ kw = "EDGE_SE3:QUAT") {i j : Nat} {l : Str}
    (h : BareEdge kw i j l) : '\n' ∉ l := by
  obtain ⟨b, b1, b2, b3, wi, wj, hb, hb1, hb2, hb3, -, -, hwi, hwj, rfl⟩ := h
  have nb : ∀ b : Str, Blanks b → '\n' ∉ b := fun b hb hc => absurd (hb _ hc) (by unfold Blank; decide)
  have nd : ∀ {n} {w : Str}, IndexText n w → '\n' ∉ w := fun hw hc => absurd (hw.2.1 _ hc) (by decide)
  have nk : '\n' ∉ kw.toList := by rcases hk with rfl | rfl <;> decide
  simp only [List.mem_append, not_or]
  exact ⟨nb b hb, nk, nb b1 hb1, nd hwi, nb b2 hb2, nd hwj, nb b3 hb3⟩

/-- A line with endpoints only keeps the data of the edge before. -/
theorem step_bare2 {s s' : State} {l t : Str} (h : step s l = ok s') (he : s'.token = kwEdge2) {i j : Nat}
    (hi : i < 2 ^ 53) (hj : j < 2 ^ 53) (ht : BareEdge "EDGE_SE2" i j t) :
    ∃ m s'', s'.out = s.out ++ [m] ∧ step s' t = ok s'' ∧ s''.out = s'.out ++
      [{ m with p1 := i, p2 := j, fixedWeight := decide ((i + 1) % 2 ^ 64 = j) }] := by
  obtain ⟨-, h⟩ := step_ok h
  rcases h with ⟨-, i', j', m, v, -, -, hm, hv, ho, hn⟩ | ⟨ht, -⟩ | ⟨ht, -⟩
  · obtain ⟨r0, r1, b, e0, e1, e2, hb⟩ := bare_pull (Or.inl rfl) ht hi hj s'.token s'.i s'.j
    have em := (edge2_ok hm).2.2.2.2.2 i j
    rw [← pullRegs_blanks hb regs2 s'.reg] at em
    exact ⟨m, _, ho, step_edge2 e0 e1 e2 em (maxPair_small hi hj), rfl⟩
  · rw [he] at ht; exact absurd ht (by decide)
  · rw [he] at ht; exact absurd ht (by decide)

theorem step_bare3 {s s' : State} {l t : Str} (h : step s l = ok s') (he : s'.token = kwEdge3) {i j : Nat}
    (hi : i < 2 ^ 53) (hj : j < 2 ^ 53) (ht : BareEdge "EDGE_SE3:QUAT" i j t) :
    ∃ m s'', s'.out = s.out ++ [m] ∧ step s' t = ok s'' ∧ s''.out = s'.out ++
      [{ m with p1 := i, p2 := j, fixedWeight := decide ((i + 1) % 2 ^ 64 = j) }] := by
  obtain ⟨-, h⟩ := step_ok h
  rcases h with ⟨ht, -⟩ | ⟨-, i', j', m, v, -, -, hm, hv, ho, hn⟩ | ⟨ht, -⟩
  · rw [he] at ht; exact absurd ht (by decide)
  · obtain ⟨r0, r1, b, e0, e1, e2, hb⟩ := bare_pull (Or.inr rfl) ht hi hj s'.token s'.i s'.j
    have em := (edge3_ok hm).2.2.2.2.2 i j
    rw [← pullRegs_blanks hb regs3 s'.reg] at em
    exact ⟨m, _, ho, step_edge3 e0 e1 e2 em (maxPair_small hi hj), rfl⟩
  · rw [he] at ht; exact absurd ht (by decide)

/-- A first edge line with endpoints only reads variables that have no value. -/
theorem step_bare_first {kw : String} (hk : kw = "EDGE_SE2" ∨ kw = "EDGE_SE3:QUAT") {s : State}
    (hs : s.reg .dx = none) {i j : Nat} (hi : i < 2 ^ 53) (hj : j < 2 ^ 53) {t : Str} (ht : BareEdge kw i j t) :
    step s t = ub := by
  obtain ⟨r0, r1, b, e0, e1, e2, hb⟩ := bare_pull hk ht hi hj s.token s.i s.j
  unfold step
  rcases hk with rfl | rfl
  · simp only [e0, e1, e2, show "EDGE_SE2".toList = kwEdge2 from rfl, if_true, get, ok_bind, pullRegs_blanks hb,
      G2o.edge2, hs]
    rfl
  · simp only [e0, e1, e2, show "EDGE_SE3:QUAT".toList = kwEdge3 from rfl, show ¬ (kwEdge3 = kwEdge2) by decide,
      if_false, if_true, get, ok_bind, pullRegs_blanks hb, G2o.edge3, hs]
    rfl

/-! ### Any file -/

/-- What holds of the result after every line. -/
def Fits (s : State) : Prop :=
  (∀ m ∈ s.out, m.r1 = 0 ∧ m.r2 = 0 ∧ m.weight = 1) ∧ (s.out = [] → s.numPoses = 0) ∧
    ((∀ m ∈ s.out, m.p1 < 2 ^ 53 ∧ m.p2 < 2 ^ 53) → s.out ≠ [] →
      (∀ m ∈ s.out, m.p1 ≤ s.numPoses ∧ m.p2 ≤ s.numPoses) ∧
        ∃ m ∈ s.out, m.p1 = s.numPoses ∨ m.p2 = s.numPoses)

theorem fits_push {s s' : State} {m : Meas ℝ} {v : Nat} (h : Fits s) (hm : m.r1 = 0 ∧ m.r2 = 0 ∧ m.weight = 1)
    (hv : maxPair m.p1 m.p2 = ok v) (ho : s'.out = s.out ++ [m]) (hn : s'.numPoses = max s.numPoses v) :
    Fits s' := by
  obtain ⟨h1, h2, h3⟩ := h
  refine ⟨?_, by simp [ho], ?_⟩
  · intro x hx
    rw [ho] at hx
    rcases List.mem_append.1 hx with hx | hx
    · exact h1 x hx
    · rw [List.mem_singleton.1 hx]; exact hm
  · intro hb _
    rw [ho] at hb
    have hbm := hb m (by simp)
    rw [maxPair_small hbm.1 hbm.2] at hv
    cases hv
    rw [ho, hn]
    by_cases he : s.out = []
    · rw [he, h2 he]
      refine ⟨?_, m, by simp, by omega⟩
      intro x hx
      simp only [List.nil_append, List.mem_singleton] at hx
      subst hx
      omega
    · obtain ⟨a, x, hx, b⟩ := h3 (fun y hy => hb y (by simp [hy])) he
      refine ⟨?_, ?_⟩
      · intro y hy
        rcases List.mem_append.1 hy with hy | hy
        · have := a y hy; omega
        · rw [List.mem_singleton.1 hy]; omega
      · by_cases hc : s.numPoses ≤ max m.p1 m.p2
        · exact ⟨m, by simp, by omega⟩
        · exact ⟨x, by simp [hx], by omega⟩

theorem fits_step {s s' : State} {l : Str} (h : Fits s) (hs : step s l = ok s') : Fits s' := by
  obtain ⟨-, h'⟩ := step_ok hs
  rcases h' with ⟨-, i, j, m, v, -, -, hm, hv, ho, hn⟩ | ⟨-, i, j, m, v, -, -, hm, hv, ho, hn⟩ | ⟨-, h'⟩
  · obtain ⟨a, b, -, -, c, -⟩ := edge2_ok hm
    exact fits_push h ⟨a, b, c⟩ hv ho hn
  · obtain ⟨a, b, -, -, c, -⟩ := edge3_ok hm
    exact fits_push h ⟨a, b, c⟩ hv ho hn
  · rw [h']
    exact h

theorem foldl_inv {P : State → Prop} (hP : ∀ s l s', P s → step s l = ok s' → P s') {ls : List Str} {s s' : State}
    (h : P s) (hs : Res.foldl step s ls = ok s') : P s' := by
  induction ls generalizing s with
  | nil => cases hs; exact h
  | cons l ls ih =>
    rw [Res.foldl] at hs
    obtain ⟨s1, h1, h2⟩ := bind_eq_ok.1 hs
    exact ih (hP _ _ _ h h1) h2

theorem foldl_append_ok {ls : List Str} {l : Str} {s s' : State} (h : Res.foldl step s (ls ++ [l]) = ok s') :
    ∃ s1, Res.foldl step s ls = ok s1 ∧ step s1 l = ok s' := by
  induction ls generalizing s with
  | nil =>
    rw [List.nil_append, Res.foldl] at h
    obtain ⟨s1, h1, h2⟩ := bind_eq_ok.1 h
    cases h2
    exact ⟨s, rfl, h1⟩
  | cons a ls ih =>
    rw [List.cons_append, Res.foldl] at h
    obtain ⟨s1, h1, h2⟩ := bind_eq_ok.1 h
    obtain ⟨s2, h3, h4⟩ := ih h2
    exact ⟨s2, by rw [Res.foldl, h1]; exact h3, h4⟩

theorem foldl_snoc {ls : List Str} {l : Str} {s s1 : State} (h : Res.foldl step s ls = ok s1) :
    Res.foldl step s (ls ++ [l]) = step s1 l := by
  induction ls generalizing s with
  | nil =>
    cases h
    rw [List.nil_append, Res.foldl]
    generalize step s1 l = r
    cases r <;> rfl
  | cons a ls ih =>
    rw [Res.foldl] at h
    obtain ⟨s2, h1, h2⟩ := bind_eq_ok.1 h
    rw [List.cons_append, Res.foldl, h1]
    exact ih h2

theorem foldl_mem {ls : List Str} {l : Str} (hl : l ∈ ls) {s s' : State} (h : Res.foldl step s ls = ok s') :
    ∃ s1 s2, step s1 l = ok s2 := by
  induction ls generalizing s with
  | nil => simp at hl
  | cons a ls ih =>
    rw [Res.foldl] at h
    obtain ⟨s1, h1, h2⟩ := bind_eq_ok.1 h
    rcases List.mem_cons.1 hl with rfl | hl
    · exact ⟨_, _, h1⟩
    · exact ih hl h2

theorem foldl_abort {ls rest : List Str} {s : State} (h : Res.foldl step s ls = abort) :
    Res.foldl step s (ls ++ rest) = abort := by
  induction ls generalizing s with
  | nil => cases h
  | cons a ls ih =>
    rw [List.cons_append, Res.foldl]
    rw [Res.foldl] at h
    revert h
    generalize step s a = r
    intro h
    cases r with
    | ok s1 => exact ih h
    | abort => rfl
    | throws => cases h
    | ub => cases h
    | nonfinite => cases h

theorem step_unknown {l : Str} (hn : '\n' ∉ l) (h1 : ¬ Blanks l) (h2 : ¬ KnownLine l) (s : State) :
    step s l = abort := by
  have fw : ∀ w, (firstToken s.token l).1 = w → FirstWord w l := fun w hw => first_of_token hn h1 hw
  unfold step
  revert fw
  generalize firstToken s.token l = ft
  obtain ⟨tok, ss⟩ := ft
  intro fw
  simp only at fw ⊢
  have n2 : tok ≠ kwEdge2 := fun e => h2 (Or.inl (Or.inl (fw _ e)))
  have n3 : tok ≠ kwEdge3 := fun e => h2 (Or.inl (Or.inr (fw _ e)))
  rw [if_neg n2, if_neg n3, if_neg]
  rintro (e | e)
  · exact h2 (Or.inr (Or.inl (fw _ e)))
  · exact h2 (Or.inr (Or.inr (fw _ e)))

theorem read_ok {text : Str} {ms : List (Meas ℝ)} {n : Nat} {ls : List Str} (hf : FileOf ls text)
    (h : readG2o (some text) = ok (ms, n)) :
    ∃ s, Res.foldl step start ls = ok s ∧ s.out = ms ∧ n = (s.numPoses + 1) % 2 ^ 64 := by
  rw [read_eq hf] at h
  obtain ⟨s, h1, h2⟩ := bind_eq_ok.1 h
  cases h2
  exact ⟨s, h1, rfl, rfl⟩

theorem read_of {text : Str} {ls : List Str} (hf : FileOf ls text) {s : State} (h : Res.foldl step start ls = ok s) :
    readG2o (some text) = ok (s.out, (s.numPoses + 1) % 2 ^ 64) := by
  rw [read_eq hf, h]; rfl

/-! ### Counting -/

theorem edge_token {l : Str} (hn : '\n' ∉ l) (hb : ¬ Blanks l) (tok : Str) :
    EdgeLine l ↔ (firstToken tok l).1 = kwEdge2 ∨ (firstToken tok l).1 = kwEdge3 := by
  constructor
  · rintro (h | h)
    · exact Or.inl (firstToken_first h hn tok)
    · exact Or.inr (firstToken_first h hn tok)
  · rintro (h | h)
    · exact Or.inl (first_of_token hn hb h)
    · exact Or.inr (first_of_token hn hb h)

theorem step_count {s s' : State} {l : Str} (h : step s l = ok s') :
    ((s'.token = kwEdge2 ∨ s'.token = kwEdge3) ∧ s'.out.length = s.out.length + 1) ∨
      (¬ (s'.token = kwEdge2 ∨ s'.token = kwEdge3) ∧ s'.out.length = s.out.length) := by
  obtain ⟨-, h'⟩ := step_ok h
  rcases h' with ⟨ht, i, j, m, v, -, -, -, -, ho, -⟩ | ⟨ht, i, j, m, v, -, -, -, -, ho, -⟩ | ⟨ht, h'⟩
  · exact Or.inl ⟨Or.inl ht, by rw [ho]; simp⟩
  · exact Or.inl ⟨Or.inr ht, by rw [ho]; simp⟩
  · refine Or.inr ⟨?_, by rw [h']⟩
    rcases ht with ht | ht <;> rw [ht] <;> decide

theorem repeats_append {ls : List Str} {l : Str} {k : Nat} (hk : k < ls.length) :
    Repeats (ls ++ [l]) k ↔ Repeats ls k := by
  have e : ∀ i, i ≤ k → (ls ++ [l])[i]? = ls[i]? := fun i hi => List.getElem?_append_left (by omega)
  unfold Repeats
  constructor
  · rintro ⟨j, hj, h1, h2⟩
    exact ⟨j, hj, by rwa [e j hj] at h1, fun i a b => by have := h2 i a b; rwa [e i b] at this⟩
  · rintro ⟨j, hj, h1, h2⟩
    exact ⟨j, hj, by rwa [e j hj], fun i a b => by have := h2 i a b; rwa [e i b]⟩

theorem repeats_last {ls : List Str} {l : Str} :
    Repeats (ls ++ [l]) ls.length ↔ EdgeLine l ∨ (Blanks l ∧ ls ≠ [] ∧ Repeats ls (ls.length - 1)) := by
  have el : (ls ++ [l])[ls.length]? = some l := by simp
  constructor
  · rintro ⟨j, hj, ⟨x, hx, h1⟩, h2⟩
    by_cases hj' : j = ls.length
    · subst hj'
      rw [el] at hx
      cases hx
      exact Or.inl h1
    · right
      obtain ⟨y, hy, hb⟩ := h2 ls.length (by omega) le_rfl
      rw [el] at hy
      cases hy
      have hne : ls ≠ [] := by rintro rfl; simp at hj hj'; omega
      have hp := List.length_pos_iff.2 hne
      refine ⟨hb, hne, (repeats_append (l := l) (by omega)).1 ⟨j, by omega, ⟨x, hx, h1⟩, fun i a b => h2 i a (by omega)⟩⟩
  · rintro (h | ⟨hb, hne, h⟩)
    · exact ⟨ls.length, le_rfl, ⟨l, el, h⟩, fun i a b => by omega⟩
    · have hp := List.length_pos_iff.2 hne
      obtain ⟨j, hj, h1, h2⟩ := (repeats_append (l := l) (by omega)).2 h
      refine ⟨j, by omega, h1, fun i a b => ?_⟩
      by_cases hi : i = ls.length
      · subst hi; exact ⟨l, el, hb⟩
      · exact h2 i a (by omega)

open Classical in
theorem count_lines {ls : List Str} (hn : ∀ l ∈ ls, '\n' ∉ l) {s : State} (h : Res.foldl step start ls = ok s) :
    s.out.length = (List.range ls.length).countP (fun k => decide (Repeats ls k)) ∧
      (ls ≠ [] → ((s.token = kwEdge2 ∨ s.token = kwEdge3) ↔ Repeats ls (ls.length - 1))) ∧
      (ls = [] → s.token = []) := by
  induction ls using List.reverseRecOn generalizing s with
  | nil => cases h; exact ⟨rfl, by simp, fun _ => rfl⟩
  | append_singleton ls l ih =>
    obtain ⟨s1, h1, h2⟩ := foldl_append_ok h
    obtain ⟨c, t1, t2⟩ := ih (fun x hx => hn x (by simp [hx])) h1
    have hl : '\n' ∉ l := hn l (by simp)
    have hlast : (s.token = kwEdge2 ∨ s.token = kwEdge3) ↔ Repeats (ls ++ [l]) ls.length := by
      rw [repeats_last, (step_ok h2).1]
      by_cases hb : Blanks l
      · rw [firstToken_blanks hb]
        have ne : ¬ EdgeLine l := by
          rintro (h | h)
          · exact not_blanks_of_first h hb
          · exact not_blanks_of_first h hb
        by_cases he : ls = []
        · rw [t2 he]
          simp only [ne, hb, he, ne_eq, not_true_eq_false, false_and, and_false, or_false, iff_false]
          decide
        · simp only [ne, hb, he, ne_eq, not_false_eq_true, true_and, false_or]
          exact t1 he
      · rw [← edge_token hl hb]
        simp only [hb, false_and, or_false]
    refine ⟨?_, ?_, by simp⟩
    · rw [List.length_append, List.length_singleton, List.range_succ, List.countP_append]
      have e : (List.range ls.length).countP (fun k => decide (Repeats (ls ++ [l]) k)) =
          (List.range ls.length).countP (fun k => decide (Repeats ls k)) := by
        refine List.countP_congr fun k hk => ?_
        simp only [decide_eq_true_eq]
        exact repeats_append (List.mem_range.1 hk)
      rw [e, ← c]
      rcases step_count h2 with ⟨ht, hc⟩ | ⟨ht, hc⟩
      · rw [hc]
        simp [hlast.1 ht]
      · rw [hc]
        rw [hlast] at ht
        simp [ht]
    · intro _
      rw [hlast]
      simp

theorem repeats_no_blanks {ls : List Str} (hb : ∀ l ∈ ls, ¬ Blanks l) {k : Nat} (hk : k < ls.length) :
    Repeats ls k ↔ EdgeLine ls[k] := by
  constructor
  · rintro ⟨j, hj, ⟨x, hx, h1⟩, h2⟩
    by_cases e : j = k
    · subst e
      rw [List.getElem?_eq_getElem hk] at hx
      cases hx
      exact h1
    · obtain ⟨y, hy, hbl⟩ := h2 k (by omega) le_rfl
      exact absurd hbl (hb y (List.mem_of_getElem? hy))
  · intro h
    exact ⟨k, le_rfl, ⟨_, List.getElem?_eq_getElem hk, h⟩, fun i a b => by omega⟩

open Classical in
theorem countP_range {α : Type} (p : α → Prop) (ls : List α) (q : Nat → Prop)
    (h : ∀ k (hk : k < ls.length), q k ↔ p ls[k]) :
    (List.range ls.length).countP (fun k => decide (q k)) = ls.countP (fun l => decide (p l)) := by
  induction ls using List.reverseRecOn generalizing q with
  | nil => rfl
  | append_singleton ls l ih =>
    rw [List.length_append, List.length_singleton, List.range_succ, List.countP_append, List.countP_append]
    rw [ih q fun k hk => by
      rw [h k (by simp; omega), List.getElem_append_left hk]]
    have := h ls.length (by simp)
    simp only [List.getElem_concat_length] at this
    simp [this]

end Dpgo.G2o
