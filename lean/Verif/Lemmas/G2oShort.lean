import Verif.Spec.G2oShort
import Verif.Lemmas.G2oRun

/-! # Edge lines that end before the second endpoint -/

namespace Dpgo.G2o

open Res Text Spec Spec.G2o

theorem extractNat_blanks {b : Str} (hb : Blanks b) : extractNat b = .ended := by
  have h1 : (b ++ []).dropWhile isSpace = [] := dropWhile_blanks (blanks_space hb) (by intro c t e; cases e)
  rw [List.append_nil] at h1
  unfold extractNat
  simp only [h1, List.isEmpty_nil, if_true]

theorem pullNat_blanks {b : Str} (hb : Blanks b) (v : Option Nat) : pullNat v (some b) = (v, none) := by
  simp only [pullNat, extractNat_blanks hb]

theorem blanks_apart {b : Str} (hb : Blanks b) : Apart b := fun c t e => hb c (by rw [e]; simp)

theorem blanks_newline {b : Str} (hb : Blanks b) : '\n' ∉ b :=
  fun hc => absurd (hb _ hc) (by unfold Blank; decide)

theorem kw_newline {kw : String} (hk : kw = "EDGE_SE2" ∨ kw = "EDGE_SE3:QUAT") : '\n' ∉ kw.toList := by
  rcases hk with rfl | rfl <;> decide

theorem keyword_newline {kw : String} (hk : kw = "EDGE_SE2" ∨ kw = "EDGE_SE3:QUAT") {l : Str}
    (h : LoneKeyword kw l) : '\n' ∉ l := by
  obtain ⟨b, b1, hb, hb1, rfl⟩ := h
  simp only [List.mem_append, not_or]
  exact ⟨blanks_newline hb, kw_newline hk, blanks_newline hb1⟩

theorem end_newline {kw : String} (hk : kw = "EDGE_SE2" ∨ kw = "EDGE_SE3:QUAT") {i : Nat} {l : Str}
    (h : LoneEnd kw i l) : '\n' ∉ l := by
  obtain ⟨b, b1, b2, wi, hb, hb1, hb2, -, hw, rfl⟩ := h
  simp only [List.mem_append, not_or]
  exact ⟨blanks_newline hb, kw_newline hk, blanks_newline hb1, fun hc => absurd (hw.2.1 _ hc) (by decide),
    blanks_newline hb2⟩

/-- A line with the keyword only repeats the edge. -/
theorem step_keyword {kw : String} (hk : kw = "EDGE_SE2" ∨ kw = "EDGE_SE3:QUAT") {s s' : State} {l t : Str}
    (h : step s l = ok s') (he : s'.token = kw.toList) (ht : LoneKeyword kw t) :
    ∃ m, s'.out = s.out ++ [m] ∧ step s' t = ok { s' with out := s'.out ++ [m] } := by
  obtain ⟨b, b1, hb, hb1, rfl⟩ := ht
  obtain ⟨k1, k2⟩ := kw_plain (w := kw) (by tauto)
  have e0 := firstToken_word hb k1 k2 (blanks_apart hb1) s'.token
  obtain ⟨-, h⟩ := step_ok h
  rcases hk with rfl | rfl
  · rcases h with ⟨-, i, j, m, v, hi, hj, hm, hv, ho, hn⟩ | ⟨c, -⟩ | ⟨c, -⟩
    · refine ⟨m, ho, ?_⟩
      have e := step_edge2 (s := s') e0 (by rw [pullNat_blanks hb1, hi]) (ss1 := none) (ss2 := none) (j := j)
        (by simp only [pullNat, hj]) (by rw [pullRegs_none]; exact hm) hv
      rw [e, pullRegs_none]
      cases s'
      simp only at *
      subst hi hj he hn
      congr 2
      omega
    · rw [he] at c; exact absurd c (by decide)
    · rw [he] at c; exact absurd c (by decide)
  · rcases h with ⟨c, -⟩ | ⟨-, i, j, m, v, hi, hj, hm, hv, ho, hn⟩ | ⟨c, -⟩
    · rw [he] at c; exact absurd c (by decide)
    · refine ⟨m, ho, ?_⟩
      have e := step_edge3 (s := s') e0 (by rw [pullNat_blanks hb1, hi]) (ss1 := none) (ss2 := none) (j := j)
        (by simp only [pullNat, hj]) (by rw [pullRegs_none]; exact hm) hv
      rw [e, pullRegs_none]
      cases s'
      simp only at *
      subst hi hj he hn
      congr 2
      omega
    · rw [he] at c; exact absurd c (by decide)

theorem end_pull {kw : String} (hk : kw = "EDGE_SE2" ∨ kw = "EDGE_SE3:QUAT") {i : Nat} {t : Str}
    (ht : LoneEnd kw i t) (hi : i < 2 ^ 53) (tok : Str) (vi vj : Option Nat) :
    ∃ r0 r1, firstToken tok t = (kw.toList, some r0) ∧ pullNat vi (some r0) = (some i, some r1) ∧
      pullNat vj (some r1) = (vj, none) := by
  obtain ⟨b, b1, b2, wi, hb, hb1, hb2, n1, hw, rfl⟩ := ht
  obtain ⟨k1, k2⟩ := kw_plain (w := kw) (by tauto)
  have ap : Apart (b1 ++ (wi ++ b2)) := by
    intro c t e
    cases b1 with
    | nil => exact absurd rfl n1
    | cons x b =>
      simp only [List.cons_append, List.cons.injEq] at e
      exact e.1 ▸ hb1 x (by simp)
  refine ⟨_, b2, firstToken_word hb k1 k2 ap tok, ?_, pullNat_blanks hb2 _⟩
  simp only [pullNat]
  rw [extractNat_eq hb1 hw (by omega) (blanks_apart hb2)]

/-- A line with one endpoint keeps the other one and the data of the edge before. -/
theorem step_end {kw : String} (hk : kw = "EDGE_SE2" ∨ kw = "EDGE_SE3:QUAT") {s s' : State} {l t : Str}
    (h : step s l = ok s') (he : s'.token = kw.toList) {i : Nat} (hi : i < 2 ^ 53) (ht : LoneEnd kw i t) :
    ∃ m, s'.out = s.out ++ [m] ∧ (m.p2 < 2 ^ 53 → ∃ s'', step s' t = ok s'' ∧ s''.out = s'.out ++
      [{ m with p1 := i, fixedWeight := decide ((i + 1) % 2 ^ 64 = m.p2) }]) := by
  obtain ⟨r0, r1, e0, e1, e2⟩ := end_pull hk ht hi s'.token s'.i s'.j
  obtain ⟨-, h⟩ := step_ok h
  rcases hk with rfl | rfl
  · rcases h with ⟨-, i', j, m, v, -, hj, hm, hv, ho, hn⟩ | ⟨c, -⟩ | ⟨c, -⟩
    · obtain ⟨-, -, -, hp, -, em⟩ := edge2_ok hm
      refine ⟨m, ho, fun hb => ?_⟩
      rw [hj] at e2
      have em := em i j
      rw [← hp] at em e2
      rw [← pullRegs_none regs2 s'.reg] at em
      exact ⟨_, step_edge2 e0 e1 (by rw [hj, ← hp]; exact e2) em
        (maxPair_small hi hb), rfl⟩
    · rw [he] at c; exact absurd c (by decide)
    · rw [he] at c; exact absurd c (by decide)
  · rcases h with ⟨c, -⟩ | ⟨-, i', j, m, v, -, hj, hm, hv, ho, hn⟩ | ⟨c, -⟩
    · rw [he] at c; exact absurd c (by decide)
    · obtain ⟨-, -, -, hp, -, em⟩ := edge3_ok hm
      refine ⟨m, ho, fun hb => ?_⟩
      rw [hj] at e2
      have em := em i j
      rw [← hp] at em e2
      rw [← pullRegs_none regs3 s'.reg] at em
      exact ⟨_, step_edge3 e0 e1 (by rw [hj, ← hp]; exact e2) em
        (maxPair_small hi hb), rfl⟩
    · rw [he] at c; exact absurd c (by decide)

end Dpgo.G2o
