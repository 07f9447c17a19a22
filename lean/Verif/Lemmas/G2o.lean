import Verif.Model.G2o
import Verif.Spec.G2o
import Verif.Spec.Chordal
import Verif.Lemmas.TextRound
import Mathlib.LinearAlgebra.Matrix.NonsingularInverse
import Mathlib.Data.List.TakeWhile
import Mathlib.Tactic.FieldSimp
import Mathlib.Tactic.FinCases

/-!
# Reading the lines of a pose-graph file
-/

namespace Dpgo.G2o

open Res Text Spec Spec.G2o

/-! ### Words -/

theorem blank_space {c : Char} (h : Blank c) : isSpace c = true := by
  simp only [Blank, List.mem_cons, List.not_mem_nil, or_false] at h
  rcases h with rfl | rfl | rfl | rfl | rfl <;> decide

theorem space_blank {c : Char} (h : isSpace c = true) (hn : c ≠ '\n') : Blank c := by
  simp only [isSpace, Bool.or_eq_true, beq_iff_eq, Bool.and_eq_true, decide_eq_true_eq] at h
  simp only [Blank, List.mem_cons, List.not_mem_nil, or_false]
  rcases h with h | ⟨h1, h2⟩
  · exact Or.inl h
  · have key : ∀ d : Char, c.toNat = d.toNat → c = d := fun d h => by
      rw [← Char.ofNat_toNat c, h, Char.ofNat_toNat]
    have h3 : c.toNat ≠ 10 := fun h => hn (key '\n' h)
    have : c.toNat = 9 ∨ c.toNat = 11 ∨ c.toNat = 12 ∨ c.toNat = 13 := by omega
    rcases this with h | h | h | h
    · exact Or.inr (Or.inl (key '\t' h))
    · exact Or.inr (Or.inr (Or.inl (key '\x0b' h)))
    · exact Or.inr (Or.inr (Or.inr (Or.inl (key '\x0c' h))))
    · exact Or.inr (Or.inr (Or.inr (Or.inr (key '\r' h))))

theorem blanks_space {b : Str} (h : Blanks b) : ∀ c ∈ b, isSpace c = true := fun c hc => blank_space (h c hc)

theorem blank_stops {c : Char} (h : Blank c) : c.isDigit = false ∧ c ≠ '.' ∧ c ≠ 'e' ∧ c ≠ 'E' := by
  simp only [Blank, List.mem_cons, List.not_mem_nil, or_false] at h
  rcases h with rfl | rfl | rfl | rfl | rfl <;> decide

theorem spaced_apart {ws : List Str} {rest : Str} (h : Spaced ws rest) : Apart rest := by
  cases h with
  | nil h => exact h
  | @cons b w rest ws hb hne _ =>
    intro c t e
    cases b with
    | nil => exact absurd rfl hne
    | cons x b =>
      simp only [List.cons_append, List.cons.injEq] at e
      rw [← e.1]
      exact hb x (by simp)

theorem extractWord_eq {b w rest : Str} (hb : Blanks b) (hne : w ≠ []) (hw : ∀ c ∈ w, isSpace c = false)
    (hr : Apart rest) : extractWord (b ++ (w ++ rest)) = .got w rest := by
  have h1 : (b ++ (w ++ rest)).dropWhile isSpace = w ++ rest := by
    refine dropWhile_blanks (blanks_space hb) ?_
    intro c t e
    cases w with
    | nil => exact absurd rfl hne
    | cons x l =>
      simp only [List.cons_append, List.cons.injEq] at e
      rw [← e.1]
      exact hw x (by simp)
  have h2 : (w ++ rest).isEmpty = false := by
    rw [List.isEmpty_eq_false_iff]
    intro e
    exact hne (List.append_eq_nil_iff.1 e).1
  have h3 : (w ++ rest).span (fun c => !(isSpace c)) = (w, rest) := by
    refine span_eq (fun c hc => by rw [hw c hc]; rfl) ?_
    intro c t e
    rw [blank_space (hr c t e)]
    rfl
  unfold extractWord
  simp only [h1, h2, h3, Bool.false_eq_true, if_false]

theorem extractWord_blanks {b : Str} (hb : Blanks b) : extractWord b = .ended := by
  have h1 : (b ++ []).dropWhile isSpace = [] := dropWhile_blanks (blanks_space hb) (by intro c t e; cases e)
  rw [List.append_nil] at h1
  unfold extractWord
  simp only [h1, List.isEmpty_nil, if_true]

/-- Every line is blank or has a first word. -/
theorem word_cases {l : Str} (h : '\n' ∉ l) :
    Blanks l ∨ ∃ b w rest, l = b ++ (w ++ rest) ∧ Blanks b ∧ w ≠ [] ∧ (∀ c ∈ w, isSpace c = false) ∧ Apart rest := by
  have e1 := List.takeWhile_append_dropWhile (p := isSpace) (l := l)
  have hb : Blanks (l.takeWhile isSpace) := by
    intro c hc
    refine space_blank (List.mem_takeWhile_imp hc) ?_
    rintro rfl
    exact h ((List.takeWhile_prefix isSpace).subset hc)
  by_cases hd : l.dropWhile isSpace = []
  · left
    rw [hd, List.append_nil] at e1
    rw [← e1]
    exact hb
  · right
    have e2 := List.takeWhile_append_dropWhile (p := fun c => !(isSpace c)) (l := l.dropWhile isSpace)
    refine ⟨l.takeWhile isSpace, (l.dropWhile isSpace).takeWhile (fun c => !(isSpace c)),
      (l.dropWhile isSpace).dropWhile (fun c => !(isSpace c)), ?_, hb, ?_, ?_, ?_⟩
    · rw [e2, e1]
    · cases hx : l.dropWhile isSpace with
      | nil => exact absurd hx hd
      | cons x t =>
        have : isSpace x = false := by
          have := List.head_dropWhile_not isSpace hd
          simpa [hx] using this
        rw [List.takeWhile_cons, this]
        simp
    · intro c hc
      have := List.mem_takeWhile_imp hc
      simpa using this
    · intro c t e
      have hne : (l.dropWhile isSpace).dropWhile (fun c => !(isSpace c)) ≠ [] := by rw [e]; simp
      have := List.head_dropWhile_not (fun c => !(isSpace c)) hne
      simp only [e, List.head_cons, Bool.not_eq_false'] at this
      refine space_blank (by simpa using this) ?_
      rintro rfl
      have m1 : '\n' ∈ (l.dropWhile isSpace).dropWhile (fun c => !(isSpace c)) := by rw [e]; simp
      exact h (List.dropWhile_subset _ (List.dropWhile_subset _ m1))

theorem extractNat_eq {b w rest : Str} {n : Nat} (hb : Blanks b) (hw : IndexText n w) (hn : n < 2 ^ 64)
    (hr : Apart rest) : extractNat (b ++ (w ++ rest)) = .got n rest := by
  obtain ⟨hne, hd, hv⟩ := hw
  have head : ∀ c t, w ++ rest = c :: t → c.isDigit = true := by
    intro c t e
    cases w with
    | nil => exact absurd rfl hne
    | cons x l =>
      simp only [List.cons_append, List.cons.injEq] at e
      rw [← e.1]
      exact hd x (by simp)
  have h1 : (b ++ (w ++ rest)).dropWhile isSpace = w ++ rest :=
    dropWhile_blanks (blanks_space hb) fun c t e => numChar_not_space (Or.inl (head c t e))
  have h2 : (w ++ rest).isEmpty = false := by
    rw [List.isEmpty_eq_false_iff]
    intro e
    exact hne (List.append_eq_nil_iff.1 e).1
  have h3 : sign (w ++ rest) = (false, w ++ rest) := sign_of_ne fun c t e => not_sign_of_digit (head c t e)
  have h4 : (w ++ rest).span Char.isDigit = (w, rest) :=
    span_eq hd fun c t e => (blank_stops (hr c t e)).1
  unfold extractNat
  simp only [h1, h2, h3, h4, List.isEmpty_eq_false_iff.2 hne, Bool.false_eq_true, if_false]
  rw [natOf_eq, hv, if_neg (by omega)]

theorem extractReal_eq {b w rest : Str} {x : ℝ} (hb : Blanks b) (hw : NumberText x w) (hr : Apart rest) :
    extractReal (b ++ (w ++ rest)) = .got x rest := by
  obtain ⟨n, h1, rfl, rfl⟩ := hw
  exact extractReal_text h1 (blanks_space hb) fun c t e => blank_stops (hr c t e)

/-! ### Registers -/

theorem pullRegs_none (rs : List Reg) (reg : Reg → Option ℝ) : pullRegs rs reg none = reg := by
  induction rs generalizing reg with
  | nil => rfl
  | cons r rs ih =>
    simp only [pullRegs, pullReal]
    rw [ih, Function.update_eq_self]

theorem pullRegs_other {rs : List Reg} {r : Reg} (h : r ∉ rs) (reg : Reg → Option ℝ) (ss : Option Str) :
    pullRegs rs reg ss r = reg r := by
  induction rs generalizing reg ss with
  | nil => rfl
  | cons a rs ih =>
    simp only [List.mem_cons, not_or] at h
    simp only [pullRegs]
    rw [ih h.2, Function.update_of_ne h.1]

theorem pullRegs_eq {rs : List Reg} {vs : List ℝ} {ws : List Str} {rest : Str} (hn : rs.Nodup)
    (hl : rs.length = vs.length) (hv : List.Forall₂ NumberText vs ws) (hs : Spaced ws rest) (reg : Reg → Option ℝ) :
    ∀ k (h1 : k < rs.length) (h2 : k < vs.length), pullRegs rs reg (some rest) rs[k] = some vs[k] := by
  induction hv generalizing rs rest reg with
  | nil => intro k h1 h2; simp at h2
  | @cons v w vs ws hv _ ih =>
    cases rs with
    | nil => simp at hl
    | cons r rs =>
      cases hs with
      | @cons b _ rest _ hb hne hs =>
        have e : pullReal (reg r) (some (b ++ (w ++ rest))) = (some v, some rest) := by
          simp only [pullReal, extractReal_eq hb hv (spaced_apart hs)]
        intro k h1 h2
        simp only [pullRegs, e]
        cases k with
        | zero =>
          simp only [List.getElem_cons_zero]
          rw [pullRegs_other (List.nodup_cons.1 hn).1, Function.update_self]
        | succ k =>
          simp only [List.getElem_cons_succ]
          exact ih (List.nodup_cons.1 hn).2 (by simpa using hl) hs _ k (by simpa using h1) (by simpa using h2)

/-! ### Information matrices -/

theorem divide_eq {a b : ℝ} (h : b ≠ 0) : divide a b = ok (a / b) := by
  unfold divide; rw [if_neg h]

theorem inv_trace {n : Nat} (M : Matrix (Fin n) (Fin n) ℝ) : M⁻¹.trace = M.adjugate.trace / M.det := by
  rw [Matrix.inv_def, Matrix.trace_smul, Ring.inverse_eq_inv', smul_eq_mul, div_eq_mul_inv, mul_comm]

theorem invTrace2_eq {a b c : ℝ} (h : (!![a, b; b, c] : Matrix (Fin 2) (Fin 2) ℝ).det ≠ 0) :
    invTrace2 a b c = ok (!![a, b; b, c] : Matrix (Fin 2) (Fin 2) ℝ)⁻¹.trace := by
  rw [inv_trace, Matrix.adjugate_fin_two_of]
  rw [Matrix.det_fin_two_of] at h ⊢
  unfold invTrace2
  rw [divide_eq h]
  simp [Matrix.trace, Fin.sum_univ_two]

theorem invTrace3_eq {a b c d e f : ℝ} (h : (!![a, b, c; b, d, e; c, e, f] : Matrix (Fin 3) (Fin 3) ℝ).det ≠ 0) :
    invTrace3 a b c d e f = ok (!![a, b, c; b, d, e; c, e, f] : Matrix (Fin 3) (Fin 3) ℝ)⁻¹.trace := by
  have hd : (!![a, b, c; b, d, e; c, e, f] : Matrix (Fin 3) (Fin 3) ℝ).det =
      a * (d * f - e * e) - b * (b * f - c * e) + c * (b * e - c * d) := by
    rw [Matrix.det_fin_three]
    simp
    ring
  rw [inv_trace, Matrix.adjugate_fin_three_of]
  rw [hd] at h ⊢
  unfold invTrace3
  rw [divide_eq h]
  simp [Matrix.trace, Fin.sum_univ_three]

/-! ### Edges -/

theorem fixed_iff {i j : Nat} (hi : i < 2 ^ 53) : (i + 1) % 2 ^ 64 = j ↔ j = i + 1 := by
  rw [Nat.mod_eq_of_lt (by omega)]
  exact eq_comm

theorem edge2_says {i j : Nat} {v : Fin 9 → ℝ} {reg : Reg → Option ℝ} (hu : Usable (.edge2 i j v))
    (h : ∀ k (_ : k < regs2.length) (_ : k < (List.ofFn v).length), reg regs2[k] = some (List.ofFn v)[k]) :
    ∃ m, G2o.edge2 i j reg = ok m ∧ Says (.edge2 i j v) m := by
  obtain ⟨hi, hj, hd, ht⟩ := hu
  have g : ∀ k (h1 : k < regs2.length) (h2 : k < 9), reg (regs2[k]'h1) = some (v ⟨k, h2⟩) := by
    intro k h1 h2
    have e := h k h1 (by rw [List.length_ofFn]; exact h2)
    rw [List.getElem_ofFn] at e
    exact e
  have h0 : reg .dx = some (v 0) := g 0 (by decide) (by decide)
  have h1 : reg .dy = some (v 1) := g 1 (by decide) (by decide)
  have h2 : reg .dtheta = some (v 2) := g 2 (by decide) (by decide)
  have h3 : reg .I11 = some (v 3) := g 3 (by decide) (by decide)
  have h4 : reg .I12 = some (v 4) := g 4 (by decide) (by decide)
  have h6 : reg .I22 = some (v 6) := g 6 (by decide) (by decide)
  have h8 : reg .I33 = some (v 8) := g 8 (by decide) (by decide)
  unfold G2o.edge2
  simp only [h0, h1, h2, h3, h4, h6, h8, get, ok_bind]
  rw [invTrace2_eq hd]
  simp only [ok_bind]
  rw [show (!![v 3, v 4; v 4, v 6] : Matrix (Fin 2) (Fin 2) ℝ) = tranInfo2 v from rfl, divide_eq ht]
  refine ⟨_, rfl, rfl, rfl, rfl, rfl, rfl, rfl, ?_, rfl, rfl, ?_, rfl, rfl, ?_, rfl⟩
  · ext a b
    fin_cases a <;> fin_cases b <;> rfl
  · ext a b
    fin_cases a <;> fin_cases b <;> rfl
  · simp only [decide_eq_true_eq]
    exact fixed_iff hi

theorem edge3_says {i j : Nat} {v : Fin 28 → ℝ} {reg : Reg → Option ℝ} (hu : Usable (.edge3 i j v))
    (h : ∀ k (_ : k < regs3.length) (_ : k < (List.ofFn v).length), reg regs3[k] = some (List.ofFn v)[k]) :
    ∃ m, G2o.edge3 i j reg = ok m ∧ Says (.edge3 i j v) m := by
  obtain ⟨hi, hj, hd, ht, hd', ht'⟩ := hu
  have g : ∀ k (h1 : k < regs3.length) (h2 : k < 28), reg (regs3[k]'h1) = some (v ⟨k, h2⟩) := by
    intro k h1 h2
    have e := h k h1 (by rw [List.length_ofFn]; exact h2)
    rw [List.getElem_ofFn] at e
    exact e
  have h0 : reg .dx = some (v 0) := g 0 (by decide) (by decide)
  have h1 : reg .dy = some (v 1) := g 1 (by decide) (by decide)
  have h2 : reg .dz = some (v 2) := g 2 (by decide) (by decide)
  have h3 : reg .dqx = some (v 3) := g 3 (by decide) (by decide)
  have h4 : reg .dqy = some (v 4) := g 4 (by decide) (by decide)
  have h5 : reg .dqz = some (v 5) := g 5 (by decide) (by decide)
  have h6 : reg .dqw = some (v 6) := g 6 (by decide) (by decide)
  have h7 : reg .I11 = some (v 7) := g 7 (by decide) (by decide)
  have h8 : reg .I12 = some (v 8) := g 8 (by decide) (by decide)
  have h9 : reg .I13 = some (v 9) := g 9 (by decide) (by decide)
  have h13 : reg .I22 = some (v 13) := g 13 (by decide) (by decide)
  have h14 : reg .I23 = some (v 14) := g 14 (by decide) (by decide)
  have h18 : reg .I33 = some (v 18) := g 18 (by decide) (by decide)
  have h22 : reg .I44 = some (v 22) := g 22 (by decide) (by decide)
  have h23 : reg .I45 = some (v 23) := g 23 (by decide) (by decide)
  have h24 : reg .I46 = some (v 24) := g 24 (by decide) (by decide)
  have h25 : reg .I55 = some (v 25) := g 25 (by decide) (by decide)
  have h26 : reg .I56 = some (v 26) := g 26 (by decide) (by decide)
  have h27 : reg .I66 = some (v 27) := g 27 (by decide) (by decide)
  unfold G2o.edge3
  simp only [h0, h1, h2, h3, h4, h5, h6, h7, h8, h9, h13, h14, h18, h22, h23, h24, h25, h26, h27, get, ok_bind]
  rw [invTrace3_eq hd, invTrace3_eq hd']
  simp only [ok_bind]
  rw [show (!![v 7, v 8, v 9; v 8, v 13, v 14; v 9, v 14, v 18] : Matrix (Fin 3) (Fin 3) ℝ) = tranInfo3 v from rfl,
    show (!![v 22, v 23, v 24; v 23, v 25, v 26; v 24, v 26, v 27] : Matrix (Fin 3) (Fin 3) ℝ) = rotInfo3 v from rfl,
    divide_eq ht, divide_eq (mul_ne_zero two_ne_zero ht')]
  refine ⟨_, rfl, rfl, rfl, rfl, rfl, rfl, rfl, ?_, rfl, rfl, ?_, rfl, rfl, ?_, rfl⟩
  · ext a b
    fin_cases a <;> fin_cases b <;> rfl
  · ext a b
    fin_cases a <;> fin_cases b <;>
      simp [Quat.toRotation, quatMatrix] <;> ring
  · simp only [decide_eq_true_eq]
    exact fixed_iff hi

/-! ### The number of poses -/

theorem toDouble_small {n : Nat} (h : n < 2 ^ 53) : toDouble n = n := by
  unfold toDouble; rw [if_pos h]

theorem maxPair_small {a b : Nat} (ha : a < 2 ^ 53) (hb : b < 2 ^ 53) : maxPair a b = ok (max a b) := by
  unfold maxPair
  rw [toDouble_small ha, toDouble_small hb]
  simp only
  rw [if_pos (by omega)]

end Dpgo.G2o
