import Verif.Spec.G2oRound
import Verif.Lemmas.G2oRun

/-! # Lemmas on the conversion of indices to `double` and on unreadable endpoints -/

namespace Dpgo.G2o

open Res Text Spec.G2o

theorem toDouble_nearest (n : Nat) : NearestDouble n (toDouble n) := by
  by_cases h : n < 2 ^ 53
  · rw [toDouble_small h]
    exact ⟨⟨n, 0, h, by simp⟩, fun w _ => by simp⟩
  obtain ⟨k, hk⟩ : ∃ k, Nat.log2 n = 53 + k := ⟨Nat.log2 n - 53, by
    have := (Nat.le_log2 (by omega : n ≠ 0)).2 (not_lt.1 h)
    omega⟩
  have hlo : 2 ^ (53 + k) ≤ n := hk ▸ Nat.log2_self_le (by omega)
  have hhi : n < 2 ^ (53 + k + 1) := hk ▸ Nat.lt_log2_self
  have hs0 : 0 < 2 ^ (k + 1) := by positivity
  have e1 : 2 ^ (53 + k) = 2 ^ 52 * 2 ^ (k + 1) := by rw [← pow_add]; congr 1; omega
  have e2 : 2 ^ (53 + k + 1) = 2 ^ 53 * 2 ^ (k + 1) := by rw [← pow_add]; congr 1
  have hq0 : 2 ^ 52 ≤ n / 2 ^ (k + 1) := (Nat.le_div_iff_mul_le hs0).2 (e1 ▸ hlo)
  have hq1 : n / 2 ^ (k + 1) < 2 ^ 53 := (Nat.div_lt_iff_lt_mul hs0).2 (e2 ▸ hhi)
  have hdiv := Nat.div_add_mod n (2 ^ (k + 1))
  have hmod := Nat.mod_lt n hs0
  have hd0 : IsDouble (n / 2 ^ (k + 1) * 2 ^ (k + 1)) := ⟨_, _, hq1, rfl⟩
  have hd1 : IsDouble ((n / 2 ^ (k + 1) + 1) * 2 ^ (k + 1)) := by
    rcases Nat.lt_or_ge (n / 2 ^ (k + 1) + 1) (2 ^ 53) with hl | hl
    · exact ⟨_, _, hl, rfl⟩
    · have : n / 2 ^ (k + 1) + 1 = 2 ^ 53 := by omega
      exact ⟨1, 53 + (k + 1), by norm_num, by rw [this, one_mul, ← pow_add]⟩
  have hout : ∀ w, IsDouble w → w ≤ n / 2 ^ (k + 1) * 2 ^ (k + 1) ∨ (n / 2 ^ (k + 1) + 1) * 2 ^ (k + 1) ≤ w := by
    rintro w ⟨m, e, hm, rfl⟩
    rcases Nat.lt_or_ge e (k + 1) with he | he
    · left
      calc m * 2 ^ e ≤ 2 ^ 53 * 2 ^ k := Nat.mul_le_mul hm.le (Nat.pow_le_pow_right (by norm_num) (by omega))
        _ = 2 ^ 52 * 2 ^ (k + 1) := by rw [← pow_add, ← pow_add]; congr 1; omega
        _ ≤ _ := Nat.mul_le_mul_right _ hq0
    · obtain ⟨j, rfl⟩ := Nat.exists_eq_add_of_le he
      have ew : m * 2 ^ (k + 1 + j) = m * 2 ^ j * 2 ^ (k + 1) := by rw [pow_add]; ring
      rw [ew]
      rcases Nat.lt_or_ge (n / 2 ^ (k + 1)) (m * 2 ^ j) with hl | hl
      · exact Or.inr (Nat.mul_le_mul_right _ hl)
      · exact Or.inl (Nat.mul_le_mul_right _ hl)
  unfold toDouble
  rw [if_neg h, hk, show 53 + k - 52 = k + 1 by omega]
  simp only
  generalize 2 ^ (k + 1) = s at *
  have es : (n / s + 1) * s = n / s * s + s := by ring
  rw [mul_comm] at hdiv
  rw [es] at hd1 hout ⊢
  generalize n / s * s = A at *
  generalize n % s = r at *
  split_ifs with h1 h2 h3
  · exact ⟨hd0, fun w hw => by have := hout w hw; omega⟩
  · exact ⟨hd1, fun w hw => by have := hout w hw; omega⟩
  · exact ⟨hd0, fun w hw => by have := hout w hw; omega⟩
  · exact ⟨hd1, fun w hw => by have := hout w hw; omega⟩

theorem isDouble_succ {v : Nat} (h : IsDouble v) (hv : v < 2 ^ 64) : v + 1 < 2 ^ 64 := by
  by_contra hc
  obtain ⟨m, e, hm, rfl⟩ := h
  rcases e with _ | e
  · simp only [pow_zero, mul_one] at hc
    omega
  · rw [pow_succ, ← mul_assoc] at hc hv
    omega

theorem maxPair_val {a b v : Nat} (h : maxPair a b = ok v) : v = max (toDouble a) (toDouble b) ∧ v < 2 ^ 64 := by
  unfold maxPair at h
  simp only at h
  split_ifs at h with hv
  cases h
  exact ⟨rfl, hv⟩

/-- What holds of the number of poses after every line, whatever the indices. -/
def Counts (s : State) : Prop :=
  (∀ m ∈ s.out, toDouble m.p1 ≤ s.numPoses ∧ toDouble m.p2 ≤ s.numPoses) ∧ (s.out = [] → s.numPoses = 0) ∧
    (s.out ≠ [] → ∃ m ∈ s.out, toDouble m.p1 = s.numPoses ∨ toDouble m.p2 = s.numPoses) ∧ s.numPoses < 2 ^ 64

theorem counts_push {s s' : State} {m : Meas ℝ} {v : Nat} (h : Counts s) (hv : maxPair m.p1 m.p2 = ok v)
    (ho : s'.out = s.out ++ [m]) (hn : s'.numPoses = max s.numPoses v) : Counts s' := by
  obtain ⟨h1, h2, h3, h4⟩ := h
  obtain ⟨ev, hv⟩ := maxPair_val hv
  refine ⟨?_, by simp [ho], fun _ => ?_, by omega⟩
  · intro x hx
    rw [ho, List.mem_append, List.mem_singleton] at hx
    rcases hx with hx | rfl
    · have := h1 x hx
      omega
    · omega
  · rcases Nat.lt_or_ge v s.numPoses with hl | hl
    · have hne : s.out ≠ [] := fun e => by
        have := h2 e
        omega
      obtain ⟨x, hx, e⟩ := h3 hne
      exact ⟨x, by rw [ho]; simp [hx], by omega⟩
    · exact ⟨m, by rw [ho]; simp, by omega⟩

theorem counts_step {s s' : State} {l : Str} (h : Counts s) (hs : step s l = ok s') : Counts s' := by
  obtain ⟨-, h'⟩ := step_ok hs
  rcases h' with ⟨-, i, j, m, v, -, -, -, hv, ho, hn⟩ | ⟨-, i, j, m, v, -, -, -, hv, ho, hn⟩ | ⟨-, h'⟩
  · exact counts_push h hv ho hn
  · exact counts_push h hv ho hn
  · rw [h']
    exact h

/-! ### Unreadable endpoints -/

theorem extractNat_word {b rest : Str} {c : Char} (hb : Blanks b) (hc : isSpace c = false) (hd : c.isDigit = false)
    (h1 : c ≠ '+') (h2 : c ≠ '-') : extractNat (b ++ c :: rest) = .failed 0 := by
  have hsg : sign (c :: rest) = (false, c :: rest) := by
    unfold sign
    split
    · rename_i e; simp only [List.cons.injEq] at e; exact absurd e.1 h2
    · rename_i e; simp only [List.cons.injEq] at e; exact absurd e.1 h1
    · rfl
  unfold extractNat
  rw [dropWhile_blanks (fun x hx => blank_space (hb x hx)) fun x t e => by
    simp only [List.cons.injEq] at e; rw [← e.1]; exact hc]
  simp [hsg, List.span_eq_takeWhile_dropWhile, hd]

/-- Where the fields of such a line come from. -/
theorem word_pull {kw : String} (hk : kw = "EDGE_SE2" ∨ kw = "EDGE_SE3:QUAT") {l : Str} (h : WordLine kw l)
    (hn : '\n' ∉ l) (tok : Str) (vi : Option Nat) :
    ∃ rest, firstToken tok l = (kw.toList, some rest) ∧ pullNat vi (some rest) = (some 0, none) := by
  obtain ⟨b, b1, c, rest, hb, hb1, hne, hc, hd, hp, hm, rfl⟩ := h
  have hcn : c ≠ '\n' := fun e => hn (by simp [e])
  have hs : isSpace c = false := by
    by_contra hx
    exact hc (space_blank (by simpa using hx) hcn)
  refine ⟨b1 ++ c :: rest, firstToken_word hb (by rcases hk with rfl | rfl <;> decide) ?_ ?_ tok, ?_⟩
  · rcases hk with rfl | rfl <;> decide
  · intro x t e
    cases b1 with
    | nil => exact absurd rfl hne
    | cons y ys =>
      simp only [List.cons_append, List.cons.injEq] at e
      rw [← e.1]
      exact hb1 y (by simp)
  · simp only [pullNat, extractNat_word hb1 hs hd hp hm]

theorem maxPair_zero {a b v : Nat} (h : maxPair a b = ok v) : maxPair 0 b = ok (toDouble b) := by
  obtain ⟨ev, hv⟩ := maxPair_val h
  unfold maxPair
  rw [toDouble_small (n := 0) (by norm_num)]
  simp only [Nat.zero_max]
  rw [if_pos (by omega)]

theorem step_word {kw : String} (hk : kw = "EDGE_SE2" ∨ kw = "EDGE_SE3:QUAT") {s s' : State} {l t : Str}
    (h : step s l = ok s') (he : s'.token = kw.toList) (ht : WordLine kw t) (hn : '\n' ∉ t) :
    ∃ m s'', s'.out = s.out ++ [m] ∧ step s' t = ok s'' ∧
      s''.out = s'.out ++ [{ m with p1 := 0, fixedWeight := decide (m.p2 = 1) }] := by
  obtain ⟨rest, e0, e1⟩ := word_pull hk ht hn s'.token s'.i
  have e01 : ∀ j, decide ((0 + 1) % 2 ^ 64 = j) = decide (j = 1) := fun j => by
    norm_num [eq_comm]
  obtain ⟨-, h⟩ := step_ok h
  rcases h with ⟨hk2, i', j', m, v, -, hj, hm, hv, ho, -⟩ | ⟨hk2, i', j', m, v, -, hj, hm, hv, ho, -⟩ | ⟨hk2, -⟩
  · have ek : kw.toList = kwEdge2 := he.symm.trans hk2
    have em := (edge2_ok hm).2.2.2.2.2 0 j'
    have ep : m.p2 = j' := (edge2_ok hm).2.2.2.1
    rw [← pullRegs_none regs2 s'.reg] at em
    rw [ek] at e0
    have hv' : maxPair 0 j' = ok (toDouble j') := maxPair_zero (a := m.p1) (v := v) (by rw [← ep]; exact hv)
    refine ⟨m, _, ho, step_edge2 e0 e1 (j := j') (ss2 := none) (by rw [hj]; rfl) em hv', ?_⟩
    subst ep
    simp only [e01]
  · have ek : kw.toList = kwEdge3 := he.symm.trans hk2
    have em := (edge3_ok hm).2.2.2.2.2 0 j'
    have ep : m.p2 = j' := (edge3_ok hm).2.2.2.1
    rw [← pullRegs_none regs3 s'.reg] at em
    rw [ek] at e0
    have hv' : maxPair 0 j' = ok (toDouble j') := maxPair_zero (a := m.p1) (v := v) (by rw [← ep]; exact hv)
    refine ⟨m, _, ho, step_edge3 e0 e1 (j := j') (ss2 := none) (by rw [hj]; rfl) em hv', ?_⟩
    subst ep
    simp only [e01]
  · rw [he] at hk2
    rcases hk with rfl | rfl <;> rcases hk2 with h | h <;> exact absurd h (by decide)

theorem extractNat_huge {b w rest : Str} {n : Nat} (hb : Blanks b) (hw : IndexText n w) (hn : 2 ^ 64 ≤ n)
    (hr : Apart rest) : extractNat (b ++ (w ++ rest)) = .failed (2 ^ 64 - 1) := by
  obtain ⟨hne, hd, hv⟩ := hw
  have head : ∀ c t, w ++ rest = c :: t → c.isDigit = true := by
    intro c t e
    cases w with
    | nil => exact absurd rfl hne
    | cons x l =>
      simp only [List.cons_append, List.cons.injEq] at e
      rw [← e.1]
      exact hd x (by simp)
  have h1 : (b ++ (w ++ rest)).dropWhile isSpace = w ++ rest :=
    dropWhile_blanks (blanks_space hb) fun c t e => numChar_not_space (Or.inl (head c t e))
  have h2 : (w ++ rest).isEmpty = false := by
    rw [List.isEmpty_eq_false_iff]
    intro e
    exact hne (List.append_eq_nil_iff.1 e).1
  have h3 : sign (w ++ rest) = (false, w ++ rest) := sign_of_ne fun c t e => not_sign_of_digit (head c t e)
  have h4 : (w ++ rest).span Char.isDigit = (w, rest) :=
    span_eq hd fun c t e => (blank_stops (hr c t e)).1
  unfold extractNat
  simp only [h1, h2, h3, h4, List.isEmpty_eq_false_iff.2 hne, Bool.false_eq_true, if_false]
  rw [natOf_eq, hv, if_pos hn]

theorem maxPair_huge (b v : Nat) : maxPair (2 ^ 64 - 1) b ≠ ok v := by
  intro h
  obtain ⟨ev, hv⟩ := maxPair_val h
  have : toDouble (2 ^ 64 - 1) = 2 ^ 64 := by decide
  omega

theorem step_huge {kw : String} (hk : kw = "EDGE_SE2" ∨ kw = "EDGE_SE3:QUAT") {l : Str} (h : HugeLine kw l)
    (s s' : State) : step s l ≠ ok s' := by
  obtain ⟨b, b1, w, n, rest, hb, hb1, hne, hw, hn, hr, rfl⟩ := h
  have e0 : firstToken s.token (b ++ (kw.toList ++ (b1 ++ (w ++ rest)))) = (kw.toList, some (b1 ++ (w ++ rest))) := by
    refine firstToken_word hb (by rcases hk with rfl | rfl <;> decide) ?_ ?_ _
    · rcases hk with rfl | rfl <;> decide
    · intro x t e
      cases b1 with
      | nil => exact absurd rfl hne
      | cons y ys =>
        simp only [List.cons_append, List.cons.injEq] at e
        rw [← e.1]
        exact hb1 y (by simp)
  have e1 : pullNat s.i (some (b1 ++ (w ++ rest))) = (some (2 ^ 64 - 1), none) := by
    simp only [pullNat, extractNat_huge hb1 hw hn hr]
  intro h
  generalize b ++ (kw.toList ++ (b1 ++ (w ++ rest))) = l at e0 h
  unfold step at h
  rcases hk with rfl | rfl
  · simp only [e0, e1, show "EDGE_SE2".toList = kwEdge2 from rfl, if_true, get, ok_bind, bind_eq_ok] at h
    obtain ⟨vj, -, m, hm, h⟩ := h
    obtain ⟨v, hv, -⟩ := push_ok h
    rw [(edge2_ok hm).2.2.1] at hv
    exact maxPair_huge _ _ hv
  · simp only [e0, e1, show "EDGE_SE3:QUAT".toList = kwEdge3 from rfl, show ¬ (kwEdge3 = kwEdge2) by decide,
      if_false, if_true, get, ok_bind, bind_eq_ok] at h
    obtain ⟨vj, -, m, hm, h⟩ := h
    obtain ⟨v, hv, -⟩ := push_ok h
    rw [(edge3_ok hm).2.2.1] at hv
    exact maxPair_huge _ _ hv

end Dpgo.G2o
