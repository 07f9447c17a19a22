import Verif.Lemmas.Averaging

/-! # Lemmas on robust averaging -/

namespace Dpgo

open Res Spec Matrix

section Resid

theorem rotResiduals_iff (R : DMat ℝ) : ∀ (l : List (ℝ × DMat ℝ)) (rs : List ℝ),
    rotResiduals R l = ok rs ↔ (∀ p ∈ l, R.rows = p.2.rows ∧ R.cols = p.2.cols) ∧
      rs = l.map fun p => p.1 * (R.sub p.2).normSq
  | [], rs => by simp [rotResiduals, eq_comm]
  | p :: l, rs => by
    simp only [rotResiduals, bind_eq_ok, require_eq_ok, Bool.and_eq_true, beq_iff_eq,
      rotResiduals_iff R l, List.mem_cons, forall_eq_or_imp, List.map_cons, ok.injEq]
    constructor
    · rintro ⟨-, h, _, ⟨h1, rfl⟩, rfl⟩
      exact ⟨⟨h, h1⟩, rfl⟩
    · rintro ⟨⟨h, h1⟩, rfl⟩
      exact ⟨(), h, _, ⟨h1, rfl⟩, rfl⟩

theorem poseResiduals_iff (e : DMat ℝ × DMat ℝ) :
    ∀ (l : List ((ℝ × DMat ℝ) × (ℝ × DMat ℝ))) (rs : List ℝ),
    poseResiduals e l = ok rs ↔ (∀ p ∈ l, (e.1.rows = p.1.2.rows ∧ e.1.cols = p.1.2.cols) ∧
        (e.2.rows = p.2.2.rows ∧ e.2.cols = p.2.2.cols)) ∧
      rs = l.map fun p => p.1.1 * (e.1.sub p.1.2).normSq + p.2.1 * (e.2.sub p.2.2).normSq
  | [], rs => by simp [poseResiduals, eq_comm]
  | p :: l, rs => by
    simp only [poseResiduals, bind_eq_ok, require_eq_ok, Bool.and_eq_true, beq_iff_eq,
      poseResiduals_iff e l, List.mem_cons, forall_eq_or_imp, List.map_cons, ok.injEq]
    constructor
    · rintro ⟨-, h, -, h', _, ⟨h1, rfl⟩, rfl⟩
      exact ⟨⟨⟨h, h'⟩, h1⟩, rfl⟩
    · rintro ⟨⟨⟨h, h'⟩, h1⟩, rfl⟩
      exact ⟨(), h, (), h', _, ⟨h1, rfl⟩, rfl⟩

theorem foldl_max_le : ∀ (l : List ℝ) (a : ℝ), a ≤ l.foldl max a ∧ ∀ x ∈ l, x ≤ l.foldl max a
  | [], a => by simp
  | b :: l, a => by
    obtain ⟨h1, h2⟩ := foldl_max_le l (max a b)
    simp only [List.foldl_cons, List.mem_cons, forall_eq_or_imp]
    exact ⟨(le_max_left _ _).trans h1, (le_max_right _ _).trans h1, h2⟩

theorem le_maxCoeff {l : List ℝ} {x : ℝ} (h : x ∈ l) : x ≤ maxCoeff l := by
  cases l with
  | nil => simp at h
  | cons a l =>
    obtain ⟨h1, h2⟩ := foldl_max_le l a
    rcases List.mem_cons.1 h with rfl | h
    · exact h1
    · exact h2 _ h

theorem foldl_max_zero : ∀ (l : List ℝ), (∀ x ∈ l, x = 0) → l.foldl max 0 = 0
  | [], _ => rfl
  | b :: l, h => by
    rw [List.foldl_cons, h b (by simp), max_self]
    exact foldl_max_zero l fun x hx => h x (by simp [hx])

theorem maxCoeff_zero {l : List ℝ} (h : ∀ x ∈ l, x = 0) : maxCoeff l = 0 := by
  cases l with
  | nil => rfl
  | cons a l =>
    simp only [maxCoeff]
    rw [h a (by simp)]
    exact foldl_max_zero l fun x hx => h x (by simp [hx])

end Resid

section Mu

theorem initMu_none {barc M : ℝ} (hb : 0 < barc) : initMu barc M = none ↔ 2 * M < barc ^ 2 := by
  have hb2 : 0 < barc * barc := by positivity
  unfold initMu
  simp only
  by_cases h0 : 2 * M - barc * barc = 0
  · rw [if_pos h0, if_neg hb2.ne']
    simp only [reduceCtorEq, false_iff, not_lt]
    nlinarith
  · rw [if_neg h0]
    rcases lt_or_gt_of_ne h0 with h | h
    · have : barc * barc / (2 * M - barc * barc) < 0 := div_neg_of_pos_of_neg hb2 h
      rw [if_neg (by rw [gt_iff_lt, lt_min_iff]; intro hh; linarith [hh.1])]
      simp only [true_iff]
      nlinarith
    · have : 0 < barc * barc / (2 * M - barc * barc) := by positivity
      rw [if_pos (by rw [gt_iff_lt, lt_min_iff]; exact ⟨this, by norm_num⟩)]
      simp only [reduceCtorEq, false_iff, not_lt]
      nlinarith

theorem initMu_pos {barc M mu : ℝ} (h : initMu barc M = some mu) : 0 < mu := by
  unfold initMu at h
  simp only at h
  split at h
  · split at h
    · simp at h
    · simp only [Option.some.injEq] at h
      rw [← h]; norm_num
  · split at h
    · rename_i hpos
      simp only [Option.some.injEq] at h
      rw [← h]; exact hpos
    · simp at h

/-- A sample whose residual reaches the threshold has a weight of at most one half. -/
theorem gncForm_le_half {barc mu r : ℝ} (hb : 0 < barc) (hm : 0 < mu) (h : barc ≤ r) :
    RobustCost.gncForm barc mu r ≤ 1 / 2 := by
  refine (RobustCost.gncForm_anti hb hm hb.le h).trans ?_
  unfold RobustCost.gncForm
  rw [max_eq_left (RobustCost.lowerSq_lt hb hm).le]
  refine max_le (by norm_num) ?_
  have e : barc ^ 2 * mu * (mu + 1) / barc ^ 2 = mu * (mu + 1) := by field_simp
  rw [e]
  have : Real.sqrt (mu * (mu + 1)) ≤ mu + 1 / 2 := by
    rw [Real.sqrt_le_left (by linarith)]
    nlinarith
  linarith

end Mu

section Loop

/-- A GNC cost with threshold `barc` and positive control parameter. -/
structure GncCost (barc : ℝ) (c : RobustCost) : Prop where
  type : c.params.costType = .GNC_TLS
  thr : c.params.GNCBarc = barc
  step : 0 < c.params.GNCMuStep
  mu : 0 < c.mu

theorem GncCost.update {barc : ℝ} {c : RobustCost} (h : GncCost barc c) : GncCost barc c.update := by
  unfold RobustCost.update
  rw [if_neg (by simp [h.type])]
  simp only
  split
  · exact ⟨h.type, h.thr, h.step, h.mu⟩
  · exact ⟨h.type, h.thr, h.step, mul_pos h.step h.mu⟩

theorem GncCost.start {barc mu : ℝ} (hm : 0 < mu) (k : Nat) :
    GncCost barc (RobustCost.new (averagingParams barc mu k)) := by
  simp only [RobustCost.new, RobustCost.reset, averagingParams, RobustParams.default]
  exact ⟨rfl, rfl, by norm_num, hm⟩

theorem sqrtWeight_ok {barc : ℝ} {c : RobustCost} (hb : 0 < barc) (h : GncCost barc c) {r : ℝ}
    (hr : 0 ≤ r) : sqrtWeight c r = ok (RobustCost.gncForm barc c.mu (Real.sqrt r)) := by
  unfold sqrtWeight
  rw [if_neg (not_lt.2 hr)]
  simp only [RobustCost.weight, h.type, h.thr]
  exact RobustCost.gncWeight_eq hb h.mu _

theorem sqrtWeights_iff {barc : ℝ} {c : RobustCost} (hb : 0 < barc) (h : GncCost barc c) :
    ∀ (rs ws : List ℝ), sqrtWeights c rs = ok ws ↔ (∀ r ∈ rs, 0 ≤ r) ∧
      ws = rs.map fun r => RobustCost.gncForm barc c.mu (Real.sqrt r)
  | [], ws => by simp [sqrtWeights, eq_comm]
  | r :: rs, ws => by
    simp only [sqrtWeights, bind_eq_ok, sqrtWeights_iff hb h rs, List.mem_cons, forall_eq_or_imp,
      List.map_cons, ok.injEq]
    constructor
    · rintro ⟨w, h1, _, ⟨h2, rfl⟩, rfl⟩
      have hr : 0 ≤ r := by
        by_contra hn
        rw [sqrtWeight, if_pos (not_le.1 hn)] at h1
        simp at h1
      rw [sqrtWeight_ok hb h hr, ok.injEq] at h1
      exact ⟨⟨hr, h2⟩, by rw [h1]⟩
    · rintro ⟨⟨hr, h2⟩, rfl⟩
      exact ⟨_, sqrtWeight_ok hb h hr, _, ⟨h2, rfl⟩, rfl⟩

variable {E : Type} {n : Nat} {solve : List ℝ → Res E} {resid : E → Res (List ℝ)}

/-- The weights returned belong to the returned estimate, and the number of passes is bounded. -/
theorem gncLoop_spec {barc : ℝ} (hb : 0 < barc) : ∀ (fuel i : Nat) (c : RobustCost) (e : E)
    (w : List ℝ) (o : GncOut E), GncCost barc c →
    gncLoop n solve resid fuel i c e w = ok o →
    (fuel = 0 ∧ o = ⟨e, w, i⟩) ∨ (i < o.iters ∧ o.iters ≤ i + fuel ∧
      (∃ w', solve w' = ok o.est) ∧ ∃ mu rs, 0 < mu ∧
      resid o.est = ok rs ∧ (∀ r ∈ rs, 0 ≤ r) ∧
      o.weights = rs.map fun r => RobustCost.gncForm barc mu (Real.sqrt r))
  | 0, i, c, e, w, o, _, h => by
    simp only [gncLoop, ok.injEq] at h
    exact Or.inl ⟨rfl, h.symm⟩
  | fuel + 1, i, c, e, w, o, hc, h => by
    right
    simp only [gncLoop, bind_eq_ok] at h
    obtain ⟨e', he, rs, hrs, w', hw, h⟩ := h
    obtain ⟨hpos, rfl⟩ := (sqrtWeights_iff hb hc rs w').1 hw
    split at h
    · rw [ok.injEq] at h
      subst h
      exact ⟨Nat.lt_succ_self i, by simp only; omega, ⟨_, he⟩, c.mu, rs, hc.mu, hrs, hpos, rfl⟩
    · rcases gncLoop_spec hb fuel (i + 1) c.update e' _ o hc.update h with ⟨-, rfl⟩ | ⟨h1, h2, h3⟩
      · exact ⟨Nat.lt_succ_self i, by simp only; omega, ⟨_, he⟩, c.mu, rs, hc.mu, hrs, hpos, rfl⟩
      · exact ⟨by omega, by omega, h3⟩

/-- The loop returns as soon as the solver and the residuals do, for every weight vector that is
non-negative and not zero. -/
theorem gncLoop_total {barc : ℝ} (hb : 0 < barc) (P : E → Prop)
    (hsolve : ∀ w : List ℝ, w.length = n → (∀ x ∈ w, 0 ≤ x) → (∃ x ∈ w, 0 < x) →
      ∃ e, solve w = ok e ∧ P e)
    (hresid : ∀ e, P e → ∃ rs, resid e = ok rs ∧ rs.length = n ∧ ∀ r ∈ rs, 0 ≤ r) :
    ∀ (fuel i : Nat) (c : RobustCost) (e : E) (w : List ℝ), GncCost barc c → P e →
      w.length = n → (∀ x ∈ w, 0 ≤ x) → (∃ x ∈ w, 0 < x) →
      ∃ o, gncLoop n solve resid fuel i c e w = ok o ∧ P o.est
  | 0, i, c, e, w, _, he, _, _, _ => ⟨_, rfl, he⟩
  | fuel + 1, i, c, e, w, hc, _, hl, h0, hp => by
    obtain ⟨e', he', hP⟩ := hsolve w hl h0 hp
    obtain ⟨rs, hrs, hlen, hpos⟩ := hresid e' hP
    have hw := (sqrtWeights_iff hb hc rs _).2 ⟨hpos, rfl⟩
    simp only [gncLoop, he', ok_bind, hrs, hw]
    split
    · exact ⟨_, rfl, hP⟩
    · rename_i hnc
      refine gncLoop_total hb P hsolve hresid fuel (i + 1) c.update e' _ hc.update hP
        (by simpa using hlen) ?_ ?_
      · intro x hx
        obtain ⟨r, -, rfl⟩ := List.mem_map.1 hx
        exact RobustCost.gncForm_nonneg _ _ _
      · by_contra hn
        push Not at hn
        apply hnc
        rw [List.filter_eq_self.2, List.length_map, hlen]
        intro x hx
        have := hn x hx
        unfold decided
        simp only [decide_eq_true_eq]
        left
        refine lt_of_le_of_lt this ?_
        unfold wTol; norm_num

end Loop

section Inliers

theorem mem_inliers {ws : List ℝ} {i : Nat} :
    i ∈ inliers ws ↔ ∃ h : i < ws.length, ws[i] > 1 - wTol := by
  unfold inliers
  simp only [List.mem_map, List.mem_filter, decide_eq_true_eq, Prod.exists, exists_eq_right]
  constructor
  · rintro ⟨x, h, hx⟩
    rw [List.mem_zipIdx_iff_getElem?] at h
    obtain ⟨hi, e⟩ := List.getElem?_eq_some_iff.1 h
    simp only at hi e
    exact ⟨hi, by rw [e]; exact hx⟩
  · rintro ⟨hi, h⟩
    exact ⟨ws[i], by rw [List.mem_zipIdx_iff_getElem?]; simp [hi], h⟩

theorem inliers_sorted (ws : List ℝ) : (inliers ws).Pairwise (· < ·) := by
  unfold inliers
  rw [List.pairwise_map]
  apply List.Pairwise.filter
  rw [← List.pairwise_map (f := Prod.snd) (R := (· < ·)), List.zipIdx_map_snd]
  exact List.pairwise_lt_range'

theorem inliers_ones (n : Nat) : inliers (List.replicate n 1) = List.range n := by
  unfold inliers
  rw [List.filter_eq_self.2, List.zipIdx_map_snd]
  · simp [List.range_eq_range']
  · rintro ⟨x, i⟩ h
    rw [List.mem_zipIdx_iff_getElem?] at h
    have hx : x ∈ List.replicate n (1 : ℝ) := List.mem_of_getElem? h
    rw [List.eq_of_mem_replicate hx]
    simp only [decide_eq_true_eq]
    unfold wTol; norm_num

/-- Every inlier of a robust average has a squared residual below the squared threshold. -/
theorem robustAverage_inlier {E : Type} {n k : Nat} {barc : ℝ} (hb : 0 < barc) (hk : 0 < k)
    {solve : List ℝ → Res E} {resid : E → Res (List ℝ)} {e0 : E} {o : GncOut E}
    (h : robustAverage n k barc solve resid e0 = ok o) :
    o.iters ≤ k ∧ (o.est = e0 ∨ ∃ w, solve w = ok o.est) ∧ ∃ rs, resid o.est = ok rs ∧
      ∀ i ∈ inliers o.weights, ∀ hi : i < rs.length, rs[i] < barc ^ 2 := by
  unfold robustAverage at h
  simp only [bind_eq_ok] at h
  obtain ⟨rs, hrs, h⟩ := h
  cases hm : initMu barc (maxCoeff rs) with
  | none =>
    rw [hm] at h
    simp only [ok.injEq] at h
    subst h
    refine ⟨Nat.zero_le _, Or.inl rfl, rs, hrs, fun i _ hi => ?_⟩
    have h1 := (initMu_none hb).1 hm
    have h2 := le_maxCoeff (List.getElem_mem hi)
    have : 0 < barc ^ 2 := by positivity
    nlinarith
  | some mu =>
    rw [hm] at h
    simp only at h
    rcases gncLoop_spec hb _ _ _ _ _ _ (GncCost.start (initMu_pos hm) k) h with
      ⟨h0, -⟩ | ⟨-, h2, hs, mu', rs', hmu, hr, hpos, hw⟩
    · omega
    · refine ⟨by omega, Or.inr hs, rs', hr, fun i hi hil => ?_⟩
      obtain ⟨hi', hgt⟩ := mem_inliers.1 hi
      simp only [hw, List.getElem_map] at hgt
      have h0 := hpos _ (List.getElem_mem hil)
      by_contra hn
      have hle : barc ≤ Real.sqrt rs'[i] := Real.le_sqrt_of_sq_le (not_lt.1 hn)
      have := gncForm_le_half hb hmu hle
      unfold wTol at hgt
      norm_num at hgt
      linarith

/-- The weight vector keeps its length. -/
theorem gncLoop_length {E : Type} {n m : Nat} {solve : List ℝ → Res E} {resid : E → Res (List ℝ)}
    (hr : ∀ e rs, resid e = ok rs → rs.length = m) : ∀ (fuel i : Nat) (c : RobustCost) (e : E)
    (w : List ℝ) (o : GncOut E), w.length = m → gncLoop n solve resid fuel i c e w = ok o →
    o.weights.length = m
  | 0, i, c, e, w, o, hw, h => by
    simp only [gncLoop, ok.injEq] at h
    rw [← h]; exact hw
  | fuel + 1, i, c, e, w, o, hw, h => by
    simp only [gncLoop, bind_eq_ok] at h
    obtain ⟨e', he, rs, hrs, w', hw', h⟩ := h
    have hl : ∀ (rs ws : List ℝ), sqrtWeights c rs = ok ws → ws.length = rs.length := by
      intro rs
      induction rs with
      | nil => intro ws h; simp [sqrtWeights] at h; simp [← h]
      | cons r l ih =>
        intro ws h
        simp only [sqrtWeights, bind_eq_ok, ok.injEq] at h
        obtain ⟨_, -, v, hv, rfl⟩ := h
        simp [ih v hv]
    have hw'' : w'.length = m := by rw [hl _ _ hw', hr _ _ hrs]
    split at h
    · rw [ok.injEq] at h
      rw [← h]; exact hw''
    · exact gncLoop_length hr fuel (i + 1) c.update e' w' o hw'' h

theorem robustAverage_weights_length {E : Type} {n k : Nat} {barc : ℝ}
    {solve : List ℝ → Res E} {resid : E → Res (List ℝ)} {e0 : E} {o : GncOut E}
    (h : robustAverage n k barc solve resid e0 = ok o)
    (hr : ∀ e rs, resid e = ok rs → rs.length = n) : o.weights.length = n := by
  unfold robustAverage at h
  simp only [bind_eq_ok] at h
  obtain ⟨rs, hrs, h⟩ := h
  split at h
  · rw [ok.injEq] at h
    rw [← h]; simp
  · exact gncLoop_length hr _ _ _ _ _ _ (by simp) h

end Inliers

section Total

theorem getD_eq {l : List ℝ} {i : Nat} (h : i < l.length) : l.getD i 0 = l[i] := by
  simp [List.getD_eq_getElem?_getD, h]

theorem weightsOr_mem {dflt : ℝ} {n : Nat} {v : List ℝ} {x : ℝ} (h : x ∈ weightsOr dflt n v) :
    ∃ i < n, x = weightAt dflt n v i := by
  obtain ⟨i, hi, rfl⟩ := List.getElem_of_mem h
  have hi' := hi
  rw [weightsOr_length] at hi'
  exact ⟨i, hi', by rw [← weightsOr_getD dflt n v hi', getD_eq hi]⟩

theorem weightsOr_nonneg {dflt : ℝ} {n : Nat} {v : List ℝ} (h : ∀ i < n, 0 ≤ weightAt dflt n v i) :
    ∀ x ∈ weightsOr dflt n v, 0 ≤ x := by
  intro x hx
  obtain ⟨i, hi, rfl⟩ := weightsOr_mem hx
  exact h i hi

theorem weightsOr_pos {dflt : ℝ} {n : Nat} {v : List ℝ} (h : ∀ i < n, 0 < weightAt dflt n v i) :
    ∀ x ∈ weightsOr dflt n v, 0 < x := by
  intro x hx
  obtain ⟨i, hi, rfl⟩ := weightsOr_mem hx
  exact h i hi

theorem cwise_ones {l : List ℝ} {n : Nat} (h : l.length = n) : cwise l (List.replicate n 1) = l := by
  subst h
  induction l with
  | nil => rfl
  | cons a l ih =>
    simp only [cwise, List.length_cons, List.replicate_succ, List.zipWith_cons_cons, mul_one]
    exact congrArg _ ih

theorem cwise_sum_nonneg : ∀ {a w : List ℝ}, (∀ x ∈ a, 0 < x) → (∀ x ∈ w, 0 ≤ x) →
    0 ≤ (cwise a w).sum
  | [], _, _, _ => by simp [cwise]
  | _ :: _, [], _, _ => by simp [cwise]
  | x :: a, y :: w, h1, h2 => by
    have := cwise_sum_nonneg (a := a) (w := w) (fun z hz => h1 z (by simp [hz]))
      (fun z hz => h2 z (by simp [hz]))
    have hx := h1 x (by simp)
    have hy := h2 y (by simp)
    simp only [cwise, List.zipWith_cons_cons, List.sum_cons] at this ⊢
    positivity

theorem cwise_sum_pos : ∀ {a w : List ℝ}, a.length = w.length → (∀ x ∈ a, 0 < x) →
    (∀ x ∈ w, 0 ≤ x) → (∃ x ∈ w, 0 < x) → 0 < (cwise a w).sum
  | [], [], _, _, _, ⟨x, hx, _⟩ => by simp at hx
  | [], _ :: _, h, _, _, _ => by simp at h
  | _ :: _, [], h, _, _, _ => by simp at h
  | x :: a, y :: w, h, h1, h2, ⟨z, hz, hzp⟩ => by
    have hn := cwise_sum_nonneg (a := a) (w := w) (fun z hz => h1 z (by simp [hz]))
      (fun z hz => h2 z (by simp [hz]))
    have hx := h1 x (by simp)
    have hy := h2 y (by simp)
    have e : (cwise (x :: a) (y :: w)).sum = x * y + (cwise a w).sum := by simp [cwise]
    rw [e]
    rcases List.mem_cons.1 hz with rfl | hz
    · positivity
    · have := cwise_sum_pos (by simpa using h) (fun z hz => h1 z (by simp [hz]))
        (fun z hz => h2 z (by simp [hz])) ⟨z, hz, hzp⟩
      positivity

theorem checkRotations_ok {d : Nat} : ∀ {Rs : List (DMat ℝ)}, Sized d d Rs → checkRotations Rs = ok ()
  | [], _ => rfl
  | R :: l, h => by
    have hR := h R (by simp)
    have ih := checkRotations_ok (Rs := l) fun A hA => h A (by simp [hA])
    unfold checkRotations at ih ⊢
    rw [foldl_cons, checkRotationMatrix, hR.1, hR.2]
    simpa using ih

theorem singlePoseAveraging_ok {svd : SvdOracle} {d : Nat} {Rs ts : List (DMat ℝ)}
    (hn : 0 < Rs.length) (hR : Sized d d Rs) (ht : Sized d 1 ts) (hl : ts.length = Rs.length)
    {kappa tau : List ℝ} {R t : DMat ℝ} (et : singleTranslationAveraging ts tau = ok t)
    (eR : singleRotationAveraging svd Rs kappa = ok R) :
    singlePoseAveraging svd Rs ts kappa tau = ok (R, t) := by
  cases Rs with
  | nil => simp at hn
  | cons a l =>
    cases ts with
    | nil => simp at hl
    | cons b m =>
      simp only [singlePoseAveraging]
      rw [hl, (hR a (by simp)).1, (ht b (by simp)).1, et, eR]
      simp

theorem robustAverage_total {E : Type} {n k : Nat} {barc : ℝ} (hb : 0 < barc)
    {solve : List ℝ → Res E} {resid : E → Res (List ℝ)} (P : E → Prop) (hn : 0 < n)
    (hsolve : ∀ w : List ℝ, w.length = n → (∀ x ∈ w, 0 ≤ x) → (∃ x ∈ w, 0 < x) →
      ∃ e, solve w = ok e ∧ P e)
    (hresid : ∀ e, P e → ∃ rs, resid e = ok rs ∧ rs.length = n ∧ ∀ r ∈ rs, 0 ≤ r)
    {e0 : E} (h0 : P e0) : ∃ o, robustAverage n k barc solve resid e0 = ok o ∧ P o.est := by
  obtain ⟨rs, hrs, -, -⟩ := hresid e0 h0
  unfold robustAverage
  rw [hrs, ok_bind]
  cases hm : initMu barc (maxCoeff rs) with
  | none => exact ⟨_, rfl, h0⟩
  | some mu =>
    exact gncLoop_total hb P hsolve hresid _ _ _ _ _ (GncCost.start (initMu_pos hm) k) h0 (by simp)
      (fun x hx => by rw [List.eq_of_mem_replicate hx]; norm_num)
      ⟨1, List.mem_replicate.2 ⟨by omega, rfl⟩, one_pos⟩

theorem robustAverage_zero {E : Type} {n k : Nat} {barc : ℝ} (hb : 0 < barc)
    {solve : List ℝ → Res E} {resid : E → Res (List ℝ)} {e0 : E} {rs : List ℝ}
    (hrs : resid e0 = ok rs) (hz : ∀ x ∈ rs, x = 0) :
    robustAverage n k barc solve resid e0 = ok ⟨e0, List.replicate n 1, 0⟩ := by
  unfold robustAverage
  rw [hrs, ok_bind, maxCoeff_zero hz, (initMu_none hb).2 (by rw [mul_zero]; positivity)]

theorem rotation_consistent {svd : SvdOracle} (hsvd : LawfulSvd svd) {d : Nat} {Rs : List (DMat ℝ)}
    (h0 : Rs ≠ []) (hs : Sized d d Rs) {Q : Matrix (Fin d) (Fin d) ℝ} (hQ : IsRot Q)
    (hall : ∀ A ∈ Rs, A.toMat d d = Q) {kappa : List ℝ} (hl : kappa.length = Rs.length)
    (hk : 0 < kappa.sum) : singleRotationAveraging svd Rs kappa = ok (DMat.ofMat Q) := by
  rw [rotation_avg_ok svd h0 hs, weightsOr_self 1 hl, wsum_const (R := Q) _ (fun p hp =>
      hall _ (List.of_mem_zip (a := p.1) (b := p.2) hp).2), map_fst_zip hl]
  rw [rotProj_scaled hQ hk (hsvd d d _ (le_refl d))]

theorem normSq_same' {m n : Nat} {A B : DMat ℝ} (h1 : A.rows = m) (h2 : A.cols = n)
    (h : A.toMat m n = B.toMat m n) : (A.sub B).normSq = 0 := by
  rw [DMat.normSq_frob (A := A.sub B) ⟨h1, h2⟩, DMat.toMat_sub, h, sub_self]
  exact frob2_eq_zero.2 rfl

theorem normSq_same {m n : Nat} {Q : Matrix (Fin m) (Fin n) ℝ} {B : DMat ℝ}
    (h : B.toMat m n = Q) : ((DMat.ofMat Q).sub B).normSq = 0 :=
  normSq_same' (m := m) (n := n) rfl rfl (by rw [DMat.toMat_ofMat, h])

end Total

end Dpgo
