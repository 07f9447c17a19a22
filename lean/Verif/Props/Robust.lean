import Verif.Lemmas.Robust

/-!
# Robust costs: C22, C23
-/

namespace Dpgo.Props

open Res Spec RobustCost

/-! ### C22 -/

/-- **C22.** After any history of resets and updates, for every residual `≥ 0` the weight is a number
in `[0,1]`, for every cost except L1 (see `C22_L1`). -/
theorem C22_range (p : RobustParams) (h : ParamsOk p) (hL1 : p.costType ≠ .L1) (ops : List CostOp)
    (r : ℝ) (hr : 0 ≤ r) : ∃ w, (costRun p ops).weight r = ok w ∧ 0 ≤ w ∧ w ≤ 1 := by
  unfold RobustCost.weight
  rw [costRun_params]
  cases hc : p.costType with
  | L2 => exact ⟨1, rfl, by norm_num, le_refl _⟩
  | L1 => exact absurd hc hL1
  | TLS =>
    simp only
    split
    · exact ⟨1, rfl, by norm_num, le_refl _⟩
    · exact ⟨0, rfl, le_refl _, by norm_num⟩
  | Huber =>
    simp only
    split
    · exact ⟨1, rfl, by norm_num, le_refl _⟩
    · rename_i c
      have hpos := h.huber
      have hr' : 0 < r := by linarith
      rw [if_neg hr'.ne']
      refine ⟨_, rfl, by positivity, ?_⟩
      rw [div_le_one hr']
      linarith
  | GM =>
    refine ⟨_, rfl, by positivity, ?_⟩
    have : 0 ≤ r * r := by positivity
    rw [div_le_one (by positivity)]
    nlinarith
  | GNC_TLS =>
    have hm := costRun_mu_pos h hc ops
    exact ⟨_, gncWeight_eq h.barc hm r, gncForm_nonneg _ _ _, gncForm_le_one h.barc hm r⟩

/-- **C22.** The L1 weight is the (positive) inverse of every nonzero residual. -/
theorem C22_L1 (p : RobustParams) (hL1 : p.costType = .L1) (ops : List CostOp) (r : ℝ) (hr : 0 < r) :
    ∃ w, (costRun p ops).weight r = ok w ∧ 0 < w ∧ w * r = 1 := by
  unfold RobustCost.weight
  rw [costRun_params, hL1]
  simp only [if_neg hr.ne']
  exact ⟨_, rfl, by positivity, by field_simp⟩

/-- **C22.** For every cost the weight does not increase with the residual. -/
theorem C22_monotone (p : RobustParams) (h : ParamsOk p) (ops : List CostOp) (r s w v : ℝ)
    (hr : 0 ≤ r) (hrs : r ≤ s) (e : (costRun p ops).weight r = ok w)
    (e' : (costRun p ops).weight s = ok v) : v ≤ w := by
  unfold RobustCost.weight at e e'
  rw [costRun_params] at e e'
  cases hc : p.costType with
  | L2 => rw [hc] at e e'; cases e; cases e'; exact le_refl _
  | L1 =>
    rw [hc] at e e'
    simp only at e e'
    split at e
    · cases e
    · rename_i c
      split at e'
      · cases e'
      · cases e; cases e'
        have : 0 < r := lt_of_le_of_ne hr (Ne.symm c)
        exact one_div_le_one_div_of_le this hrs
  | TLS =>
    rw [hc] at e e'
    simp only at e e'
    split at e <;> split at e' <;> cases e <;> cases e'
    · exact le_refl _
    · norm_num
    · linarith
    · exact le_refl _
  | Huber =>
    rw [hc] at e e'
    have hpos := h.huber
    simp only at e e'
    split at e
    · cases e
      split at e'
      · cases e'; exact le_refl _
      · split at e'
        · cases e'
        · cases e'
          rw [div_le_one (by linarith)]
          linarith
    · rw [if_neg (by linarith : ¬ s < p.HuberThreshold)] at e'
      split at e
      · cases e
      · split at e'
        · cases e'
        · cases e; cases e'
          exact div_le_div_of_nonneg_left hpos.le (by linarith) hrs
  | GM =>
    rw [hc] at e e'
    cases e; cases e'
    have h0 : 0 ≤ r * r := by positivity
    have h1 : r * r ≤ s * s := mul_self_le_mul_self hr hrs
    apply one_div_le_one_div_of_le (by positivity)
    nlinarith
  | GNC_TLS =>
    rw [hc] at e e'
    have hm := costRun_mu_pos h hc ops
    rw [gncWeight_eq h.barc hm] at e e'
    cases e; cases e'
    exact gncForm_anti h.barc hm hr hrs

/-- **C22.** GNC: the weight is 1 below the lower threshold, 0 above the upper threshold, strictly
between 0 and 1 between them. -/
theorem C22_gnc_thresholds (p : RobustParams) (h : ParamsOk p) (hp : p.costType = .GNC_TLS)
    (ops : List CostOp) (r : ℝ) :
    let c := costRun p ops
    (r ^ 2 ≤ lowerSq p.GNCBarc c.mu → c.weight r = ok 1) ∧
    (upperSq p.GNCBarc c.mu ≤ r ^ 2 → c.weight r = ok 0) ∧
    (lowerSq p.GNCBarc c.mu < r ^ 2 → r ^ 2 < upperSq p.GNCBarc c.mu →
      ∃ w, c.weight r = ok w ∧ 0 < w ∧ w < 1) := by
  intro c
  have hm := costRun_mu_pos h hp ops
  have e : c.weight r = ok (gncForm p.GNCBarc c.mu r) := by
    unfold RobustCost.weight
    rw [costRun_params, hp]
    exact gncWeight_eq h.barc hm r
  rw [e]
  refine ⟨fun hl => ?_, fun hu => ?_, fun hl hu => ⟨_, rfl, gncForm_mid h.barc hm hl hu⟩⟩
  · rw [gncForm_low h.barc hm hl]
  · rw [gncForm_high h.barc hm hu]

/-- **C22.** The GNC weight is a continuous function of the residual. -/
theorem C22_gnc_continuous (p : RobustParams) (h : ParamsOk p) (hp : p.costType = .GNC_TLS)
    (ops : List CostOp) : ∃ f : ℝ → ℝ, Continuous f ∧ ∀ r, (costRun p ops).weight r = ok (f r) := by
  have hm := costRun_mu_pos h hp ops
  refine ⟨gncForm p.GNCBarc (costRun p ops).mu, gncForm_continuous h.barc hm, fun r => ?_⟩
  unfold RobustCost.weight
  rw [costRun_params, hp]
  exact gncWeight_eq h.barc hm r

/-- **C22.** TLS keeps exactly the residuals below its threshold and rejects all others. -/
theorem C22_tls (p : RobustParams) (hp : p.costType = .TLS) (ops : List CostOp) (r : ℝ) :
    ((costRun p ops).weight r = ok 1 ↔ r < p.TLSThreshold) ∧
    ((costRun p ops).weight r = ok 0 ↔ p.TLSThreshold ≤ r) := by
  unfold RobustCost.weight
  rw [costRun_params, hp]
  simp only
  split
  · rename_i c
    refine ⟨⟨fun _ => c, fun _ => rfl⟩, ⟨fun e => ?_, fun e => ?_⟩⟩
    · injection e with e; norm_num at e
    · linarith
  · rename_i c
    refine ⟨⟨fun e => ?_, fun e => absurd e c⟩, ⟨fun _ => not_lt.1 c, fun _ => rfl⟩⟩
    injection e with e; norm_num at e

/-! ### C23 -/

/-- **C23.** After any history of resets and updates the GNC parameter is
`init * step ^ min(k, max iterations)`, `k` being the number of updates since the last reset (or since
construction). -/
theorem C23_schedule (p : RobustParams) (hp : p.costType = .GNC_TLS) (ops : List CostOp) :
    (costRun p ops).mu =
      p.GNCInitMu * p.GNCMuStep ^ min (updatesSinceReset ops) p.GNCMaxNumIters :=
  (costRun_gnc p hp ops).1

/-- **C23.** Once the cap is reached further updates change no weight. -/
theorem C23_cap (p : RobustParams) (hp : p.costType = .GNC_TLS) (ops : List CostOp) (k : Nat)
    (hk : p.GNCMaxNumIters ≤ updatesSinceReset ops) (r : ℝ) :
    (costRun p (ops ++ List.replicate k .update)).weight r = (costRun p ops).weight r := by
  have hu : updatesSinceReset (ops ++ List.replicate k .update) = updatesSinceReset ops + k := by
    induction k with
    | zero => simp
    | succ k ih =>
      rw [List.replicate_succ', ← List.append_assoc, updatesSinceReset_update, ih]
      omega
  unfold RobustCost.weight
  rw [costRun_params, costRun_params, (costRun_gnc p hp _).1, (costRun_gnc p hp ops).1, hu,
    min_eq_right hk, min_eq_right (by omega)]

/-- **C23.** The undecided band always contains the nominal threshold, and (for step > 1) shrinks
strictly on both sides with every update below the cap. -/
theorem C23_band (p : RobustParams) (h : ParamsOk p) (hp : p.costType = .GNC_TLS)
    (hstep : 1 < p.GNCMuStep) (ops : List CostOp) :
    let m := (costRun p ops).mu
    let m' := (costRun p (ops ++ [.update])).mu
    (lowerSq p.GNCBarc m < p.GNCBarc ^ 2 ∧ p.GNCBarc ^ 2 < upperSq p.GNCBarc m) ∧
    (updatesSinceReset ops < p.GNCMaxNumIters →
      lowerSq p.GNCBarc m < lowerSq p.GNCBarc m' ∧ upperSq p.GNCBarc m' < upperSq p.GNCBarc m) := by
  intro m m'
  have hm : 0 < m := costRun_mu_pos h hp ops
  have hm' : 0 < m' := costRun_mu_pos h hp _
  have hb := h.barc
  refine ⟨⟨lowerSq_lt hb hm, lt_upperSq hb hm⟩, fun hk => ?_⟩
  have hmm : m < m' := by
    have e1 := (costRun_gnc p hp ops).1
    have e2 := (costRun_gnc p hp (ops ++ [.update])).1
    rw [updatesSinceReset_update, min_eq_left (by omega), pow_succ, ← mul_assoc] at e2
    rw [min_eq_left hk.le] at e1
    change m = _ at e1
    change m' = _ at e2
    rw [← e1] at e2
    rw [e2]
    nlinarith
  have hb2 : 0 < p.GNCBarc ^ 2 := by positivity
  constructor
  · unfold lowerSq
    rw [div_lt_div_iff₀ (by linarith) (by linarith)]
    nlinarith
  · unfold upperSq
    rw [div_lt_div_iff₀ hm' hm]
    nlinarith

/-- **C23.** Costs other than GNC are not affected by resets and updates. -/
theorem C23_others (p : RobustParams) (hp : p.costType ≠ .GNC_TLS) (ops : List CostOp) (r : ℝ) :
    (costRun p ops).weight r = (RobustCost.new p).weight r := by
  have h1 := costRun_params p ops
  have h2 : (RobustCost.new p).params = p := costRun_params p []
  unfold RobustCost.weight
  rw [h1, h2]
  cases hc : p.costType <;> first | rfl | exact absurd hc hp

/-! ### Concrete cases -/

/-- The default parameters satisfy the hypotheses of C22 and C23 for every cost, and the step is
larger than one. -/
example (t : CostType) : ParamsOk (RobustParams.default t) ∧
    1 < (RobustParams.default t).GNCMuStep := by
  refine ⟨⟨?_, ?_, ?_, ?_⟩, ?_⟩ <;> norm_num [RobustParams.default]

/-- A residual in the undecided band with `mu = 1`, `barc = 1`: weight `√2 − 1`. -/
example : gncWeight 1 1 1 = ok (Real.sqrt 2 - 1) := by
  rw [gncWeight_eq one_pos one_pos]
  unfold gncForm lowerSq
  norm_num

/-- Two updates, a reset and one update leave one update since the last reset. -/
example : updatesSinceReset [.update, .update, .reset, .update] = 1 := by decide

end Dpgo.Props
