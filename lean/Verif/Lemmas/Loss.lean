import Verif.Spec.Loss
import Verif.Lemmas.Robust
import Verif.Lemmas.RobustTeam
import Verif.Lemmas.Guess
import Mathlib.Analysis.Calculus.Deriv.Slope

/-!
# Lemmas on robust losses
-/

namespace Dpgo

open Res Spec RobustCost

section
variable {t mu r s v w : ℝ}

theorem gncLoss_le (ht : 0 < t) (hm : 0 < mu) (h0 : 0 ≤ v) (h1 : v ≤ 1) :
    gncLoss t mu s ≤ v * s ^ 2 + gncPenalty t mu v := by
  have hv : 0 < mu + v := by linarith
  have ht2 : 0 < t ^ 2 := by positivity
  unfold gncLoss gncPenalty
  split_ifs with c1 c2
  · have a1 : mu / (mu + 1) ≤ mu / (mu + v) := div_le_div_of_nonneg_left hm.le hv (by linarith)
    have a2 : s ^ 2 ≤ mu / (mu + v) * t ^ 2 := c1.trans (mul_le_mul_of_nonneg_right a1 ht2.le)
    have a3 := mul_le_mul_of_nonneg_left a2 (sub_nonneg.2 h1)
    have a4 : mu * (1 - v) / (mu + v) * t ^ 2 = (1 - v) * (mu / (mu + v) * t ^ 2) := by ring
    rw [a4]
    linarith
  · have a1 : (mu + 1) / (mu + v) ≤ (mu + 1) / mu := div_le_div_of_nonneg_left (by linarith) hm (by linarith)
    have a2 : (mu + 1) / (mu + v) * t ^ 2 ≤ s ^ 2 := (mul_le_mul_of_nonneg_right a1 ht2.le).trans c2
    have a3 := mul_le_mul_of_nonneg_left a2 h0
    have a4 : t ^ 2 = v * ((mu + 1) / (mu + v) * t ^ 2) + mu * (1 - v) / (mu + v) * t ^ 2 := by
      field_simp
      ring
    linarith
  · have hq : √(mu * (mu + 1)) ^ 2 = mu * (mu + 1) := Real.sq_sqrt (by positivity)
    have a1 : mu * (1 - v) / (mu + v) * t ^ 2 = √(mu * (mu + 1)) ^ 2 * t ^ 2 / (mu + v) - mu * t ^ 2 := by
      rw [hq]
      field_simp
      ring
    have a2 : 0 ≤ ((mu + v) * |s| - √(mu * (mu + 1)) * t) ^ 2 / (mu + v) := by positivity
    have a3 : ((mu + v) * |s| - √(mu * (mu + 1)) * t) ^ 2 / (mu + v) =
        (mu + v) * |s| ^ 2 - 2 * t * |s| * √(mu * (mu + 1)) + √(mu * (mu + 1)) ^ 2 * t ^ 2 / (mu + v) := by
      field_simp
      ring
    rw [sq_abs] at a3
    rw [a1]
    linarith

theorem gncLoss_eq (ht : 0 < t) (hm : 0 < mu) (e : RobustCost.gncWeight t mu r = ok w) :
    0 ≤ w ∧ w ≤ 1 ∧ gncLoss t mu r = w * r ^ 2 + gncPenalty t mu w := by
  have e' := e
  rw [gncWeight_eq ht hm] at e'
  cases e'
  refine ⟨gncForm_nonneg _ _ _, gncForm_le_one ht hm r, ?_⟩
  unfold RobustCost.gncWeight at e
  simp only at e
  rw [if_neg (by rintro (h | h) <;> linarith), show r * r = r ^ 2 by ring, show t * t = t ^ 2 by ring] at e
  unfold gncLoss gncPenalty
  have hlt : mu / (mu + 1) * t ^ 2 < (mu + 1) / mu * t ^ 2 := by
    have a1 := lowerSq_lt ht hm
    have a2 := lt_upperSq ht hm
    unfold lowerSq at a1
    unfold upperSq at a2
    have b1 : mu / (mu + 1) * t ^ 2 = t ^ 2 * mu / (mu + 1) := by ring
    have b2 : (mu + 1) / mu * t ^ 2 = t ^ 2 * (mu + 1) / mu := by ring
    rw [b1, b2]
    linarith
  by_cases c2 : r ^ 2 ≥ (mu + 1) / mu * t ^ 2
  · rw [if_pos c2] at e
    rw [← Res.ok.inj e, if_neg (by linarith), if_pos c2]
    field_simp
    ring
  · rw [if_neg c2] at e
    by_cases c1 : r ^ 2 ≤ mu / (mu + 1) * t ^ 2
    · rw [if_pos c1] at e
      rw [← Res.ok.inj e, if_pos c1]
      ring
    · rw [if_neg c1] at e
      split at e
      · cases e
      rw [← Res.ok.inj e, if_neg c1, if_neg c2]
      have hr2 : 0 < r ^ 2 := by
        have : 0 < mu / (mu + 1) * t ^ 2 := by positivity
        linarith
      have hr : 0 < |r| := by
        rw [abs_pos]
        rintro rfl
        norm_num at hr2
      have hq : √(mu * (mu + 1)) ^ 2 = mu * (mu + 1) := Real.sq_sqrt (by positivity)
      have hqp : 0 < √(mu * (mu + 1)) := Real.sqrt_pos.2 (by positivity)
      have hroot : √(t ^ 2 * mu * (mu + 1) / r ^ 2) = t * √(mu * (mu + 1)) / |r| := by
        rw [Real.sqrt_eq_iff_mul_self_eq (by positivity) (by positivity), ← sq_abs r]
        field_simp
        rw [hq]
      rw [hroot]
      have e1 : mu + (t * √(mu * (mu + 1)) / |r| - mu) = t * √(mu * (mu + 1)) / |r| := by ring
      rw [e1]
      have e2 : r ^ 2 = |r| ^ 2 := (sq_abs r).symm
      rw [e2]
      have e3 : mu * (1 - (t * √(mu * (mu + 1)) / |r| - mu)) / (t * √(mu * (mu + 1)) / |r|) * t ^ 2 =
          (mu * (mu + 1)) * |r| * t / √(mu * (mu + 1)) - mu * t ^ 2 := by
        field_simp
        ring
      have e4 : (mu * (mu + 1)) * |r| * t / √(mu * (mu + 1)) = t * |r| * √(mu * (mu + 1)) := by
        rw [div_eq_iff hqp.ne']
        linear_combination (- (|r| * t)) * hq
      rw [e3, e4]
      have e5 : (t * √(mu * (mu + 1)) / |r| - mu) * |r| ^ 2 = t * |r| * √(mu * (mu + 1)) - mu * |r| ^ 2 := by
        field_simp
      rw [e5]
      ring

/-- Distance of the surrogate to truncated least squares. -/
theorem gncLoss_near (ht : 0 < t) (hm : 0 < mu) :
    gncLoss t mu r ≤ tlsLoss t r ∧ tlsLoss t r ≤ gncLoss t mu r + t ^ 2 / (4 * mu) := by
  have hgap : 0 ≤ t ^ 2 / (4 * mu) := by positivity
  have up : ∀ v, 0 ≤ v → v ≤ 1 → gncLoss t mu r ≤ v * r ^ 2 + gncPenalty t mu v := fun v => gncLoss_le ht hm
  constructor
  · unfold tlsLoss
    refine le_min ?_ ?_
    · have := up 1 (by norm_num) le_rfl
      unfold gncPenalty at this
      simpa using this
    · have := up 0 le_rfl (by norm_num)
      unfold gncPenalty at this
      rw [sub_zero, mul_one, add_zero, div_self hm.ne'] at this
      linarith
  · unfold gncLoss
    split_ifs with c1 c2
    · exact (min_le_left _ _).trans (by linarith)
    · exact (min_le_right _ _).trans (by linarith)
    · push Not at c1 c2
      set a := √mu with ha
      set b := √(mu + 1) with hb
      have a2 : a ^ 2 = mu := Real.sq_sqrt hm.le
      have b2 : b ^ 2 = mu + 1 := Real.sq_sqrt (by linarith)
      have a0 : 0 < a := Real.sqrt_pos.2 hm
      have b0 : 0 < b := Real.sqrt_pos.2 (by linarith)
      have hab : √(mu * (mu + 1)) = a * b := Real.sqrt_mul hm.le _
      have hlt : a ≤ b := Real.sqrt_le_sqrt (by linarith)
      have hdiff : (b - a) ^ 2 ≤ 1 / (4 * mu) := by
        have h1 : (b - a) * (b + a) = 1 := by
          have : (b - a) * (b + a) = b ^ 2 - a ^ 2 := by ring
          rw [this, a2, b2]
          ring
        have h2 : (b - a) * (2 * a) ≤ 1 := by
          have : (b - a) * (2 * a) ≤ (b - a) * (b + a) :=
            mul_le_mul_of_nonneg_left (by linarith) (by linarith)
          linarith
        have h3 : ((b - a) * (2 * a)) ^ 2 ≤ 1 := by
          have : 0 ≤ (b - a) * (2 * a) := mul_nonneg (by linarith) (by linarith)
          nlinarith
        rw [le_div_iff₀ (by linarith), ← a2]
        linarith [show (b - a) ^ 2 * (4 * a ^ 2) = ((b - a) * (2 * a)) ^ 2 by ring]
      have hgap' : t ^ 2 * (b - a) ^ 2 ≤ t ^ 2 / (4 * mu) := by
        have := mul_le_mul_of_nonneg_left hdiff (sq_nonneg t)
        rw [mul_one_div] at this
        exact this
      have hr : 0 ≤ |r| := abs_nonneg r
      rw [hab]
      rw [← sq_abs r] at c1 c2 ⊢
      unfold tlsLoss
      rw [← sq_abs r]
      have l1 : t * a ≤ |r| * b := by
        have : (t * a) ^ 2 ≤ (|r| * b) ^ 2 := by
          rw [mul_pow, mul_pow, a2, b2]
          rw [div_mul_eq_mul_div, div_lt_iff₀ (by linarith)] at c1
          linarith
        exact abs_le_of_sq_le_sq' this (by positivity) |>.2
      have l2 : |r| * a ≤ t * b := by
        have : (|r| * a) ^ 2 ≤ (t * b) ^ 2 := by
          rw [mul_pow, mul_pow, a2, b2]
          rw [div_mul_eq_mul_div, lt_div_iff₀ hm] at c2
          linarith
        exact abs_le_of_sq_le_sq' this (by positivity) |>.2
      rcases le_total |r| t with hrt | hrt
      · have h1 : |r| * b - t * a ≤ t * (b - a) := by
          have := mul_le_mul_of_nonneg_right hrt b0.le
          linarith
        have h2 : (|r| * b - t * a) ^ 2 ≤ (t * (b - a)) ^ 2 := pow_le_pow_left₀ (by linarith) h1 2
        have h3 : (|r| * b - t * a) ^ 2 = |r| ^ 2 * b ^ 2 - 2 * t * |r| * (a * b) + t ^ 2 * a ^ 2 := by ring
        rw [h3, a2, b2, mul_pow] at h2
        refine (min_le_left _ _).trans ?_
        linarith
      · have h1 : t * b - |r| * a ≤ t * (b - a) := by
          have := mul_le_mul_of_nonneg_right hrt a0.le
          linarith
        have h2 : (t * b - |r| * a) ^ 2 ≤ (t * (b - a)) ^ 2 := pow_le_pow_left₀ (by linarith) h1 2
        have h3 : (t * b - |r| * a) ^ 2 = t ^ 2 * b ^ 2 - 2 * t * |r| * (a * b) + |r| ^ 2 * a ^ 2 := by ring
        rw [h3, a2, b2, mul_pow] at h2
        refine (min_le_right _ _).trans ?_
        linarith

end

/-- The weighted square is tangent to the loss from above. -/
theorem loss_le {c : RobustCost} (hc : CostOk c) {r s w : ℝ} (hr : 0 ≤ r) (hs : 0 ≤ s) (e : c.weight r = ok w) :
    loss c s ≤ loss c r + w * (s ^ 2 - r ^ 2) := by
  unfold RobustCost.weight at e
  unfold loss
  cases ht : c.params.costType with
  | L2 =>
    rw [ht] at e
    cases e
    simp only
    linarith
  | L1 =>
    rw [ht] at e
    simp only at e ⊢
    split at e
    · cases e
    · rename_i h0
      cases e
      have hr' : 0 < r := lt_of_le_of_ne hr (Ne.symm h0)
      rw [abs_of_nonneg hr, abs_of_nonneg hs]
      have : 1 / r * (s ^ 2 - r ^ 2) - 2 * s + 2 * r = (s - r) ^ 2 / r := by
        field_simp
        ring
      have h2 : 0 ≤ (s - r) ^ 2 / r := by positivity
      linarith
  | Huber =>
    have hk := hc.huber ht
    rw [ht] at e
    simp only at e ⊢
    rw [abs_of_nonneg hr, abs_of_nonneg hs]
    set k := c.params.HuberThreshold
    have key : (if s ≤ k then s ^ 2 else 2 * k * s - k ^ 2) ≤ s ^ 2 := by
      split
      · exact le_rfl
      · linarith [sq_nonneg (s - k)]
    split at e
    · rename_i h1
      cases e
      rw [if_pos h1.le]
      linarith
    · rename_i h1
      split at e
      · cases e
      · rename_i h0
        cases e
        have hr' : 0 < r := lt_of_le_of_ne hr (Ne.symm h0)
        push Not at h1
        have hl : (if r ≤ k then r ^ 2 else 2 * k * r - k ^ 2) = 2 * k * r - k ^ 2 := by
          split
          · have : r = k := le_antisymm (by assumption) h1
            rw [this]
            ring
          · rfl
        rw [hl]
        have hid : k / r * (s ^ 2 - r ^ 2) = k * (s ^ 2 / r) - k * r := by
          field_simp
        have hsr : 2 * s - r ≤ s ^ 2 / r := by
          rw [le_div_iff₀ hr']
          linarith [sq_nonneg (s - r)]
        split
        · rename_i h2
          rw [hid]
          -- `s² ≤ k r - k² + k s² / r` for `s ≤ k ≤ r`
          have h3 : s ^ 2 * (r - k) ≤ k * r * (r - k) := by
            refine mul_le_mul_of_nonneg_right ?_ (by linarith)
            have := mul_le_mul h2 (h2.trans h1) hs hk.le
            linarith [sq s]
          have h4 : s ^ 2 - k * (s ^ 2 / r) ≤ k * (r - k) := by
            have e1 : s ^ 2 - k * (s ^ 2 / r) = s ^ 2 * (r - k) / r := by field_simp
            rw [e1, div_le_iff₀ hr']
            linarith
          linarith [sq k]
        · rw [hid]
          have := mul_le_mul_of_nonneg_left hsr hk.le
          linarith
  | TLS =>
    have hk := hc.tls ht
    rw [ht] at e
    simp only at e ⊢
    unfold tlsLoss
    set k := c.params.TLSThreshold
    split at e
    · rename_i h1
      cases e
      rw [min_eq_left (pow_le_pow_left₀ hr h1.le 2)]
      exact (min_le_left _ _).trans (by linarith)
    · rename_i h1
      cases e
      push Not at h1
      rw [min_eq_right (pow_le_pow_left₀ hk h1 2)]
      exact (min_le_right _ _).trans (by linarith)
  | GM =>
    rw [ht] at e
    simp only at e ⊢
    cases e
    have h1 : 0 < 1 + r ^ 2 := by positivity
    have h2 : 0 < 1 + s ^ 2 := by positivity
    have hid : r ^ 2 / (1 + r ^ 2) + 1 / ((1 + r * r) * (1 + r * r)) * (s ^ 2 - r ^ 2) - s ^ 2 / (1 + s ^ 2) =
        (s ^ 2 - r ^ 2) ^ 2 / ((1 + r ^ 2) ^ 2 * (1 + s ^ 2)) := by
      rw [show r * r = r ^ 2 by ring]
      field_simp
      ring
    have h3 : 0 ≤ (s ^ 2 - r ^ 2) ^ 2 / ((1 + r ^ 2) ^ 2 * (1 + s ^ 2)) := by positivity
    linarith
  | GNC_TLS =>
    rw [ht] at e
    simp only at e ⊢
    obtain ⟨h0, h1, h2⟩ := gncLoss_eq (hc.barc ht) (hc.mu ht) e
    have := gncLoss_le (s := s) (hc.barc ht) (hc.mu ht) h0 h1
    rw [h2]
    linarith

/-! ### Derivatives -/

/-- A function with tangent parabolas `w (s² - r²)` above it is differentiable where `w` is continuous. -/
theorem hasDerivAt_of_majorised {f w : ℝ → ℝ} (h : ∀ r > 0, ∀ s > 0, f s ≤ f r + w r * (s ^ 2 - r ^ 2)) {r : ℝ}
    (hr : 0 < r) (hw : ContinuousAt w r) : HasDerivAt f (2 * w r * r) r := by
  rw [hasDerivAt_iff_tendsto_slope]
  have t1 : Filter.Tendsto (fun s => w s * (s + r)) (nhdsWithin r {r}ᶜ) (nhds (2 * w r * r)) := by
    have : ContinuousAt (fun s => w s * (s + r)) r := hw.mul (by fun_prop)
    have := this.tendsto
    rw [show w r * (r + r) = 2 * w r * r by ring] at this
    exact this.mono_left nhdsWithin_le_nhds
  have t2 : Filter.Tendsto (fun s => w r * (s + r)) (nhdsWithin r {r}ᶜ) (nhds (2 * w r * r)) := by
    have : ContinuousAt (fun s => w r * (s + r)) r := by fun_prop
    have := this.tendsto
    rw [show w r * (r + r) = 2 * w r * r by ring] at this
    exact this.mono_left nhdsWithin_le_nhds
  have t3 := t1.min t2
  have t4 := t1.max t2
  rw [min_self] at t3
  rw [max_self] at t4
  have pos : ∀ᶠ s in nhdsWithin r {r}ᶜ, 0 < s ∧ s ≠ r := by
    refine Filter.Eventually.and ?_ self_mem_nhdsWithin
    exact nhdsWithin_le_nhds (lt_mem_nhds hr)
  refine tendsto_of_tendsto_of_tendsto_of_le_of_le' t3 t4 ?_ ?_
  all_goals
    filter_upwards [pos] with s hs
    have h1 := h r hr s hs.1
    have h2 := h s hs.1 r hr
    rw [slope_def_field]
    rcases lt_or_gt_of_ne hs.2 with c | c
  · refine (min_le_right _ _).trans ?_
    rw [le_div_iff_of_neg (by linarith)]
    linarith [show w r * (s + r) * (s - r) = w r * (s ^ 2 - r ^ 2) by ring]
  · refine (min_le_left _ _).trans ?_
    rw [le_div_iff₀ (by linarith)]
    linarith [show w s * (s + r) * (s - r) = w s * (s ^ 2 - r ^ 2) by ring,
      show w s * (r ^ 2 - s ^ 2) = - (w s * (s ^ 2 - r ^ 2)) by ring]
  · refine le_trans ?_ (le_max_left _ _)
    rw [div_le_iff_of_neg (by linarith)]
    linarith [show w s * (s + r) * (s - r) = w s * (s ^ 2 - r ^ 2) by ring,
      show w s * (r ^ 2 - s ^ 2) = - (w s * (s ^ 2 - r ^ 2)) by ring]
  · refine le_trans ?_ (le_max_right _ _)
    rw [div_le_iff₀ (by linarith)]
    linarith [show w r * (s + r) * (s - r) = w r * (s ^ 2 - r ^ 2) by ring]

/-- The weight as a number. -/
noncomputable def weightVal (c : RobustCost) (r : ℝ) : ℝ :=
  match c.weight r with
  | .ok w => w
  | _ => 0

theorem weightVal_eq {c : RobustCost} {r w : ℝ} (e : c.weight r = ok w) : weightVal c r = w := by
  unfold weightVal
  rw [e]

/-- The weight of a positive residual. -/
theorem weight_pos {c : RobustCost} (hc : CostOk c) {r : ℝ} (hr : 0 < r) : ∃ w, c.weight r = ok w := by
  unfold RobustCost.weight
  cases ht : c.params.costType with
  | L2 => exact ⟨_, rfl⟩
  | L1 => simp only; rw [if_neg hr.ne']; exact ⟨_, rfl⟩
  | Huber =>
    simp only
    split
    · exact ⟨_, rfl⟩
    · rw [if_neg hr.ne']; exact ⟨_, rfl⟩
  | TLS =>
    simp only
    split <;> exact ⟨_, rfl⟩
  | GM => exact ⟨_, rfl⟩
  | GNC_TLS => exact ⟨_, gncWeight_eq (hc.barc ht) (hc.mu ht) r⟩

theorem weightVal_continuous {c : RobustCost} (hc : CostOk c) {r : ℝ} (hr : 0 < r)
    (h : c.params.costType = .TLS → r ≠ c.params.TLSThreshold) : ContinuousAt (weightVal c) r := by
  have pos : ∀ᶠ s in nhds r, 0 < s := lt_mem_nhds hr
  have of : ∀ g : ℝ → ℝ, ContinuousAt g r → (∀ᶠ s in nhds r, c.weight s = ok (g s)) →
      ContinuousAt (weightVal c) r := by
    intro g hg he
    refine hg.congr ?_
    filter_upwards [he] with s hs
    exact (weightVal_eq hs).symm
  cases ht : c.params.costType with
  | L2 => exact of (fun _ => 1) continuousAt_const (.of_forall fun s => by unfold RobustCost.weight; rw [ht])
  | L1 =>
    refine of (fun s => 1 / s) (continuousAt_const.div continuousAt_id hr.ne') ?_
    filter_upwards [pos] with s hs
    unfold RobustCost.weight
    rw [ht]
    simp only
    rw [if_neg hs.ne']
  | Huber =>
    refine of (fun s => min 1 (c.params.HuberThreshold / s))
      (continuousAt_const.min (continuousAt_const.div continuousAt_id hr.ne')) ?_
    filter_upwards [pos] with s hs
    unfold RobustCost.weight
    rw [ht]
    simp only
    split
    · rename_i hl
      rw [min_eq_left (by rw [le_div_iff₀ hs]; linarith)]
    · rename_i hl
      rw [if_neg hs.ne', min_eq_right (by rw [div_le_iff₀ hs]; linarith)]
  | TLS =>
    rcases lt_or_gt_of_ne (h ht) with hl | hl
    · refine of (fun _ => 1) continuousAt_const ?_
      filter_upwards [gt_mem_nhds hl] with s hs
      unfold RobustCost.weight
      rw [ht]
      simp only
      rw [if_pos hs]
    · refine of (fun _ => 0) continuousAt_const ?_
      filter_upwards [lt_mem_nhds hl] with s hs
      unfold RobustCost.weight
      rw [ht]
      simp only
      rw [if_neg (by linarith)]
  | GM =>
    refine of (fun s => 1 / ((1 + s * s) * (1 + s * s))) ?_ (.of_forall fun s => by
      unfold RobustCost.weight; rw [ht])
    refine continuousAt_const.div (by fun_prop) ?_
    have : 0 < 1 + r * r := by positivity
    positivity
  | GNC_TLS =>
    refine of (gncForm c.params.GNCBarc c.mu) ?_ (.of_forall fun s => by
      unfold RobustCost.weight
      rw [ht]
      exact gncWeight_eq (hc.barc ht) (hc.mu ht) s)
    exact (gncForm_continuous (hc.barc ht) (hc.mu ht)).continuousAt

/-! ### Teams -/

section
variable {r d : Nat} {c : RobustCost} {m m' : Meas ℝ} {E E' : List (Meas ℝ)} {X Y : Joint ℝ}

theorem resid_sq (hk : 0 ≤ m.kappa) (ht : 0 ≤ m.tau) (A : DMat ℝ) (i : Nat) (B : DMat ℝ) (j : Nat) :
    resid r d m A i B j ^ 2 = m.kappa * rotRes r d m A i B j + m.tau * traRes r d m A i B j := by
  refine Real.sq_sqrt (add_nonneg (mul_nonneg hk ?_) (mul_nonneg ht ?_))
  · unfold rotRes
    exact Finset.sum_nonneg fun _ _ => Finset.sum_nonneg fun _ _ => sq_nonneg _
  · unfold traRes
    exact Finset.sum_nonneg fun _ _ => sq_nonneg _

theorem edgeLoss_step (hc : CostOk c) (hk : 0 ≤ m.kappa) (ht : 0 ≤ m.tau) (h : Reweighed r d c X m m') :
    edgeLoss r d c m (Y m.r1) m.p1 (Y m.r2) m.p2 - edgeLoss r d c m (X m.r1) m.p1 (X m.r2) m.p2 ≤
      edgeCost r d m' (Y m'.r1) m'.p1 (Y m'.r2) m'.p2 - edgeCost r d m' (X m'.r1) m'.p1 (X m'.r2) m'.p2 := by
  unfold edgeLoss
  by_cases hf : m.fixedWeight = true ∨ isOdo m.r1 m = true
  · rw [if_pos hf, if_pos hf, h.1 hf]
  · rw [if_neg hf, if_neg hf]
    simp only [not_or, Bool.not_eq_true] at hf
    obtain ⟨w, hw, rfl⟩ := h.2 hf.1 hf.2
    have := loss_le hc (r := resid r d m (X m.r1) m.p1 (X m.r2) m.p2)
      (s := resid r d m (Y m.r1) m.p1 (Y m.r2) m.p2) (Real.sqrt_nonneg _) (Real.sqrt_nonneg _) hw
    have e1 : ∀ Z : Joint ℝ, edgeCost r d { m with weight := w } (Z m.r1) m.p1 (Z m.r2) m.p2 =
        w * resid r d m (Z m.r1) m.p1 (Z m.r2) m.p2 ^ 2 := by
      intro Z
      rw [resid_sq hk ht]
      rfl
    show _ ≤ edgeCost r d { m with weight := w } (Y m.r1) m.p1 (Y m.r2) m.p2 -
      edgeCost r d { m with weight := w } (X m.r1) m.p1 (X m.r2) m.p2
    rw [e1, e1]
    linarith

theorem firstWins_subset {l : List (Meas ℝ)} {m : Meas ℝ} (h : m ∈ firstWins l) : m ∈ l := Example.mem_firstWins h

/-- Lowering the weighted cost lowers the robust cost. -/
theorem robust_step (hc : CostOk c) (hE : ∀ m ∈ E, 0 ≤ m.kappa ∧ 0 ≤ m.tau)
    (h : List.Forall₂ (Reweighed r d c X) E E') :
    robustCost r d c E Y - robustCost r d c E X ≤ teamCost r d E' Y - teamCost r d E' X := by
  have hmap := reweighed_map h
  have hw : ∀ m ∈ E, Reweighed r d c X m (newEdge r d c X m) := by
    rw [hmap, List.forall₂_map_right_iff, List.forall₂_same] at h
    exact h
  subst hmap
  unfold robustCost teamCost
  rw [newEdge_keeps.firstWins, List.map_map, List.map_map]
  have key : ∀ l : List (Meas ℝ), (∀ m ∈ l, m ∈ E) →
      (l.map fun m => edgeLoss r d c m (Y m.r1) m.p1 (Y m.r2) m.p2).sum -
        (l.map fun m => edgeLoss r d c m (X m.r1) m.p1 (X m.r2) m.p2).sum ≤
      (l.map ((fun m => edgeCost r d m (Y m.r1) m.p1 (Y m.r2) m.p2) ∘ newEdge r d c X)).sum -
        (l.map ((fun m => edgeCost r d m (X m.r1) m.p1 (X m.r2) m.p2) ∘ newEdge r d c X)).sum := by
    intro l hl
    induction l with
    | nil => simp
    | cons m l ih =>
      have h1 := ih fun m hm => hl m (by simp [hm])
      have hm := hl m (by simp)
      have h2 := edgeLoss_step (Y := Y) hc (hE m hm).1 (hE m hm).2 (hw m hm)
      simp only [List.map_cons, List.sum_cons, Function.comp_apply] at h1 h2 ⊢
      linarith
  have := key (firstWins E) fun m hm => firstWins_subset hm
  linarith

theorem newEdge_form : newEdge r d c X m = { m with weight := (newEdge r d c X m).weight } ∧
    (m.fixedWeight = true ∨ isOdo m.r1 m = true → newEdge r d c X m = m) := by
  refine ⟨?_, newEdge_same⟩
  unfold newEdge
  split
  · rfl
  · split <;> rfl

/-- The robust cost does not depend on weights that can change. -/
theorem robustCost_reweighed (c' : RobustCost) (Z : Joint ℝ) (h : List.Forall₂ (Reweighed r d c X) E E') :
    robustCost r d c' E' Z = robustCost r d c' E Z := by
  have hmap := reweighed_map h
  subst hmap
  unfold robustCost
  rw [newEdge_keeps.firstWins, List.map_map]
  congr 2
  refine List.map_congr_left fun m _ => ?_
  show edgeLoss r d c' (newEdge r d c X m) _ _ _ _ = _
  by_cases hf : m.fixedWeight = true ∨ isOdo m.r1 m = true
  · rw [newEdge_form.2 hf]
  · rw [newEdge_form.1]
    have hf' : ¬ (({ m with weight := (newEdge r d c X m).weight } : Meas ℝ).fixedWeight = true ∨
        isOdo ({ m with weight := (newEdge r d c X m).weight } : Meas ℝ).r1
          { m with weight := (newEdge r d c X m).weight } = true) := hf
    unfold edgeLoss
    rw [if_neg hf, if_neg hf']
    rfl

theorem reweighed_nonneg (h : List.Forall₂ (Reweighed r d c X) E E') (hE : ∀ m ∈ E, 0 ≤ m.kappa ∧ 0 ≤ m.tau) :
    ∀ m ∈ E', 0 ≤ m.kappa ∧ 0 ≤ m.tau := by
  have hmap := reweighed_map h
  subst hmap
  intro m hm
  obtain ⟨m, hm', rfl⟩ := List.mem_map.1 hm
  rw [newEdge_form.1]
  exact hE m hm'

end

section
variable {o : AgentOracles} {p : AgentParams} {E E' : List (Meas ℝ)} {N : Nat} {s t : Net} {c c' : RobustCost}

theorem course_robustCost {l : List Round} (h : Course o p E c s l E' c' t) (e : RobustCost) (Z : Joint ℝ) :
    robustCost p.r p.d e E' Z = robustCost p.r p.d e E Z := by
  induction h with
  | start => rfl
  | round _ _ w _ ih => exact (robustCost_reweighed e Z w).trans ih

theorem course_nonneg {l : List Round} (h : Course o p E c s l E' c' t)
    (hE : ∀ m ∈ E, 0 ≤ m.kappa ∧ 0 ≤ m.tau) : ∀ m ∈ E', 0 ≤ m.kappa ∧ 0 ≤ m.tau := by
  induction h with
  | start => exact hE
  | round _ _ w _ ih => exact reweighed_nonneg w ih

theorem costOk_of_duty (hpar : ParamsOk p.robust) (htls : 0 ≤ p.robust.TLSThreshold) {k : Int} {i : Nat}
    {a : Agent} (h : RobustDuty o p E c k i a) : CostOk c ∧ c.params = p.robust := by
  obtain ⟨ops, hc⟩ := (agReach_inv h.duty.reach).cost
  rw [h.cost] at hc
  subst hc
  refine ⟨?_, costRun_params _ _⟩
  constructor
  · intro _; rw [costRun_params]; exact hpar.huber
  · intro _; rw [costRun_params]; exact htls
  · intro _; rw [costRun_params]; exact hpar.barc
  · intro e
    rw [costRun_params] at e
    exact costRun_mu_pos hpar e ops

/-- Once the resets of the trajectory are used up, weight updates leave the estimates alone. -/
theorem round_estimate (hd : 0 < p.d) (hp : p.acceleration = false) (hpar : ParamsOk p.robust)
    (hL1 : p.robust.costType ≠ .L1) {k : Int} (h : ∀ i < N, RobustDuty o p E c k i (s.agents i))
    (hm : s.mail = []) (hk : k + 1 < 2 ^ 31) (hr : p.numResets ≤ k) {f : Round} (hf : Orderly N E f) {u v : Net}
    (e : netRun o s f.ops = ok u) (e' : reweighAll u f.order = ok v) : v.estimate = u.estimate := by
  have ha : p.acceleration = true → AccelOk p := fun c => by rw [hp] at c; cases c
  obtain ⟨u', hu, hkept⟩ := NetInv.all_any hd ha (fun i hi => (h i hi).duty) hm hf.sound fun i hi => by
    rw [(h i hi).inner]
    have := hf.short i hi
    push_cast
    omega
  have := hu.run
  rw [e] at this
  cases this
  have hw : ∀ i < N, ∃ b, (u.agents i).updateMeasurementWeights = ok b ∧ b.X = (u.agents i).X := by
    intro i hi
    obtain ⟨k', hmem⟩ := hu.member i hi
    have h1 : (u.agents i).weightUpdateCount = k := (hkept i).count.trans (h i hi).count
    obtain ⟨tr, ht⟩ := agReach_hist hmem.reach
    have h2 := resetCount_spec ht
    have h3 := weightUpdateCount_spec ht
    have h4 : p.numResets ≤ (u.agents i).trajectoryResetCount := by
      rw [h1] at h3
      omega
    obtain ⟨b, hb⟩ := updateWeights_total (agReach_inv hmem.reach) hpar hL1 (by rw [h1]; exact hk)
      (fun c => by omega)
    exact ⟨b, hb, ((Props.C44_rest hmem.reach hmem.state hb).1 h4).1⟩
  have hex : ∀ i, ∃ b, i < N → (u.agents i).updateMeasurementWeights = ok b ∧ b.X = (u.agents i).X := by
    intro i
    by_cases hi : i < N
    · obtain ⟨b, hb⟩ := hw i hi
      exact ⟨b, fun _ => hb⟩
    · exact ⟨u.agents i, fun c => absurd c hi⟩
  choose b hb using hex
  have hmem : ∀ i, i ∈ f.order ↔ i < N := fun i => by rw [hf.once.mem_iff, List.mem_range]
  obtain ⟨v', hv, -, h1, h2⟩ := reweighAll_ok (hf.once.nodup_iff.2 List.nodup_range) b (u := u)
    fun i hi => (hb i ((hmem i).1 hi)).1
  rw [e'] at hv
  cases hv
  funext i
  show (v.agents i).X.X = (u.agents i).X.X
  by_cases hi : i < N
  · rw [h1 i ((hmem i).2 hi), (hb i hi).2]
  · rw [h2 i fun c => hi ((hmem i).1 c)]

theorem robustCost_nil (e : RobustCost) (Z : Joint ℝ) (r d : Nat) : robustCost r d e [] Z = 0 := by
  simp [robustCost, firstWins]

theorem firstWins_empty {N : Nat} (hE : ∀ m ∈ E, m.r1 < N ∧ m.r2 < N) : E = [] ∨ 0 < N := by
  cases E with
  | nil => exact Or.inl rfl
  | cons m l => exact Or.inr (lt_of_le_of_lt (Nat.zero_le _) (hE m (by simp)).1)

/-- The surrogate and truncated least squares, for a team. -/
theorem robustCost_near (hc : CostOk c) (ht : c.params.costType = .GNC_TLS) (r d : Nat) (Z : Joint ℝ) :
    robustCost r d c E Z ≤ robustCost r d (truncated c) E Z ∧
      robustCost r d (truncated c) E Z ≤
        robustCost r d c E Z + (firstWins E).length * (c.params.GNCBarc ^ 2 / (8 * c.mu)) := by
  have hb := hc.barc ht
  have hm := hc.mu ht
  have one : ∀ m : Meas ℝ, edgeLoss r d c m (Z m.r1) m.p1 (Z m.r2) m.p2 ≤
      edgeLoss r d (truncated c) m (Z m.r1) m.p1 (Z m.r2) m.p2 ∧
      edgeLoss r d (truncated c) m (Z m.r1) m.p1 (Z m.r2) m.p2 ≤
        edgeLoss r d c m (Z m.r1) m.p1 (Z m.r2) m.p2 + c.params.GNCBarc ^ 2 / (4 * c.mu) := by
    intro m
    unfold edgeLoss
    split
    · exact ⟨le_rfl, le_add_of_nonneg_right (by positivity)⟩
    · have e1 : ∀ x, loss c x = gncLoss c.params.GNCBarc c.mu x := fun x => by unfold loss; rw [ht]
      have e2 : ∀ x, loss (truncated c) x = tlsLoss c.params.GNCBarc x := fun x => rfl
      rw [e1, e2]
      exact gncLoss_near hb hm
  unfold robustCost
  generalize firstWins E = l
  have key : (l.map fun m => edgeLoss r d c m (Z m.r1) m.p1 (Z m.r2) m.p2).sum ≤
      (l.map fun m => edgeLoss r d (truncated c) m (Z m.r1) m.p1 (Z m.r2) m.p2).sum ∧
      (l.map fun m => edgeLoss r d (truncated c) m (Z m.r1) m.p1 (Z m.r2) m.p2).sum ≤
        (l.map fun m => edgeLoss r d c m (Z m.r1) m.p1 (Z m.r2) m.p2).sum +
          l.length * (c.params.GNCBarc ^ 2 / (4 * c.mu)) := by
    induction l with
    | nil => simp
    | cons m l ih =>
      have h1 := one m
      simp only [List.map_cons, List.sum_cons, List.length_cons]
      push_cast
      exact ⟨by linarith, by linarith⟩
  have e : (c.params.GNCBarc ^ 2 / (8 * c.mu)) = 1 / 2 * (c.params.GNCBarc ^ 2 / (4 * c.mu)) := by
    field_simp
    norm_num
  rw [e]
  exact ⟨by linarith, by linarith⟩

end

end Dpgo
