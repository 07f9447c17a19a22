import Verif.Spec.Robust
import Mathlib.Tactic.Linarith
import Mathlib.Tactic.FieldSimp
import Mathlib.Tactic.Ring
import Mathlib.Tactic.Positivity
import Mathlib.Topology.Algebra.Order.Group
import Mathlib.Topology.Order.Lattice

/-! # Lemmas on the robust costs -/

namespace Dpgo

open Res Spec

namespace RobustCost

/-- Closed form of the GNC weight. -/
noncomputable def gncForm (barc mu r : ℝ) : ℝ :=
  max 0 (Real.sqrt (barc ^ 2 * mu * (mu + 1) / max (r ^ 2) (lowerSq barc mu)) - mu)

theorem lowerSq_pos {barc mu : ℝ} (hb : 0 < barc) (hm : 0 < mu) : 0 < lowerSq barc mu := by
  unfold lowerSq; positivity

theorem lowerSq_lt {barc mu : ℝ} (hb : 0 < barc) (hm : 0 < mu) : lowerSq barc mu < barc ^ 2 := by
  unfold lowerSq
  rw [div_lt_iff₀ (by linarith)]
  have : 0 < barc ^ 2 := by positivity
  nlinarith

theorem lt_upperSq {barc mu : ℝ} (hb : 0 < barc) (hm : 0 < mu) : barc ^ 2 < upperSq barc mu := by
  unfold upperSq
  rw [lt_div_iff₀ hm]
  have : 0 < barc ^ 2 := by positivity
  nlinarith

/-- At the lower threshold the root is `mu + 1`. -/
theorem root_lower {barc mu : ℝ} (hb : 0 < barc) (hm : 0 < mu) :
    Real.sqrt (barc ^ 2 * mu * (mu + 1) / lowerSq barc mu) = mu + 1 := by
  have : barc ^ 2 * mu * (mu + 1) / lowerSq barc mu = (mu + 1) ^ 2 := by
    unfold lowerSq
    field_simp
  rw [this, Real.sqrt_sq (by linarith)]

theorem root_upper {barc mu : ℝ} (hb : 0 < barc) (hm : 0 < mu) :
    Real.sqrt (barc ^ 2 * mu * (mu + 1) / upperSq barc mu) = mu := by
  have : barc ^ 2 * mu * (mu + 1) / upperSq barc mu = mu ^ 2 := by
    unfold upperSq
    field_simp
  rw [this, Real.sqrt_sq hm.le]

theorem root_anti {barc mu : ℝ} (hm : 0 < mu) {x y : ℝ} (hx : 0 < x) (hxy : x ≤ y) :
    Real.sqrt (barc ^ 2 * mu * (mu + 1) / y) ≤ Real.sqrt (barc ^ 2 * mu * (mu + 1) / x) := by
  apply Real.sqrt_le_sqrt
  apply div_le_div_of_nonneg_left _ hx hxy
  have := sq_nonneg barc
  positivity

theorem root_strict {barc mu : ℝ} (hb : 0 < barc) (hm : 0 < mu) {x y : ℝ} (hx : 0 < x)
    (hxy : x < y) :
    Real.sqrt (barc ^ 2 * mu * (mu + 1) / y) < Real.sqrt (barc ^ 2 * mu * (mu + 1) / x) := by
  apply Real.sqrt_lt_sqrt
  · have : 0 < y := hx.trans hxy
    positivity
  · apply div_lt_div_of_pos_left _ hx hxy
    positivity

theorem gncWeight_eq {barc mu : ℝ} (hb : 0 < barc) (hm : 0 < mu) (r : ℝ) :
    gncWeight barc mu r = ok (gncForm barc mu r) := by
  have hup : (mu + 1) / mu * (barc * barc) = upperSq barc mu := by unfold upperSq; ring
  have hlo : mu / (mu + 1) * (barc * barc) = lowerSq barc mu := by unfold lowerSq; ring
  have hl := lowerSq_pos hb hm
  unfold gncWeight gncForm
  simp only [hup, hlo]
  rw [if_neg (by rintro (h | h) <;> linarith)]
  have hr2 : r * r = r ^ 2 := by ring
  rw [hr2]
  by_cases h1 : r ^ 2 ≥ upperSq barc mu
  · rw [if_pos h1]
    have h3 := (lowerSq_lt hb hm).trans (lt_upperSq hb hm)
    rw [max_eq_left (h3.le.trans h1)]
    have h4 := root_anti (barc := barc) hm (hl.trans h3) h1
    rw [root_upper hb hm] at h4
    rw [max_eq_left (by linarith)]
  · rw [if_neg h1]
    by_cases h2 : r ^ 2 ≤ lowerSq barc mu
    · rw [if_pos h2, max_eq_right h2, root_lower hb hm, max_eq_right (by linarith)]
      congr 1; ring
    · rw [if_neg h2]
      push Not at h1 h2
      have hpos : 0 < r ^ 2 := hl.trans h2
      rw [if_neg]
      · have h4 := root_anti (barc := barc) hm hpos h1.le
        rw [root_upper hb hm] at h4
        rw [max_eq_left h2.le, max_eq_right (by linarith)]
        congr 4; ring
      · rintro (h | h)
        · exact hpos.ne' h
        · have : 0 ≤ barc * barc * mu * (mu + 1) / r ^ 2 := by positivity
          linarith

theorem gncForm_nonneg (barc mu r : ℝ) : 0 ≤ gncForm barc mu r := le_max_left _ _

theorem gncForm_le_one {barc mu : ℝ} (hb : 0 < barc) (hm : 0 < mu) (r : ℝ) :
    gncForm barc mu r ≤ 1 := by
  unfold gncForm
  apply max_le zero_le_one
  have := root_anti (barc := barc) hm (lowerSq_pos hb hm) (le_max_right (r ^ 2) (lowerSq barc mu))
  rw [root_lower hb hm] at this
  linarith

theorem gncForm_anti {barc mu : ℝ} (hb : 0 < barc) (hm : 0 < mu) {r s : ℝ} (hr : 0 ≤ r)
    (h : r ≤ s) : gncForm barc mu s ≤ gncForm barc mu r := by
  unfold gncForm
  apply max_le_max (le_refl _)
  have h2 : max (r ^ 2) (lowerSq barc mu) ≤ max (s ^ 2) (lowerSq barc mu) :=
    max_le_max (pow_le_pow_left₀ hr h 2) (le_refl _)
  have := root_anti (barc := barc) hm (lt_of_lt_of_le (lowerSq_pos hb hm) (le_max_right (r ^ 2) _)) h2
  linarith

theorem gncForm_continuous {barc mu : ℝ} (hb : 0 < barc) (hm : 0 < mu) :
    Continuous (gncForm barc mu) := by
  unfold gncForm
  have hl := lowerSq_pos hb hm
  refine Continuous.max continuous_const (Continuous.sub (Real.continuous_sqrt.comp ?_)
    continuous_const)
  refine Continuous.div continuous_const (Continuous.max (continuous_pow 2) continuous_const) ?_
  intro r
  exact (lt_of_lt_of_le hl (le_max_right _ _)).ne'

theorem gncForm_low {barc mu : ℝ} (hb : 0 < barc) (hm : 0 < mu) {r : ℝ}
    (h : r ^ 2 ≤ lowerSq barc mu) : gncForm barc mu r = 1 := by
  unfold gncForm
  rw [max_eq_right h, root_lower hb hm, max_eq_right (by linarith)]
  ring

theorem gncForm_high {barc mu : ℝ} (hb : 0 < barc) (hm : 0 < mu) {r : ℝ}
    (h : upperSq barc mu ≤ r ^ 2) : gncForm barc mu r = 0 := by
  have hl := lowerSq_pos hb hm
  have h3 := (lowerSq_lt hb hm).trans (lt_upperSq hb hm)
  unfold gncForm
  rw [max_eq_left (h3.le.trans h)]
  have h4 := root_anti (barc := barc) hm (hl.trans h3) h
  rw [root_upper hb hm] at h4
  rw [max_eq_left (by linarith)]

theorem gncForm_mid {barc mu : ℝ} (hb : 0 < barc) (hm : 0 < mu) {r : ℝ}
    (h1 : lowerSq barc mu < r ^ 2) (h2 : r ^ 2 < upperSq barc mu) :
    0 < gncForm barc mu r ∧ gncForm barc mu r < 1 := by
  have hl := lowerSq_pos hb hm
  unfold gncForm
  rw [max_eq_left h1.le]
  have h4 := root_strict hb hm (hl.trans h1) h2
  have h5 := root_strict hb hm hl h1
  rw [root_upper hb hm] at h4
  rw [root_lower hb hm] at h5
  rw [max_eq_right (by linarith)]
  constructor <;> linarith

end RobustCost

namespace Spec

theorem costRun_snoc (p : RobustParams) (ops : List CostOp) (o : CostOp) :
    costRun p (ops ++ [o]) = costStep (costRun p ops) o := by
  simp [costRun, List.foldl_append]

theorem costRun_params (p : RobustParams) (ops : List CostOp) : (costRun p ops).params = p := by
  induction ops using List.reverseRecOn with
  | nil =>
    simp only [costRun, List.foldl_nil, RobustCost.new, RobustCost.reset]
    split <;> rfl
  | append_singleton l o ih =>
    rw [costRun_snoc]
    cases o with
    | reset =>
      simp only [costStep, RobustCost.reset]
      split <;> exact ih
    | update =>
      simp only [costStep, RobustCost.update]
      split
      · exact ih
      · split <;> exact ih

theorem updatesSinceReset_reset (ops : List CostOp) : updatesSinceReset (ops ++ [.reset]) = 0 := by
  simp [updatesSinceReset]

theorem updatesSinceReset_update (ops : List CostOp) :
    updatesSinceReset (ops ++ [.update]) = updatesSinceReset ops + 1 := by
  simp [updatesSinceReset]

theorem costRun_gnc (p : RobustParams) (hp : p.costType = .GNC_TLS) (ops : List CostOp) :
    (costRun p ops).mu =
      p.GNCInitMu * p.GNCMuStep ^ min (updatesSinceReset ops) p.GNCMaxNumIters ∧
    (costRun p ops).iter = updatesSinceReset ops := by
  induction ops using List.reverseRecOn with
  | nil => simp [costRun, RobustCost.new, RobustCost.reset, hp, updatesSinceReset]
  | append_singleton l o ih =>
    rw [costRun_snoc]
    have hpar := costRun_params p l
    cases o with
    | reset =>
      rw [updatesSinceReset_reset]
      simp [costStep, RobustCost.reset, hpar, hp]
    | update =>
      rw [updatesSinceReset_update]
      obtain ⟨h1, h2⟩ := ih
      simp only [costStep, RobustCost.update, hpar, hp, ne_eq, not_true_eq_false, if_false, h2]
      by_cases c : updatesSinceReset l + 1 > p.GNCMaxNumIters
      · rw [if_pos c]
        refine ⟨?_, rfl⟩
        simp only
        rw [h1, min_eq_right (by omega : p.GNCMaxNumIters ≤ updatesSinceReset l),
          min_eq_right (by omega : p.GNCMaxNumIters ≤ updatesSinceReset l + 1)]
      · rw [if_neg c]
        refine ⟨?_, rfl⟩
        simp only
        rw [h1, min_eq_left (by omega : updatesSinceReset l ≤ p.GNCMaxNumIters),
          min_eq_left (by omega : updatesSinceReset l + 1 ≤ p.GNCMaxNumIters), pow_succ]
        ring

theorem costRun_mu_pos {p : RobustParams} (h : ParamsOk p) (hp : p.costType = .GNC_TLS)
    (ops : List CostOp) : 0 < (costRun p ops).mu := by
  rw [(costRun_gnc p hp ops).1]
  have := h.mu
  have := h.step
  positivity

end Spec
end Dpgo
