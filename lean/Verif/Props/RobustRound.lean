import Verif.Lemmas.RobustRound
import Verif.Lemmas.RobustWitness

/-! # C87: robust weights in floating point -/

namespace Dpgo.Props

open Res Spec RobustCost

variable {rnd : ℝ → ℝ} {p : Nat} {c : RobustCost} {u r s w v : ℝ} {b : Bool}

/-- A cost function with graduated non-convexity, threshold 5 and control parameter `mu`. -/
noncomputable def exGnc (mu : ℝ) : RobustCost := ⟨⟨.GNC_TLS, 20, 5, 14 / 10, 1 / 10000, 3, 10⟩, 0, mu⟩

theorem exGnc_ok {mu : ℝ} (h : 0 < mu) : CostOk (exGnc mu) :=
  ⟨fun e => (by cases e), fun e => (by cases e), fun _ => (by norm_num [exGnc]), fun _ => h⟩

/-- Without rounding, the floating point code computes the weights of the exact model. -/
theorem C87_exact : weightR (fun x => x) b c r = c.weight r ∧ updateR (fun x => x) c = c.update :=
  ⟨weightR_id c r, rfl⟩

/-- Whatever the rounding, every residual gives a number (only L1 fails, at zero), and except for L1 and
graduated non-convexity this number lies between 0 and 1. -/
theorem C87_range (h : Rounding rnd) (hc : CostOk c) (hr : 0 ≤ r) (h0 : c.params.costType = .L1 → r ≠ 0) :
    ∃ w, weightR rnd b c r = ok w ∧
      (c.params.costType ≠ .GNC_TLS → 0 ≤ w ∧ (c.params.costType ≠ .L1 → w ≤ 1)) := by
  obtain ⟨w, e⟩ := weightR_ok (b := b) h hc h0
  refine ⟨w, e, fun ht => ?_⟩
  obtain ⟨h1, -, h3⟩ := weightR_mono h hc ht hr (le_refl r) e e
  exact ⟨h1, h3⟩

/-- Whatever the rounding, a larger residual never gets a larger weight, except with graduated
non-convexity. -/
theorem C87_antitone (h : Rounding rnd) (hc : CostOk c) (ht : c.params.costType ≠ .GNC_TLS) (hr : 0 ≤ r) (hs : r ≤ s)
    (e : weightR rnd b c r = ok w) (e' : weightR rnd b c s = ok v) : v ≤ w :=
  (weightR_mono h hc ht hr hs e e').2.1

/-- The computed weight is close to the exact weight. -/
theorem C87_accurate (h : Rounding rnd) (ha : Accurate u rnd) (hu : u ≤ 1 / 64) (hc : CostOk c) (hr : 0 ≤ r)
    (e : weightR rnd b c r = ok w) (e' : c.weight r = ok v) :
    if c.params.costType = .GNC_TLS then |w - v| ≤ 12 * u * (c.mu + 1) else |w - v| ≤ 7 * u * v := by
  split
  · rename_i ht
    unfold weightR at e
    unfold weight at e'
    simp only [ht] at e e'
    obtain ⟨x, h1, h2⟩ := gnc_accurate h ha hu (hc.barc ht) (hc.mu ht) hr
    rw [gncWeight_eq (hc.barc ht) (hc.mu ht)] at e'
    rw [h1] at e
    cases e; cases e'
    exact h2
  · rename_i ht
    exact weightR_accurate h ha hu hc ht hr e e'

/-- With graduated non-convexity, range and order hold up to the rounding error. The full claims, `w` in
`[0, 1]` and `v ≤ w`, fail: see `C87_violated`. -/
theorem C87_gnc_partial (h : Rounding rnd) (ha : Accurate u rnd) (hu : u ≤ 1 / 64) (hc : CostOk c)
    (ht : c.params.costType = .GNC_TLS) (hr : 0 ≤ r) (hs : r ≤ s) (e : weightR rnd b c r = ok w)
    (e' : weightR rnd b c s = ok v) :
    -(12 * u * (c.mu + 1)) ≤ w ∧ w ≤ 1 + 12 * u * (c.mu + 1) ∧ v ≤ w + 24 * u * (c.mu + 1) := by
  unfold weightR at e e'
  simp only [ht] at e e'
  have hb := hc.barc ht
  have hm := hc.mu ht
  obtain ⟨x, h1, h2⟩ := gnc_accurate h ha hu hb hm hr
  obtain ⟨y, h3, h4⟩ := gnc_accurate h ha hu hb hm (hr.trans hs)
  rw [h1] at e; rw [h3] at e'
  cases e; cases e'
  rw [abs_le] at h2 h4
  have k1 := gncForm_nonneg c.params.GNCBarc c.mu r
  have k2 := gncForm_le_one hb hm r
  have k3 := gncForm_anti hb hm hr hs
  refine ⟨by linarith, by linarith, by linarith⟩

/-- In double precision with any rounding to nearest, graduated non-convexity returns weights above one and
below zero. All inputs are doubles. -/
theorem C87_violated (h : Nearest 53 rnd) :
    ∃ mu₁ r₁ mu₂ r₂ : ℝ, (∀ x ∈ [mu₁, r₁, mu₂, r₂], Representable 53 x ∧ 0 < x) ∧
      (∃ w, weightR rnd b (exGnc mu₁) r₁ = ok w ∧ 1 < w) ∧ ∃ w, weightR rnd b (exGnc mu₂) r₂ = ok w ∧ w < 0 := by
  refine ⟨_, _, _, _, ?_, ⟨_, gnc_over h, by norm_num⟩, ⟨_, gnc_under h, by norm_num⟩⟩
  intro x hx
  simp only [List.mem_cons, List.not_mem_nil, or_false] at hx
  rcases hx with rfl | rfl | rfl | rfl <;> refine ⟨?_, by norm_num⟩ <;>
    exact representable_nat (by norm_num)

/-- The control parameter never falls, however many updates are made. -/
theorem C87_mu (h : Rounding rnd) (hs : 1 ≤ c.params.GNCMuStep) (hm : 0 < c.mu) (hf : rnd c.mu = c.mu) (n : ℕ) :
    c.mu ≤ ((updateR rnd)^[n] c).mu ∧ ∀ m ≤ n, ((updateR rnd)^[m] c).mu ≤ ((updateR rnd)^[n] c).mu := by
  have key : ∀ n, 0 ≤ ((updateR rnd)^[n] c).mu ∧ rnd ((updateR rnd)^[n] c).mu = ((updateR rnd)^[n] c).mu ∧
      ((updateR rnd)^[n] c).params = c.params := by
    intro n
    induction n with
    | zero => exact ⟨hm.le, hf, rfl⟩
    | succ n ih =>
      obtain ⟨h1, h2, h3⟩ := ih
      rw [Function.iterate_succ_apply']
      obtain ⟨k1, k2, k3⟩ := updateR_mu h (h3 ▸ hs) h1 h2
      exact ⟨h1.trans k1, k2, k3.trans h3⟩
  have mono : Monotone fun n => ((updateR rnd)^[n] c).mu := monotone_nat_of_le_succ fun n => by
    obtain ⟨h1, h2, h3⟩ := key n
    rw [Function.iterate_succ_apply']
    exact (updateR_mu h (h3 ▸ hs) h1 h2).1
  exact ⟨mono (Nat.zero_le n), fun m hmn => mono hmn⟩

/-- Once the control parameter is so large that adding one is lost to rounding, every edge is accepted or
rejected: weights are never undecided. -/
theorem C87_decided (h : Nearest p rnd) (ht : c.params.costType = .GNC_TLS) (hm : Representable p c.mu)
    (hl : 2 ^ (p + 1) < c.mu) :
    weightR rnd b c r = ok (if rnd (r * r) < rnd (c.params.GNCBarc * c.params.GNCBarc) then 1 else 0) := by
  unfold weightR
  simp only [ht]
  exact gnc_decided h.rounding (lt_trans (by positivity) hl) (nearest_succ h hm hl)

/-- The computed squared residual is never negative, so that its square root is a number; it is zero for a
measurement met exactly. -/
theorem C87_residual (h : Rounding rnd) {rot tra : List ℝ} {x y k t : ℝ} (hk : 0 ≤ k) (ht : 0 ≤ t)
    (hx : SumSq rnd rot x) (hy : SumSq rnd tra y) :
    0 ≤ errorSumR rnd b k t x y ∧ ((∀ z ∈ rot ++ tra, z = 0) → errorSumR rnd b k t x y = 0) := by
  refine ⟨errorSumR_nonneg h hk ht (sumSq_nonneg h hx) (sumSq_nonneg h hy), fun h0 => ?_⟩
  rw [sumSq_zero h hx fun z hz => h0 z (by simp [hz]), sumSq_zero h hy fun z hz => h0 z (by simp [hz])]
  unfold errorSumR
  split <;> simp [h.zero]

/-! ## Examples -/

/-- Double precision. -/
example : Nearest 53 (nearest 53) ∧ Rounding (nearest 53) ∧ Accurate (2 ^ (-(53 : ℕ) : ℤ)) (nearest 53) :=
  have h := nearest_nearest (p := 53) (by norm_num)
  ⟨h, h.rounding, accurate_of_nearest h⟩

/-- Any representable control parameter may be used: here one with which the weight leaves `[0, 1]`. -/
example : ∃ c r w, CostOk c ∧ weightR (nearest 53) true c r = ok w ∧ 1 < w := by
  obtain ⟨m, r, m', r', h1, ⟨w, e, h2⟩, h3⟩ := C87_violated (b := true) (nearest_nearest (p := 53) (by norm_num))
  exact ⟨_, r, w, exGnc_ok (h1 m (by simp)).2, e, h2⟩

/-- The bounds are far below one: with control parameter 1, the error in double precision is at most `2 ^ -48`. -/
example : 12 * (2 ^ (-(53 : ℕ) : ℤ)) * ((exGnc 1).mu + 1) ≤ (2 : ℝ) ^ (-48 : ℤ) := by
  norm_num [exGnc]

/-- A large control parameter. -/
example : weightR (nearest 53) true (exGnc (2 ^ 60)) 1 = ok 1 := by
  have h := nearest_nearest (p := 53) (by norm_num)
  have hm : Representable 53 (2 ^ 60) := ⟨1, 60, by norm_num, by norm_num⟩
  rw [C87_decided h rfl hm (by norm_num [exGnc])]
  have h1 : nearest 53 (1 * 1) = 1 := by rw [one_mul]; exact h.rounding.one
  have h2 : nearest 53 (5 * 5) = 25 := by
    have := h.id_of (x := 25) ⟨25, 0, by norm_num, by norm_num⟩
    norm_num at this ⊢
    exact this
  simp only [exGnc, h1, h2]
  norm_num

/-- Three updates. -/
example : (exGnc 1).mu ≤ ((updateR (nearest 53))^[3] (exGnc 1)).mu :=
  (C87_mu (c := exGnc 1) (nearest_nearest (p := 53) (by norm_num)).rounding (by norm_num [exGnc]) (by norm_num [exGnc])
    (show nearest 53 1 = 1 from (nearest_nearest (p := 53) (by norm_num)).rounding.one) 3).1

/-- A sum of three squares, the last added first and fused. -/
example : SumSq rnd [1, 2, 3] (rnd (rnd (2 * 2 + rnd (3 * 3)) + rnd (1 * 1))) :=
  .add (.fma 2 (.sq 3) (List.Perm.refl _)) (.sq 1) (List.perm_append_singleton 1 [2, 3])

end Dpgo.Props
