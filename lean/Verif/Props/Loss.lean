import Verif.Lemmas.LossTeam
import Verif.Props.RobustTeam

/-! # C86: robust weights and robust losses -/

namespace Dpgo.Props

open Res Spec RobustCost PoseGraph

section
variable {c : RobustCost} {r s w t mu : ℝ}

/-- The squared residual with the returned weight is tangent to the loss at the current residual, and lies
above the loss everywhere else. -/
theorem C86_majorises (hc : CostOk c) (hr : 0 ≤ r) (hs : 0 ≤ s) (e : c.weight r = ok w) :
    loss c s ≤ loss c r + w * (s ^ 2 - r ^ 2) := loss_le hc hr hs e

/-- The derivative of the loss is the derivative of the weighted squared residual. -/
theorem C86_derivative (hc : CostOk c) (hr : 0 < r) (ht : c.params.costType = .TLS → r ≠ c.params.TLSThreshold)
    (e : c.weight r = ok w) : HasDerivAt (loss c) (2 * w * r) r := by
  have := hasDerivAt_of_majorised (f := loss c) (w := weightVal c) (fun a ha b hb => by
    obtain ⟨v, hv⟩ := weight_pos hc ha
    rw [weightVal_eq hv]
    exact loss_le hc (le_of_lt ha) (le_of_lt hb) hv) hr (weightVal_continuous hc hr ht)
  rwa [weightVal_eq e] at this

/-- The weight of graduated non-convexity minimises the weighted squared residual plus the penalty over all
weights in `[0, 1]`, and the minimum is the surrogate loss. -/
theorem C86_duality (ht : 0 < t) (hm : 0 < mu) (e : gncWeight t mu r = ok w) :
    w ∈ Set.Icc (0 : ℝ) 1 ∧ IsMinOn (fun v => v * r ^ 2 + gncPenalty t mu v) (Set.Icc 0 1) w ∧
      w * r ^ 2 + gncPenalty t mu w = gncLoss t mu r := by
  obtain ⟨h0, h1, h2⟩ := gncLoss_eq ht hm e
  refine ⟨⟨h0, h1⟩, fun v hv => ?_, h2.symm⟩
  show w * r ^ 2 + gncPenalty t mu w ≤ v * r ^ 2 + gncPenalty t mu v
  rw [← h2]
  exact gncLoss_le ht hm hv.1 hv.2

/-- The surrogate loss grows with the control parameter and approaches truncated least squares. -/
theorem C86_gnc_limit (ht : 0 < t) (hm : 0 < mu) :
    gncLoss t mu r ≤ tlsLoss t r ∧ tlsLoss t r ≤ gncLoss t mu r + t ^ 2 / (4 * mu) ∧
      ∀ mu' ≥ mu, gncLoss t mu r ≤ gncLoss t mu' r := by
  obtain ⟨h1, h2⟩ := gncLoss_near (r := r) ht hm
  refine ⟨h1, h2, fun mu' h => ?_⟩
  have hm' : 0 < mu' := lt_of_lt_of_le hm h
  obtain ⟨h3, h4, h5⟩ := gncLoss_eq ht hm' (gncWeight_eq ht hm' r)
  generalize gncForm t mu' r = v at h3 h4 h5
  rw [h5]
  refine (gncLoss_le ht hm h3 h4).trans (add_le_add_right ?_ _)
  unfold gncPenalty
  refine mul_le_mul_of_nonneg_right ?_ (sq_nonneg t)
  rw [div_le_div_iff₀ (by linarith) (by linarith)]
  have := mul_nonneg (mul_nonneg (sub_nonneg.2 h4) h3) (sub_nonneg.2 h)
  linarith [show mu' * (1 - v) * (mu + v) - mu * (1 - v) * (mu' + v) = (1 - v) * v * (mu' - mu) by ring]

end

/-- Between weight updates the robust cost of a team falls at least as much as the weighted cost. -/
theorem C86_step {r d : Nat} {c : RobustCost} {E E' : List (Meas ℝ)} {X Y : Joint ℝ} (hc : CostOk c)
    (hE : ∀ m ∈ E, 0 ≤ m.kappa ∧ 0 ≤ m.tau) (h : List.Forall₂ (Reweighed r d c X) E E') :
    robustCost r d c E Y - robustCost r d c E X ≤ teamCost r d E' Y - teamCost r d E' X := robust_step hc hE h

section
variable {o : AgentOracles} {p : AgentParams} {E : List (Meas ℝ)} {N : Nat} {s : Net}

/-- After a round of weight updates, once the resets of the trajectory are used up: the round itself leaves
the estimates alone, and as long as the schedule is timely the robust cost, with the control parameter of the
round, stays at or below its value at the round. -/
theorem C86_phase (hd : 0 < p.d) (hp : p.acceleration = false) (hpar : ParamsOk p.robust)
    (hL1 : p.robust.costType ≠ .L1) (htls : 0 ≤ p.robust.TLSThreshold) (hres : p.numResets < 2 ^ 31)
    (hrtr : p.localOpt.method = .RTR) (ho : ∀ c, LawfulRtr (o.opt c)) (hE : ∀ m ∈ E, m.r1 < N ∧ m.r2 < N)
    (hE₀ : ∀ m ∈ E, 0 ≤ m.kappa ∧ 0 ≤ m.tau)
    {c c' : RobustCost} {k : Int} (h : ∀ i < N, RobustDuty o p E c k i (s.agents i)) (hm : s.mail = [])
    {l : List Round} {f : Round} (hl : ∀ g ∈ l ++ [f], Orderly N E g) (hk : k + (l ++ [f]).length < 2 ^ 31)
    (hr : p.numResets ≤ k + l.length) {E' E'' : List (Meas ℝ)} {t u v : Net} (hc : Course o p E c s l E' c' t)
    (e : netRun o t f.ops = ok u) (w : List.Forall₂ (Reweighed p.r p.d c' u.estimate) E' E'')
    (e' : reweighAll u f.order = ok v) {ops : List NetOp} (hs : Always (Sound N) ops)
    (ht : Always (Timely E) ops) (hn : ∀ i < N, iterationsOf i ops < 2 ^ 31) {x : Net}
    (ex : netRun o v ops = ok x) :
    v.estimate = u.estimate ∧ robustCost p.r p.d c' E x.estimate ≤ robustCost p.r p.d c' E v.estimate := by
  have hk' : k + l.length + 1 < 2 ^ 31 := by
    simp only [List.length_append, List.length_cons, List.length_nil] at hk
    push_cast at hk
    omega
  obtain ⟨h1, h2⟩ := course_duty hd hp hpar hL1 hres hE h hm (fun g hg => hl g (by simp [hg])) (by omega) hc
  have en := hc.ends (N := N)
  have hf : Orderly N E' f := (hl f (by simp)).congr en.1
  have hv := round_estimate hd hp hpar hL1 h1 h2 hk' hr hf e e'
  have hc2 := hc.round e w e'
  obtain ⟨h3, h4⟩ := course_duty hd hp hpar hL1 hres hE h hm hl hk hc2
  have en2 := hc2.ends (N := N)
  refine ⟨hv, ?_⟩
  rw [← course_robustCost hc, ← course_robustCost hc]
  rw [← hv] at w
  refine phase_robust hd hp hpar hL1 hres hrtr ho (en2.2 hE) h3 h4 hk ?_ (course_nonneg hc hE₀) w hs ?_ hn ex
  · rcases firstWins_empty (en2.2 hE) with q | q
    · exact Or.inl q
    · exact Or.inr (costOk_of_duty hpar htls (h1 0 q)).1
  · exact ht.timely_congr en2.1

/-- Over all rounds after the first weight update, with a cost that has no control parameter: the robust cost
never rises above its value at that update. -/
theorem C86_rounds (hd : 0 < p.d) (hp : p.acceleration = false) (hpar : ParamsOk p.robust)
    (hL1 : p.robust.costType ≠ .L1) (hgnc : p.robust.costType ≠ .GNC_TLS) (htls : 0 ≤ p.robust.TLSThreshold)
    (hres : p.numResets < 2 ^ 31) (hrtr : p.localOpt.method = .RTR) (ho : ∀ c, LawfulRtr (o.opt c))
    (hE : ∀ m ∈ E, m.r1 < N ∧ m.r2 < N) (hE₀ : ∀ m ∈ E, 0 ≤ m.kappa ∧ 0 ≤ m.tau)
    {c c₁ c₂ : RobustCost} {k : Int} (h : ∀ i < N, RobustDuty o p E c k i (s.agents i)) (hm : s.mail = [])
    {l l' : List Round} {f : Round} (hl : ∀ g ∈ l ++ [f], Orderly N E g) (hl' : ∀ g ∈ l', Orderly N E g)
    (htl : ∀ g ∈ l', Always (Timely E) g.ops) (hk : k + (l ++ [f]).length + l'.length < 2 ^ 31)
    (hr : p.numResets ≤ k + l.length) {E₁ E₂ : List (Meas ℝ)} {t₁ t₂ : Net}
    (hc : Course o p E c s (l ++ [f]) E₁ c₁ t₁) (hc' : Course o p E₁ c₁ t₁ l' E₂ c₂ t₂) {ops : List NetOp}
    (hs : Always (Sound N) ops) (ht : Always (Timely E) ops) (hn : ∀ i < N, iterationsOf i ops < 2 ^ 31)
    {x : Net} (ex : netRun o t₂ ops = ok x) :
    robustCost p.r p.d c E x.estimate ≤ robustCost p.r p.d c E t₁.estimate := by
  have hk1 : k + l.length + 1 + l'.length < 2 ^ 31 := by
    simp only [List.length_append, List.length_cons, List.length_nil] at hk
    push_cast at hk
    omega
  rcases firstWins_empty hE with rfl | hN
  · rw [robustCost_nil, robustCost_nil]
  obtain ⟨hcok, hcp⟩ := costOk_of_duty hpar htls (h 0 hN)
  have hfix : c.update = c := update_same (by rw [hcp]; exact hgnc)
  have same : ∀ {l E' c' t}, Course o p E c s l E' c' t → c' = c := by
    intro l E' c' t hq
    induction hq with
    | start => rfl
    | round _ _ _ _ ih => rw [ih, hfix]
  obtain rfl := same hc
  obtain ⟨d1, d2⟩ := course_duty hd hp hpar hL1 hres hE h hm hl (by omega) hc
  have en := hc.ends (N := N)
  obtain ⟨E', c', t, u, q1, q2, q3, q4, -⟩ := hc.last
  obtain rfl := same q1
  obtain ⟨d3, d4⟩ := course_duty hd hp hpar hL1 hres hE h hm (fun g hg => hl g (by simp [hg])) (by omega) q1
  have hv := round_estimate hd hp hpar hL1 d3 d4 (by omega) hr ((hl f (by simp)).congr (q1.ends (N := N)).1) q2 q4
  rw [← hv] at q3
  have hl'' : ∀ g ∈ l', Orderly N E₁ g := fun g hg => (hl' g hg).congr en.1
  obtain ⟨rfl, r1, E₃, r2, r3, r4⟩ := rounds_robust hd hp hpar hL1 hres hrtr ho (en.2 hE) d1 d2 (Or.inr hcok) hfix
    (course_nonneg q1 hE₀) q3 hl'' (fun g hg => (htl g hg).timely_congr en.1)
    (by simp only [List.length_append, List.length_cons, List.length_nil]; push_cast; omega)
    (by simp only [List.length_append, List.length_cons, List.length_nil]; push_cast; omega) hc'
  obtain ⟨d5, d6⟩ := course_duty hd hp hpar hL1 hres (en.2 hE) d1 d2 hl'' (by
    simp only [List.length_append, List.length_cons, List.length_nil]; push_cast; omega) hc'
  have en2 := hc'.ends (N := N)
  have := phase_robust hd hp hpar hL1 hres hrtr ho (en2.2 (en.2 hE)) d5 d6 (by
    simp only [List.length_append, List.length_cons, List.length_nil]; push_cast; omega) (Or.inr hcok) r2 r3 hs
    ((ht.timely_congr en.1).timely_congr en2.1) hn ex
  rw [r4, r4] at this
  rw [course_robustCost q1, course_robustCost q1] at this r1
  exact this.trans r1

/-- With graduated non-convexity, truncated least squares rises during a phase by at most
`barc² / (8 mu)` per edge. -/
theorem C86_gnc_phase (hd : 0 < p.d) (hp : p.acceleration = false) (hpar : ParamsOk p.robust)
    (hgnc : p.robust.costType = .GNC_TLS) (htls : 0 ≤ p.robust.TLSThreshold) (hres : p.numResets < 2 ^ 31)
    (hrtr : p.localOpt.method = .RTR) (ho : ∀ c, LawfulRtr (o.opt c)) (hE : ∀ m ∈ E, m.r1 < N ∧ m.r2 < N)
    (hE₀ : ∀ m ∈ E, 0 ≤ m.kappa ∧ 0 ≤ m.tau)
    {c c' : RobustCost} {k : Int} (h : ∀ i < N, RobustDuty o p E c k i (s.agents i)) (hm : s.mail = [])
    {l : List Round} {f : Round} (hl : ∀ g ∈ l ++ [f], Orderly N E g) (hk : k + (l ++ [f]).length < 2 ^ 31)
    (hr : p.numResets ≤ k + l.length) {E' E'' : List (Meas ℝ)} {t u v : Net} (hc : Course o p E c s l E' c' t)
    (e : netRun o t f.ops = ok u) (w : List.Forall₂ (Reweighed p.r p.d c' u.estimate) E' E'')
    (e' : reweighAll u f.order = ok v) {ops : List NetOp} (hs : Always (Sound N) ops)
    (ht : Always (Timely E) ops) (hn : ∀ i < N, iterationsOf i ops < 2 ^ 31) {x : Net}
    (ex : netRun o v ops = ok x) :
    robustCost p.r p.d (truncated c') E x.estimate ≤ robustCost p.r p.d (truncated c') E v.estimate +
      (firstWins E).length * (p.robust.GNCBarc ^ 2 / (8 * c'.mu)) := by
  have h1 := (C86_phase hd hp hpar (by rw [hgnc]; decide) htls hres hrtr ho hE hE₀ h hm hl hk hr hc e w e' hs ht hn
    ex).2
  rcases firstWins_empty hE with rfl | hN
  · rw [robustCost_nil, robustCost_nil]
    simp [firstWins]
  obtain ⟨d3, -⟩ := course_duty hd hp hpar (by rw [hgnc]; decide) hres hE h hm (fun g hg => hl g (by simp [hg])) (by
    simp only [List.length_append, List.length_cons, List.length_nil] at hk
    push_cast at hk
    omega) hc
  obtain ⟨hcok, hcp⟩ := costOk_of_duty hpar htls (d3 0 hN)
  have ht' : c'.params.costType = .GNC_TLS := by rw [hcp]; exact hgnc
  have n1 := (robustCost_near (E := E) hcok ht' p.r p.d x.estimate).2
  have n2 := (robustCost_near (E := E) hcok ht' p.r p.d v.estimate).1
  rw [hcp] at n1
  linarith

end

/-! ### Examples -/

/-- Graduated non-convexity at control parameter `1`. -/
noncomputable def exGradual : RobustCost := ⟨RobustParams.default .GNC_TLS, 0, 1⟩

theorem exGradual_weight : exGradual.weight 5 = ok (√2 - 1) := by
  unfold RobustCost.weight
  simp only [exGradual, RobustParams.default]
  unfold gncWeight
  simp only
  norm_num

theorem exGradual_ok : CostOk exGradual := by
  constructor <;> intro _ <;> norm_num [exGradual, RobustParams.default]

/-- A residual at the threshold gets a weight strictly between `0` and `1`. -/
example : HasDerivAt (loss exGradual) (2 * (√2 - 1) * 5) 5 ∧ loss exGradual 5 = 50 * √2 - 50 ∧
    loss exGradual 8 ≤ 50 * √2 - 50 + (√2 - 1) * (8 ^ 2 - 5 ^ 2) ∧
    IsMinOn (fun v => v * 5 ^ 2 + gncPenalty 5 1 v) (Set.Icc 0 1) (√2 - 1) := by
  have h5 : loss exGradual 5 = 50 * √2 - 50 := by
    unfold loss gncLoss
    simp only [exGradual, RobustParams.default]
    norm_num
  refine ⟨C86_derivative exGradual_ok (by norm_num) (fun c => by cases c) exGradual_weight, h5, ?_, ?_⟩
  · rw [← h5]
    exact C86_majorises exGradual_ok (by norm_num) (by norm_num) exGradual_weight
  · exact (C86_duality (t := 5) (mu := 1) (by norm_num) (by norm_num) exGradual_weight).2.1

/-- The surrogate is not truncated least squares. -/
example : gncLoss 5 1 5 < tlsLoss 5 5 ∧ tlsLoss 5 5 ≤ gncLoss 5 1 5 + 5 ^ 2 / (4 * 1) := by
  refine ⟨?_, (C86_gnc_limit (by norm_num) (by norm_num)).2.1⟩
  unfold gncLoss tlsLoss
  have : √2 < 3 / 2 := by
    rw [Real.sqrt_lt' (by norm_num)]
    norm_num
  norm_num
  linarith

/-- At the threshold of truncated least squares the loss has a kink. -/
example : ¬ DifferentiableAt ℝ (tlsLoss 10) 10 := by
  intro h
  have h1 : HasDerivWithinAt (tlsLoss 10) 20 (Set.Iio 10) 10 := by
    have : HasDerivWithinAt (fun x : ℝ => x ^ 2) 20 (Set.Iio 10) 10 := by
      have := (hasDerivAt_pow 2 (10 : ℝ)).hasDerivWithinAt (s := Set.Iio 10)
      rw [show ((2 : ℕ) : ℝ) * 10 ^ (2 - 1) = 20 by norm_num] at this
      exact this
    refine this.congr_of_eventuallyEq ?_ (by norm_num [tlsLoss])
    have : ∀ᶠ x in nhdsWithin (10 : ℝ) (Set.Iio 10), 0 < x ∧ x < 10 :=
      Filter.Eventually.and (nhdsWithin_le_nhds (lt_mem_nhds (by norm_num))) self_mem_nhdsWithin
    filter_upwards [this] with x hx
    exact min_eq_left (pow_le_pow_left₀ hx.1.le hx.2.le 2)
  have h2 : HasDerivWithinAt (tlsLoss 10) 0 (Set.Ioi 10) 10 := by
    refine (hasDerivWithinAt_const (10 : ℝ) (Set.Ioi 10) ((10 : ℝ) ^ 2)).congr_of_eventuallyEq ?_
      (by norm_num [tlsLoss])
    filter_upwards [self_mem_nhdsWithin] with x hx
    exact min_eq_right (pow_le_pow_left₀ (by norm_num) (le_of_lt hx) 2)
  have e1 := (uniqueDiffWithinAt_Iio (10 : ℝ)).eq_deriv _ h1 h.hasDerivAt.hasDerivWithinAt
  have e2 := (uniqueDiffWithinAt_Ioi (10 : ℝ)).eq_deriv _ h2 h.hasDerivAt.hasDerivWithinAt
  linarith

/-- Robot `1` tells robot `0`, which optimises and answers; then both update their weights. -/
def exExchange : Round := ⟨[.send 1 none, .deliver 0 0, .iterate 0 true, .send 0 none, .deliver 1 1], [1, 0]⟩

theorem exJoined_partners {i j : Nat} (h : Partners exJoined i j) : (i = 0 ∧ j = 1) ∨ (i = 1 ∧ j = 0) := by
  obtain ⟨hij, m, hm, h⟩ := h
  fin_cases hm <;> simp [exI] at h <;> omega

theorem exExchange_timely : Always (Timely exJoined) exExchange.ops := by
  refine Always.snoc (l := [_, _, _, _]) (Always.snoc (l := [_, _, _]) (Always.snoc (l := [_, _])
    (Always.snoc (l := [_]) (Always.snoc (l := []) (Always.nil _) trivial) trivial) ?_) trivial) trivial
  intro j hj
  obtain ⟨-, rfl⟩ | ⟨h, -⟩ := exJoined_partners hj
  · rfl
  · cases h

theorem exExchange_orderly : Orderly 2 exJoined exExchange := by
  refine ⟨?_, ?_, by decide, ?_⟩
  · refine Always.snoc (l := [_, _, _, _]) (Always.snoc (l := [_, _, _]) (Always.snoc (l := [_, _])
      (Always.snoc (l := [_]) (Always.snoc (l := []) (Always.nil _) ?_) ?_) ?_) ?_) ?_
    · exact ⟨by omega, by simp⟩
    · exact ⟨by omega, (1, none, 0), rfl, by simp⟩
    · exact (show 0 < 2 by omega)
    · exact ⟨by omega, by simp⟩
    · exact ⟨by omega, (0, none, 1), rfl, by simp⟩
  · intro i j hj
    obtain ⟨rfl, rfl⟩ | ⟨rfl, rfl⟩ := exJoined_partners hj <;> rfl
  · intro i hi
    refine lt_of_le_of_lt List.countP_le_length ?_
    norm_num [exExchange]

theorem exJoined_two : ∀ m ∈ exJoined, m.r1 < 2 ∧ m.r2 < 2 := by
  intro m hm
  fin_cases hm <;> simp [exI]

theorem exJoined_nonneg : ∀ m ∈ exJoined, 0 ≤ m.kappa ∧ 0 ≤ m.tau := by
  intro m hm
  fin_cases hm <;> norm_num [exI]

/-- Every round of the example succeeds, with any robust cost but `L1`. -/
theorem exWith_rounds (q : RobustParams) (hq : ParamsOk q) (hL1 : q.costType ≠ .L1) :
    ∃ (s t u v x : Net) (E₁ E₂ : List (Meas ℝ)) (c₁ : RobustCost),
      (∀ i < 2, RobustDuty exSwinging (exWith q) exJoined (RobustCost.new q) 0 i (s.agents i)) ∧ s.mail = [] ∧
      Course exSwinging (exWith q) exJoined (RobustCost.new q) s [exExchange] E₁ c₁ t ∧
      netRun exSwinging t exExchange.ops = ok u ∧ List.Forall₂ (Reweighed 3 2 c₁ u.estimate) E₁ E₂ ∧
      reweighAll u exExchange.order = ok v ∧ netRun exSwinging v exExchange.ops = ok x := by
  obtain ⟨s, hs, hm, -⟩ := exWith_team q exSwinging 1 3
  have hd : 0 < (exWith q).d := show 0 < 2 by decide
  have hn : (exWith q).numResets < 2 ^ 31 := show (0 : Int) < 2 ^ 31 by decide
  have hl : ∀ n, ∀ g ∈ List.replicate n exExchange, Orderly 2 exJoined g := fun n g hg => by
    rw [List.eq_of_mem_replicate hg]
    exact exExchange_orderly
  obtain ⟨E₂, v, hc, -⟩ := C84_course hd rfl hq hL1 hn exJoined_two hs hm (hl 2) (by norm_num)
  obtain ⟨E₁, c₁, t, u, q1, q2, q3, q4, -⟩ := Spec.Course.last (l := [exExchange]) hc
  obtain ⟨d1, d2⟩ := course_duty hd rfl hq hL1 hn exJoined_two hs hm (hl 2) (by norm_num) hc
  obtain ⟨x, hx, -⟩ := NetInv.all_any (o := exSwinging) hd (fun c => by cases c)
    (fun i hi => (d1 i hi).duty) d2 exExchange_orderly.sound fun i hi => by
      rw [(d1 i hi).inner]
      have := exExchange_orderly.short i hi
      push_cast
      omega
  exact ⟨s, t, u, v, x, E₁, E₂, c₁, hs, hm, q1, q2, q3, q4, hx.run⟩

/-- Geman-McClure: two rounds, then optimisation. -/
example : ∃ t x : Net, NetOp.iterate 0 true ∈ exExchange.ops ∧
    (∃ s v E₁ c₁ E₂ c₂, Course exSwinging exGuarded exJoined (RobustCost.new exGuarded.robust) s [exExchange] E₁ c₁ t ∧
      Course exSwinging exGuarded E₁ c₁ t [exExchange] E₂ c₂ v ∧ netRun exSwinging v exExchange.ops = ok x) ∧
    robustCost 3 2 (RobustCost.new exGuarded.robust) exJoined x.estimate ≤
      robustCost 3 2 (RobustCost.new exGuarded.robust) exJoined t.estimate := by
  obtain ⟨s, t, u, v, x, E₁, E₂, c₁, hs, hm, h1, h2, h3, h4, h5⟩ := exWith_rounds _ exGuarded_ok (by decide)
  have hc := Course.start.round (o := exSwinging) (p := exGuarded) (E := E₁) (c := c₁) (f := exExchange) h2 h3 h4
  refine ⟨t, x, by simp [exExchange], ⟨s, v, E₁, c₁, E₂, _, h1, hc, h5⟩, ?_⟩
  exact C86_rounds (l := []) (by decide) rfl exGuarded_ok (by decide) (by decide)
    (by norm_num [exGuarded, exWith, RobustParams.default]) (by decide) rfl
    (fun c => (exSwinging_greedy c).lawful) exJoined_two exJoined_nonneg hs hm
    (by simpa using exExchange_orderly) (by simpa using exExchange_orderly) (by simpa using exExchange_timely)
    (by norm_num) (by decide) h1 hc exExchange_orderly.sound exExchange_timely exExchange_orderly.short h5

/-- Graduated non-convexity: the second round, then optimisation. -/
example : ∃ (v x : Net) (c₁ : RobustCost), c₁.mu = 14 / 100000 ∧
    netRun exSwinging v exExchange.ops = ok x ∧
    robustCost 3 2 c₁ exJoined x.estimate ≤ robustCost 3 2 c₁ exJoined v.estimate ∧
    robustCost 3 2 (truncated c₁) exJoined x.estimate ≤ robustCost 3 2 (truncated c₁) exJoined v.estimate +
      (firstWins exJoined).length * (5 ^ 2 / (8 * c₁.mu)) := by
  have hq : ParamsOk (RobustParams.default .GNC_TLS) := by
    constructor <;> norm_num [RobustParams.default]
  obtain ⟨s, t, u, v, x, E₁, E₂, c₁, hs, hm, h1, h2, h3, h4, h5⟩ := exWith_rounds _ hq (by decide)
  have hl : ∀ g ∈ [exExchange] ++ [exExchange], Orderly 2 exJoined g := by simpa using exExchange_orderly
  have htls : 0 ≤ (RobustParams.default .GNC_TLS).TLSThreshold := by norm_num [RobustParams.default]
  refine ⟨v, x, c₁, ?_, h5, ?_, ?_⟩
  · obtain ⟨E', c', t', u', q1, -, -, -, e⟩ := Spec.Course.last (l := []) h1
    generalize hg : ([] : List Round) = l₀ at q1
    cases q1 with
    | start =>
      rw [e]
      norm_num [RobustCost.update, RobustCost.new, RobustCost.reset, RobustParams.default]
    | round => simp at hg
  · exact (C86_phase (by decide) rfl hq (by decide) htls (by decide) rfl (fun c => (exSwinging_greedy c).lawful)
      exJoined_two exJoined_nonneg hs hm hl (by norm_num) (by decide) h1 h2 h3 h4 exExchange_orderly.sound
      exExchange_timely exExchange_orderly.short h5).2
  · exact C86_gnc_phase (by decide) rfl hq rfl htls (by decide) rfl (fun c => (exSwinging_greedy c).lawful)
      exJoined_two exJoined_nonneg hs hm hl (by norm_num) (by decide) h1 h2 h3 h4 exExchange_orderly.sound
      exExchange_timely exExchange_orderly.short h5

end Dpgo.Props
