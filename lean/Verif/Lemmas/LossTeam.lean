import Verif.Lemmas.Loss
import Verif.Props.RobustTeam

/-!
# Lemmas on the robust cost of a team over phases and rounds
-/

namespace Dpgo

open Res Spec

section
variable {o : AgentOracles} {p : AgentParams} {E : List (Meas ℝ)} {N : Nat} {s : Net}

theorem Spec.Always.timely_congr {E' : List (Meas ℝ)} (h : ∀ i j, Partners E' i j ↔ Partners E i j)
    {ops : List NetOp} (ht : Always (Timely E) ops) : Always (Timely E') ops := by
  intro l₁ op l₂ hl
  have := ht l₁ op l₂ hl
  cases op with
  | iterate i b =>
    cases b with
    | true => exact fun j hj => this j ((h i j).1 hj)
    | false => trivial
  | send _ _ => trivial
  | deliver _ _ => trivial

/-- The phase after a weight update. -/
theorem phase_robust (hd : 0 < p.d) (hp : p.acceleration = false) (hpar : ParamsOk p.robust)
    (hL1 : p.robust.costType ≠ .L1) (hres : p.numResets < 2 ^ 31)
    (hrtr : p.localOpt.method = .RTR) (ho : ∀ c, LawfulRtr (o.opt c)) (hE : ∀ m ∈ E, m.r1 < N ∧ m.r2 < N)
    {c c' : RobustCost} {k : Int} (h : ∀ i < N, RobustDuty o p E c' k i (s.agents i)) (hm : s.mail = [])
    (hk : k < 2 ^ 31) (hc : E = [] ∨ CostOk c) {E₀ : List (Meas ℝ)} (hE₀ : ∀ m ∈ E₀, 0 ≤ m.kappa ∧ 0 ≤ m.tau)
    (hw : List.Forall₂ (Reweighed p.r p.d c s.estimate) E₀ E) {ops : List NetOp} (hs : Always (Sound N) ops)
    (ht : Always (Timely E) ops) (hn : ∀ i < N, iterationsOf i ops < 2 ^ 31) {u : Net}
    (e : netRun o s ops = ok u) : robustCost p.r p.d c E₀ u.estimate ≤ robustCost p.r p.d c E₀ s.estimate := by
  rcases hc with rfl | hc
  · cases hw
    rw [robustCost_nil, robustCost_nil]
  · have h1 := Props.C84_descent hd hp hpar hL1 hres hrtr ho hE h hm (l := []) (by simp) (by simpa using hk) .start
      (ops₁ := []) (ops₂ := ops) hs ht hn rfl e
    have h2 := robust_step (Y := u.estimate) hc hE₀ hw
    linarith

theorem Spec.Course.last {c c₁ : RobustCost} {l : List Round} {f : Round} {E₁ : List (Meas ℝ)} {t₁ : Net}
    (h : Course o p E c s (l ++ [f]) E₁ c₁ t₁) : ∃ E' c' t u, Course o p E c s l E' c' t ∧
      netRun o t f.ops = ok u ∧ List.Forall₂ (Reweighed p.r p.d c' u.estimate) E' E₁ ∧
      reweighAll u f.order = ok t₁ ∧ c₁ = c'.update := by
  generalize hg : l ++ [f] = lf at h
  cases h with
  | start => simp at hg
  | @round l₀ f₀ E' _ c' t u _ hq e w e' =>
    obtain ⟨rfl, hff⟩ := List.append_inj' hg rfl
    cases hff
    exact ⟨E', c', t, u, hq, e, w, e', rfl⟩

theorem update_same {c : RobustCost} (h : c.params.costType ≠ .GNC_TLS) : c.update = c := if_pos h

/-- Rounds after a weight update with a cost that has no control parameter. -/
theorem rounds_robust (hd : 0 < p.d) (hp : p.acceleration = false) (hpar : ParamsOk p.robust)
    (hL1 : p.robust.costType ≠ .L1) (hres : p.numResets < 2 ^ 31) (hrtr : p.localOpt.method = .RTR)
    (ho : ∀ c, LawfulRtr (o.opt c)) (hE : ∀ m ∈ E, m.r1 < N ∧ m.r2 < N) {c c' : RobustCost} {k : Int}
    (h : ∀ i < N, RobustDuty o p E c k i (s.agents i)) (hm : s.mail = [])
    (hc : E = [] ∨ CostOk c) (hfix : c.update = c) {E₀ : List (Meas ℝ)}
    (hE₀ : ∀ m ∈ E₀, 0 ≤ m.kappa ∧ 0 ≤ m.tau) (hw : List.Forall₂ (Reweighed p.r p.d c s.estimate) E₀ E)
    {l : List Round} (hl : ∀ f ∈ l, Orderly N E f) (htl : ∀ f ∈ l, Always (Timely E) f.ops)
    (hk : k + l.length < 2 ^ 31) (hr : p.numResets ≤ k) {E' : List (Meas ℝ)} {t : Net}
    (hcs : Course o p E c s l E' c' t) :
    c' = c ∧ robustCost p.r p.d c E₀ t.estimate ≤ robustCost p.r p.d c E₀ s.estimate ∧
      ∃ E₁, (∀ m ∈ E₁, 0 ≤ m.kappa ∧ 0 ≤ m.tau) ∧ List.Forall₂ (Reweighed p.r p.d c t.estimate) E₁ E' ∧
        ∀ Z, robustCost p.r p.d c E₁ Z = robustCost p.r p.d c E₀ Z := by
  induction hcs with
  | start => exact ⟨rfl, le_rfl, E₀, hE₀, hw, fun _ => rfl⟩
  | @round l f E' E'' c' t u v hcs e w e' ih =>
    have hk' : k + l.length + 1 < 2 ^ 31 := by
      simp only [List.length_append, List.length_cons, List.length_nil] at hk
      push_cast at hk
      omega
    have hl' : ∀ f ∈ l, Orderly N E f := fun g hg => hl g (by simp [hg])
    obtain ⟨rfl, h1, E₁, h2, h3, h4⟩ := ih hl' (fun g hg => htl g (by simp [hg])) (by omega)
    obtain ⟨d1, d2⟩ := course_duty hd hp hpar hL1 hres hE h hm hl' (by omega) hcs
    have en := hcs.ends (N := N)
    have hc' : E' = [] ∨ CostOk c' := by
      rcases hc with rfl | hc
      · refine Or.inl ?_
        cases E' with
        | nil => rfl
        | cons m _ =>
          cases hw
          cases h3 with
          | cons _ _ =>
            clear * - hcs
            generalize hE : ([] : List (Meas ℝ)) = E at hcs
            have : ∀ {l' E' c'' t'}, Course o p E c' s l' E' c'' t' → E' = [] := by
              intro l' E' c'' t' hq
              induction hq with
              | start => exact hE.symm
              | round _ _ w _ ih => subst ih; cases w; rfl
            exact absurd (this hcs) (by simp)
      · exact Or.inr hc
    have ph := phase_robust hd hp hpar hL1 hres hrtr ho (en.2 hE) d1 d2 (by omega) hc' h2 h3
      (hl f (by simp)).sound ((htl f (by simp)).timely_congr en.1) (hl f (by simp)).short e
    have hv := round_estimate hd hp hpar hL1 d1 d2 hk' (by omega) ((hl f (by simp)).congr en.1) e e'
    refine ⟨hfix, ?_, E', course_nonneg hcs (reweighed_nonneg hw hE₀), by rw [hv]; exact w, fun Z => ?_⟩
    · rw [h4, h4] at ph
      rw [hv]
      exact ph.trans h1
    · rw [course_robustCost hcs, robustCost_reweighed _ _ hw]

end

end Dpgo
