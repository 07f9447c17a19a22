import Verif.Spec.Status
import Verif.Lemmas.AgentDeliver
import Verif.Lemmas.AgentStart

/-! # The status an iteration computes -/

namespace Dpgo

open Res Spec PoseGraph

variable {o : AgentOracles} {ID : Nat} {p : AgentParams} {a a' : Agent}

theorem lc_flag_iff {ID r d : Nat} {g : PoseGraph ℝ} (hg : Reachable ID r d g) (m : Meas ℝ) :
    g.lcFlag m = true ↔ g.isNeighborActive (foreignPose ID m).robot = ok true := by
  obtain ⟨⟨log, h⟩, hid⟩ := Reachable.inv hg
  rw [h.isNeighborActive_eq]
  unfold lcFlag
  rw [hid]
  simp

theorem live_eq {ID r d : Nat} {g : PoseGraph ℝ} (hg : Reachable ID r d g) :
    liveLcs ID g = g.privateLcs ++ g.sharedLcs.filter g.lcFlag := by
  unfold liveLcs
  congr 1
  apply List.filter_congr
  intro m _
  rw [Bool.eq_iff_iff, decide_eq_true_eq, lc_flag_iff hg]

theorem filter_split (l : List (Meas ℝ)) :
    (l.filter fun m => decide (m.weight = 1)).length + (l.filter fun m => decide (m.weight = 0)).length =
      (l.filter fun m => decide (m.weight = 0 ∨ m.weight = 1)).length := by
  induction l with
  | nil => rfl
  | cons m l ih =>
    by_cases h0 : m.weight = 0
    · simp [h0] at ih ⊢; omega
    · by_cases h1 : m.weight = 1
      · simp [h1] at ih ⊢; omega
      · simp [h0, h1] at ih ⊢; omega

/-- The test on the ratio of decided loop closures. -/
theorem ratio_iff {r d : Nat} {g : PoseGraph ℝ} (hg : Reachable ID r d g) {st : Statistics}
    (e : g.statistics = ok st) :
    ¬ (st.total ≠ 0 ∧ ((st.accept : ℝ) + st.reject) / st.total < p.minConvergenceRatio) ↔
      ((liveLcs ID g).length ≠ 0 → EnoughDecided ID p g) := by
  obtain ⟨⟨log, h⟩, hid⟩ := Reachable.inv hg
  have hs := h.statistics_eq (zero_ne_one)
  rw [e] at hs
  have hs := Res.ok.inj hs
  have ht : st.total = (liveLcs ID g).length := by rw [hs, live_eq hg]
  have hd : (st.accept : ℝ) + st.reject =
      (((liveLcs ID g).filter fun m => decide (m.weight = 0 ∨ m.weight = 1)).length : ℝ) := by
    rw [← filter_split, live_eq hg, hs]
    push_cast
    rfl
  rw [hd, ht]
  unfold EnoughDecided
  rw [not_and]
  refine imp_congr_right fun hne => ?_
  have hpos : (0 : ℝ) < (liveLcs ID g).length := by exact_mod_cast Nat.pos_of_ne_zero hne
  rw [not_lt, le_div_iff₀ hpos]

/-- What an iteration with optimisation reports. -/
theorem iterate_status (h : AgReach o ID p a) (hs : a.state = .INITIALIZED) {s : Bool}
    (e : a.iterate o true = ok (s, a')) :
    IsLargest a.graph.n (poseMove p a a') a'.status.relativeChange ∧
    (a'.status.readyToTerminate = true ↔ s = true ∧ a'.status.relativeChange ≤ allowedMove p a ∧
      ((liveLcs ID a.graph).length ≠ 0 → EnoughDecided ID p a.graph)) := by
  have hi := agReach_inv h
  have hr' := agReach_snoc (op := .iterate true) (a' := a') h trivial
    (by simp only [Agent.step, e, ok_bind])
  have hi' := agReach_inv hr'
  obtain ⟨f, st, -, -⟩ := Agent.iterate_frame e
  have hb := updating_book st
  have hn : a'.graph.n = a.graph.n := hb.n
  have hl : liveLcs ID a'.graph = liveLcs ID a.graph := by
    have k1 : a'.graph.privateLcs = a.graph.privateLcs := hb.privateLcs
    have k2 : a'.graph.sharedLcs = a.graph.sharedLcs := hb.sharedLcs
    unfold liveLcs
    simp only [k1, k2, updating_active st]
  have hd : EnoughDecided ID p a'.graph ↔ EnoughDecided ID p a.graph := by
    unfold EnoughDecided
    rw [hl]
  obtain ⟨hpos, -, hX⟩ := hi.data (by rw [hs]; simp)
  obtain ⟨-, -, hX'⟩ := hi'.data (by
    have : a'.state = a.state := by rw [f]
    rw [this, hs]; simp)
  obtain ⟨b, hb, ⟨-, e1⟩ | ⟨c, -⟩⟩ := Agent.iterate_form e
  · obtain ⟨k, -, -, rfl⟩ := Agent.tick_form hb
    obtain ⟨c, c', e2, ⟨-, e3⟩ | ⟨e3, -⟩, rfl⟩ := Agent.iterateBody_form e1
    · have hprev : c.XPrev = a.X ∧ c.weightUpdateCount = a.weightUpdateCount := by
        rcases e2 with ⟨-, e2⟩ | ⟨-, e2⟩
        · rw [(Agent.accelStep_frame e2).1]; exact ⟨rfl, rfl⟩
        · rw [(Agent.updateX_frame e2).1]; exact ⟨rfl, rfl⟩
      obtain ⟨x, sta, hx, hst, ready, hready, rfl⟩ := Agent.iterateStatus_form e3
      have hXc : ArrOk p.r p.d a.graph.n c.X := hn ▸ hX'
      have hpar : c.params = p := hi'.params
      have hreach : Reachable ID p.r p.d c.graph := hi'.reach
      obtain ⟨m, hm, -, m1, m2⟩ := PArr.max_value hXc hX
      rw [hprev.1] at hx
      have : x = m := Res.ok.inj (hx.symm.trans hm)
      subst this
      refine ⟨⟨m1, m2 hpos⟩, ?_⟩
      rw [hpar, hprev.2, ratio_iff hreach hst, not_lt] at hready
      show ready = true ↔ s = true ∧ x ≤ allowedMove p a ∧ _
      rw [hready, allowedMove, show liveLcs ID c.graph = liveLcs ID a.graph from hl]
      exact and_congr_right fun _ => and_congr_right fun _ => imp_congr_right fun _ => hd
    · cases e3
  · exact absurd hs c

theorem largest_le {n : Nat} {f : Nat → ℝ} {m c : ℝ} (h : IsLargest n f m) :
    m ≤ c ↔ ∀ i < n, f i ≤ c := by
  constructor
  · exact fun hm i hi => (h.1 i hi).trans hm
  · intro hc
    obtain ⟨i, hi, rfl⟩ := h.2
    exact hc i hi

/-- Readiness after an event. -/
theorem settles_iff (h : AgReach o ID p a) (hs : a.state = .INITIALIZED) {s : Bool}
    (e : a.iterate o true = ok (s, a')) :
    a'.status.readyToTerminate = true ↔ Settles o ID p ⟨a, .iterate true, a'⟩ := by
  obtain ⟨h1, h2⟩ := iterate_status h hs e
  rw [h2, largest_le h1]
  unfold Settles Optimizes
  constructor
  · rintro ⟨rfl, k1, k2⟩
    exact ⟨⟨rfl, hs⟩, e, k1, k2⟩
  · rintro ⟨-, k0, k1, k2⟩
    have k0 : a.iterate o true = ok (true, a') := k0
    rw [e] at k0
    exact ⟨(Prod.mk.inj (Res.ok.inj k0)).1, k1, k2⟩

/-- An iteration without optimisation, or before initialisation, keeps the status. -/
theorem iterate_keeps {doOpt s : Bool} (e : a.iterate o doOpt = ok (s, a'))
    (h : ¬ (doOpt = true ∧ a.state = .INITIALIZED)) : a'.status = a.status := by
  obtain ⟨b, hb, ⟨hs, e1⟩ | ⟨-, -, rfl⟩⟩ := Agent.iterate_form e
  · obtain ⟨k, -, -, rfl⟩ := Agent.tick_form hb
    obtain ⟨c, c', e2, ⟨hd, -⟩ | ⟨-, rfl⟩, rfl⟩ := Agent.iterateBody_form e1
    · exact absurd ⟨hd, hs⟩ h
    · show c'.status = _
      rcases e2 with ⟨-, e2⟩ | ⟨-, e2⟩
      · rw [(Agent.accelStep_frame e2).1]
      · rw [(Agent.updateX_frame e2).1]
  · obtain ⟨k, -, -, rfl⟩ := Agent.tick_form hb
    rfl

/-- The flags after an iteration. -/
theorem iterate_flags (hi : AgInv ID p a) {doOpt s : Bool} (e : a.iterate o doOpt = ok (s, a')) :
    (a'.publishAsynchronous = true ↔ a.state = .INITIALIZED ∨ a.publishAsynchronous = true) ∧
    (a'.publishPublicPoses = true ↔ (a.state = .INITIALIZED ∧ (doOpt = true ∨ p.acceleration = true)) ∨
      a.publishPublicPoses = true) := by
  obtain ⟨b, hb, ⟨hs, e1⟩ | ⟨hs, -, rfl⟩⟩ := Agent.iterate_form e
  · obtain ⟨k, -, -, rfl⟩ := Agent.tick_form hb
    obtain ⟨c, c', e2, e3, rfl⟩ := Agent.iterateBody_form e1
    have hc : c.publishPublicPoses = a.publishPublicPoses ∧ c.params = p := by
      rcases e2 with ⟨-, e2⟩ | ⟨-, e2⟩
      · rw [(Agent.accelStep_frame e2).1]; exact ⟨rfl, hi.params⟩
      · rw [(Agent.updateX_frame e2).1]; exact ⟨rfl, hi.params⟩
    have hc' : c'.publishPublicPoses = a.publishPublicPoses ∧ c'.params = p := by
      rcases e3 with ⟨-, e3⟩ | ⟨-, rfl⟩
      · obtain ⟨_, _, -, -, _, -, rfl⟩ := Agent.iterateStatus_form e3
        exact hc
      · exact hc
    unfold Agent.publish
    simp only [hc'.1, hc'.2, hs, true_and, true_or, Bool.or_eq_true]
    tauto
  · obtain ⟨k, -, -, rfl⟩ := Agent.tick_form hb
    simp [hs]

/-- With the example oracles and without acceleration nothing moves. -/
theorem exStill (h : AgReach Props.exOracle ID p a) (hs : a.state = .INITIALIZED)
    (hp : p.acceleration = false) (hm : p.localOpt.method = .RTR) {s : Bool}
    (e : a.iterate Props.exOracle true = ok (s, a')) : ∀ i < a.graph.n, poseMove p a a' i = 0 := by
  have hi := agReach_inv h
  obtain ⟨b, hb, ⟨-, e1⟩ | ⟨c, -⟩⟩ := Agent.iterate_form e
  · obtain ⟨k, -, -, rfl⟩ := Agent.tick_form hb
    obtain ⟨c, c', e2, ⟨-, e3⟩ | ⟨e3, -⟩, rfl⟩ := Agent.iterateBody_form e1
    · obtain ⟨x, st, -, -, ready, -, rfl⟩ := Agent.iterateStatus_form e3
      intro i hin
      refine (dist_eq_zero _ _).2 ?_
      show traV p.r p.d c.X i = _
      rcases e2 with ⟨hac, -⟩ | ⟨-, e2⟩
      · have hac : a.params.acceleration = true := hac
        rw [hi.params, hp] at hac
        cases hac
      · rcases Agent.updateX_form e2 with ⟨c, -⟩ | ⟨-, -, -, g1, -, st1, ⟨-, rfl⟩ | ⟨-, Z, res, g2, eo, -, z1, z2, rfl⟩⟩
        · cases c
        · rfl
        · have hb1 := updating_book st1
          have hn : g1.n = a.graph.n := hb1.n
          have hid := reach_dims hi.reach
          have hr : g1.r = p.r := hb1.r.trans hid.2.1
          have hd : g1.d = p.d := hb1.d.trans hid.2.2.1
          simp only [Bool.false_eq_true, if_false] at eo
          obtain ⟨Q, G, g3, -, hg3, -, -, -, -, -, -, -, -, -, -, -, ⟨g4, e4⟩, -⟩ := optimize_ok eo
          unfold optimizeWith at e4
          rw [show a.params.localOpt.method = .RTR by rw [hi.params]; exact hm] at e4
          simp only [Res.ok.injEq, Prod.mk.injEq] at e4
          obtain ⟨e4, -⟩ := e4
          ext q
          show Z.v q _ = a.X.X.v q _
          rw [← e4]
          rcases trustRegion_point (o := Props.exOracle.opt a.calls) (p := a.params.localOpt) (g := g3)
            (r := p.r) (d := p.d) (n := a.graph.n)
            (by rw [hg3]; exact hr) (by rw [hg3]; exact hd) (by rw [hg3]; exact hn) Q G a.X.X
            with c | ⟨j, Δ, Δm, c⟩
          · rw [c]
          · rw [c]
            have hcol : i * (p.d + 1) + p.d < (p.d + 1) * a.graph.n := by
              have h1 : (i + 1) * (p.d + 1) ≤ a.graph.n * (p.d + 1) := Nat.mul_le_mul_right _ hin
              rw [Nat.mul_comm (p.d + 1) a.graph.n]
              rw [Nat.add_mul] at h1
              omega
            show (DMat.ofMat (a.X.X.toMat p.r ((p.d + 1) * a.graph.n))).v q _ = _
            simp [DMat.ofMat, DMat.toMat, hcol]
    · cases e3
  · exact absurd hs c

end Dpgo
