import Verif.Spec.Convergence
import Verif.Lemmas.Schedule
import Verif.Lemmas.DemoGreedy
import Verif.Lemmas.DemoCentral
import Verif.Props.Objective
import Verif.Lemmas.AgentFeasible

/-! # Progress of one step -/

namespace Dpgo

open Res Spec PoseGraph Finset

/-- The cost is a quadratic form in the joint estimate. -/
theorem teamCost_parallel {r d : Nat} {E : List (Meas ℝ)} {A B P M : Joint ℝ}
    (hP : ∀ i ρ j, (P i).v ρ j = (A i).v ρ j + (B i).v ρ j) (hM : ∀ i ρ j, (M i).v ρ j = (A i).v ρ j - (B i).v ρ j) :
    teamCost r d E P + teamCost r d E M = 2 * teamCost r d E A + 2 * teamCost r d E B := by
  unfold teamCost
  have key : ∀ m : Meas ℝ, edgeCost r d m (P m.r1) m.p1 (P m.r2) m.p2 + edgeCost r d m (M m.r1) m.p1 (M m.r2) m.p2 =
      2 * edgeCost r d m (A m.r1) m.p1 (A m.r2) m.p2 + 2 * edgeCost r d m (B m.r1) m.p1 (B m.r2) m.p2 := by
    intro m
    have h1 : rotRes r d m (P m.r1) m.p1 (P m.r2) m.p2 + rotRes r d m (M m.r1) m.p1 (M m.r2) m.p2 =
        2 * rotRes r d m (A m.r1) m.p1 (A m.r2) m.p2 + 2 * rotRes r d m (B m.r1) m.p1 (B m.r2) m.p2 := by
      unfold rotRes rot
      simp only [mul_sum, ← sum_add_distrib]
      refine sum_congr rfl fun ρ _ => sum_congr rfl fun c _ => ?_
      simp only [hP, hM, add_mul, sub_mul, sum_add_distrib, sum_sub_distrib]
      ring
    have h2 : traRes r d m (P m.r1) m.p1 (P m.r2) m.p2 + traRes r d m (M m.r1) m.p1 (M m.r2) m.p2 =
        2 * traRes r d m (A m.r1) m.p1 (A m.r2) m.p2 + 2 * traRes r d m (B m.r1) m.p1 (B m.r2) m.p2 := by
      unfold traRes tra rot
      simp only [mul_sum, ← sum_add_distrib]
      refine sum_congr rfl fun ρ _ => ?_
      simp only [hP, hM, add_mul, sub_mul, sum_add_distrib, sum_sub_distrib]
      ring
    unfold edgeCost
    linear_combination m.weight * m.kappa * h1 + m.weight * m.tau * h2
  induction firstWins E with
  | nil => simp
  | cons m l ih =>
    simp only [List.map_cons, List.sum_cons]
    linear_combination ih + 1 / 2 * key m

/-- Changing one robot by `V` and by `-V`. -/
theorem teamCost_swing (r d i : Nat) (E : List (Meas ℝ)) (X : Joint ℝ) (V W : DMat ℝ) (hW : W = V.neg) :
    teamCost r d E (Function.update X i ((X i).add V)) + teamCost r d E (Function.update X i ((X i).add W)) =
      2 * teamCost r d E X + 2 * teamCost r d E (only i V) := by
  refine teamCost_parallel ?_ ?_
  · intro j ρ c
    by_cases h : j = i
    · subst h; rw [Function.update_self, only, Function.update_self]; rfl
    · rw [Function.update_of_ne h, only, Function.update_of_ne h]; simp [DMat.zero]
  · intro j ρ c
    subst hW
    by_cases h : j = i
    · subst h; rw [Function.update_self, only, Function.update_self]; simp [DMat.add, DMat.neg, sub_eq_add_neg]
    · rw [Function.update_of_ne h, only, Function.update_of_ne h]; simp [DMat.zero]

/-- The gradient of a smooth non-negative cost is bounded by the cost. -/
theorem blockGradient_bound {r d n i : Nat} {E : List (Meas ℝ)} {X : Joint ℝ} {Gr : DMat ℝ} {L : ℝ} (hL0 : 0 < L)
    (hpos : ∀ Y, 0 ≤ teamCost r d E Y) (hL : SmoothFor r d n E i L) (h : IsBlockGradient r d n E X i Gr) :
    Gr.normSq ≤ 2 * L * teamCost r d E X := by
  obtain ⟨h1, h2, h3⟩ := h
  have e := h3 (Gr.smul (-(1 / L))) h1 h2
  have s := hL (Gr.smul (-(1 / L))) h1 h2
  have q := hpos (Function.update X i ((X i).add (Gr.smul (-(1 / L)))))
  have d1 : Gr.dot (Gr.smul (-(1 / L))) = -(1 / L) * Gr.normSq := by
    unfold DMat.dot DMat.normSq DMat.smul
    simp only [mul_sum]
    refine sum_congr rfl fun _ _ => sum_congr rfl fun _ _ => ?_
    ring
  have d2 : (Gr.smul (-(1 / L))).normSq = (1 / L) ^ 2 * Gr.normSq := by
    unfold DMat.normSq DMat.smul
    simp only [mul_sum]
    refine sum_congr rfl fun _ _ => sum_congr rfl fun _ _ => ?_
    ring
  rw [d1] at e
  rw [d2] at s
  have l1 : L * ((1 / L) ^ 2 * Gr.normSq) = Gr.normSq / L := by field_simp
  have l2 : -(1 / L) * Gr.normSq = - (Gr.normSq / L) := by ring
  rw [l1] at s
  rw [l2] at e
  have : Gr.normSq / L ≤ 2 * teamCost r d E X := by linarith
  rw [div_le_iff₀ hL0] at this
  linarith

theorem dot_neg (A V : DMat ℝ) : A.dot V.neg = - A.dot V := by
  unfold DMat.dot DMat.neg
  simp only [mul_neg, sum_neg_distrib]

theorem form_neg (Q V : DMat ℝ) : (eucHess Q V.neg).dot V.neg = (eucHess Q V).dot V := by
  unfold eucHess DMat.dot DMat.mul DMat.neg
  simp only [neg_mul, mul_neg, sum_neg_distrib, neg_neg]

/-- Projected gradients pose by pose. -/
theorem slope_eq {π : PoseProj} {o : OptOracles} (h : ActsPosewise π o) {r d n : Nat} {X Gr : DMat ℝ} :
    (DMat.ofMat (o.proj r d n (X.toMat _ _) (Gr.toMat _ _))).normSq = slopeSq π r d n X Gr := by
  have hpose : ∀ (A : DMat ℝ) k, k < n → poseOf r d (DMat.ofMat (A.toMat r ((d + 1) * n))) k = poseOf r d A k := by
    intro A k hk
    ext ρ c
    have hlt : k * (d + 1) + c < (d + 1) * n := by
      have : (k + 1) * (d + 1) ≤ n * (d + 1) := Nat.mul_le_mul_right _ hk
      rw [Nat.mul_comm (d + 1) n]
      have := c.2
      lia
    simp only [poseOf, Matrix.of_apply, DMat.ofMat, DMat.toMat_apply]
    rw [dif_pos ⟨ρ.2, hlt⟩]
  unfold DMat.normSq slopeSq
  have hcols : (DMat.ofMat (o.proj r d n (X.toMat _ _) (Gr.toMat _ _))).cols = n * (d + 1) := Nat.mul_comm _ _
  rw [hcols, show (DMat.ofMat (o.proj r d n (X.toMat _ _) (Gr.toMat _ _))).rows = r from rfl]
  simp only [Example.sum_mul_range]
  rw [sum_comm]
  refine sum_congr rfl fun k hk => ?_
  rw [mem_range] at hk
  have hk' := h r d n (X.toMat _ _) (Gr.toMat _ _) k hk
  rw [hpose X k hk, hpose Gr k hk] at hk'
  rw [← hk', Finset.sum_range]
  refine sum_congr rfl fun ρ _ => ?_
  rw [Finset.sum_range]
  refine sum_congr rfl fun c _ => ?_
  simp only [poseOf, Matrix.of_apply]
  ring

/-- The gradient only reads the entries of the variable. -/
theorem eucGrad_ofMat {Q G Y : DMat ℝ} {r c : Nat} (hr : Y.rows = r) (hc : Y.cols = c) :
    (∀ ρ < r, ∀ j, (eucGrad Q G (DMat.ofMat (Y.toMat r c))).v ρ j = (eucGrad Q G Y).v ρ j) := by
  subst hr hc
  intro ρ hρ j
  unfold eucGrad DMat.add DMat.mul
  simp only
  congr 1
  refine Finset.sum_congr rfl fun k hk => ?_
  have : (DMat.ofMat (Y.toMat Y.rows Y.cols)).v ρ k = Y.v ρ k := by
    unfold DMat.ofMat
    exact dif_pos ⟨hρ, Finset.mem_range.1 hk⟩
  rw [this]

section
variable {o : AgentOracles} {p : AgentParams} {E : List (Meas ℝ)} {sh : Nat → Nat} {i k : Nat} {a a' : Agent}

/-- One optimisation step: the objective of the robot is the cost of the team, and a decreasing solver lowers
it in proportion to the projected gradient. -/
theorem Member.progress (hd : 0 < p.d) (hp : p.acceleration = false) (hl : p.robust.costType = .L2)
    (hm : p.localOpt.method = .RTR) (hit : p.localOpt.RTRIterations ≠ 1) {π : PoseProj}
    (hπ : ∀ c, ActsPosewise π (o.opt c)) {L M cc : ℝ} (hdec : ∀ c, Decreasing p.localOpt L M cc (o.opt c)) (hL0 : 0 < L)
    (hpos : ∀ Y, 0 ≤ teamCost p.r p.d E Y) {X : Joint ℝ} (hM : 2 * L * teamCost p.r p.d E X ≤ M)
    (hL : SmoothFor p.r p.d (sh i) E i L)
    (h : Member o p E sh i k a) (hX : X i = a.X.X) (hfe : Orthonormal p.r p.d (sh i) ⟨p.r, p.d, sh i, X i⟩)
    (hup : upToDate p.r p.d X a.graph a.neighborPoses) {s : Bool} (e : a.iterate o true = ok (s, a')) :
    ∃ Gr, IsBlockGradient p.r p.d (sh i) E X i Gr ∧
      (p.localOpt.gradnormTol ≤ Real.sqrt (slopeSq π p.r p.d (sh i) (X i) Gr) →
        teamCost p.r p.d E (Function.update X i a'.X.X) + cc * slopeSq π p.r p.d (sh i) (X i) Gr ≤
          teamCost p.r p.d E X) := by
  have hs : s = true := by
    obtain ⟨s', a'', e', hb⟩ := iterate_total (o := o) hd (agReach_inv h.reach) (agReach_cache hd h.reach)
      h.state h.noSelf h.covered (fun c => absurd hl c) (fun c => by rw [hp] at c; cases c) true
    rw [e] at e'
    cases e'
    refine (hb rfl).2 ?_
    unfold stepMissing
    rw [hp]
    have t1 : TeamInv p.r p.d E i (a.graph.setNeighborPoses a.neighborPoses) :=
      h.team.updating (Steps.one (op := .setNeighborPoses a.neighborPoses) trivial rfl)
    obtain ⟨⟨log, hi⟩, -⟩ := Reachable.inv t1.reach
    exact hi.not_missing p.r p.d X hup
  subst hs
  obtain ⟨b, hb, hc⟩ := Agent.iterate_form e
  obtain ⟨c, -, -, rfl⟩ := Agent.tick_form hb
  rcases hc with ⟨-, hc⟩ | ⟨hc, -⟩
  swap
  · exact absurd h.state hc
  obtain ⟨b', c', hu, hst, rfl⟩ := Agent.iterateBody_form hc
  have hX' : (c'.publish true).X = b'.X := by
    rcases hst with ⟨-, hst⟩ | ⟨c, -⟩
    · obtain ⟨_, _, -, -, _, -, rfl⟩ := Agent.iterateStatus_form hst
      rfl
    · cases c
  rw [hX']
  rcases hu with ⟨c, -⟩ | ⟨-, hu⟩
  · rw [show a.params.acceleration = p.acceleration by rw [h.params], hp] at c
    cases c
  rcases Agent.updateX_form hu with ⟨c, -⟩ | ⟨-, -, -, g1, hg, st, hr⟩
  · cases c
  simp only [Bool.false_eq_true, if_false] at hg hr st
  rcases hr with ⟨c, -⟩ | ⟨-, Z, res, g2, ho', -, -, -, rfl⟩
  · cases c
  have t1 : TeamInv p.r p.d E i g1 := h.team.updating st
  have bk := PoseGraph.constructDataMatrices_book hg
  have hnp : g1.neighborPoses = a.neighborPoses := bk.neighborPoses
  have hn : g1.n = sh i := by
    rw [← h.size]
    exact (st.topology Agent.updating_quiet).n
  have hr1 := t1.r_eq
  have hd1 := t1.d_eq
  rw [show a.params.localOpt = p.localOpt by rw [h.params]] at ho'
  obtain ⟨Q, G, g3, e0, hg3, -, -, hQr, hQc, hYr, hYc, hZr, hZc, hfi, hfo, -, ⟨g4, hw⟩, ⟨g6, ez⟩, -⟩ :=
    optimize_ok ho'
  rw [← hX] at e0
  have hup1 : upToDate p.r p.d X g1 g1.neighborPoses := by
    intro q hq
    rw [show g1.nbrShared = a.graph.nbrShared from bk.nbrShared] at hq
    rw [hnp]; exact hup q hq
  have hG : G.rows = g1.r ∧ G.cols = (g1.d + 1) * g1.n := by
    obtain ⟨Q', G', hq', -, -, -, -, -, hG1, hG2, -⟩ := problemF_full e0
    rw [hg3] at hq'
    have : some G = some G' := congrArg PoseGraph.G hq'
    cases this
    rw [hX] at hG1 hG2
    exact ⟨hG1.trans hYr, hG2.trans hYc⟩
  have t3 : TeamInv p.r p.d E i g3 := t1.problemF e0
  have q3 : g3.Q = some Q := by rw [hg3]
  have l3 : g3.G = some G := by rw [hg3]
  rw [hYc] at hQr hQc
  rw [hr1] at hYr hZr hG
  rw [hd1, hn] at hYc hZc hQr hQc hG
  have val : ∀ Y : DMat ℝ, Y.rows = p.r → Y.cols = (p.d + 1) * sh i → problemF g3 Y = ok (objective Q G Y, g3) := by
    intro Y y1 y2
    refine Example.problemF_cached q3 l3 ?_ ?_ ?_ ?_ ?_ ?_
    · rw [y1, t3.r_eq]
    · rw [y2, t3.d_eq, hg3]; rw [← hn]
    · rw [hQr, y2]
    · rw [hQc, y2]
    · rw [hG.1, y1]
    · rw [hG.2, y2]
  have chg : ∀ Y : DMat ℝ, Y.rows = p.r → Y.cols = (p.d + 1) * sh i →
      objective Q G Y - objective Q G a.X.X =
        teamCost p.r p.d E (Function.update X i Y) - teamCost p.r p.d E X := by
    intro Y y1 y2
    have := t1.change two_ne_zero hd X Y hup1 e0 (val Y y1 y2)
    rw [← this, hfi]
  have eQ : g3.quadraticMatrix = ok (Q, g3) := by
    unfold quadraticMatrix
    split
    · rename_i q hq; rw [q3] at hq; cases hq; rfl
    · rename_i hq; rw [q3] at hq; cases hq
  have eG : g3.linearMatrix = ok (G, g3) := by
    unfold linearMatrix
    split
    · rename_i q hq; rw [l3] at hq; cases hq; rfl
    · rename_i hq; rw [l3] at hq; cases hq
  have expand : ∀ V : DMat ℝ, V.rows = p.r → V.cols = (p.d + 1) * sh i →
      objective Q G (a.X.X.add V) = objective Q G a.X.X + (eucGrad Q G a.X.X).dot V +
        1 / 2 * (eucHess Q V).dot V := by
    intro V v1 v2
    exact Props.C12_expansion two_ne_zero i p.r p.d g3 g3 g3 g3 g3 t3.reach a.X.X V Q G _ _ (by rw [v1, hYr])
      (by rw [v2, hYc]) eQ eG (val _ hYr hYc) (val _ hYr hYc)
  have form : ∀ V : DMat ℝ, V.rows = p.r → V.cols = (p.d + 1) * sh i →
      (eucHess Q V).dot V = 2 * teamCost p.r p.d E (only i V) := by
    intro V v1 v2
    have h1 := chg (a.X.X.add V) hYr hYc
    have h2 := chg (a.X.X.add V.neg) hYr hYc
    have h3 := teamCost_swing p.r p.d i E X V V.neg rfl
    rw [hX] at h3
    rw [expand V v1 v2] at h1
    rw [expand V.neg v1 v2, dot_neg, form_neg] at h2
    linarith
  have hY : objective Q G (DMat.ofMat (a.X.X.toMat g1.r ((g1.d + 1) * g1.n))) = objective Q G a.X.X := by
    refine objective_ofMat ?_ ?_ ?_
    · rw [hYr, hr1]
    · rw [hYc, hd1, hn]
    · rw [hQc, hYc]
  have hgrad : IsBlockGradient p.r p.d (sh i) E X i (eucGrad Q G a.X.X) := by
    refine ⟨hYr, hQc, fun V v1 v2 => ?_⟩
    have h1 := chg (a.X.X.add V) hYr hYc
    rw [expand V v1 v2, form V v1 v2] at h1
    rw [hX]
    linarith
  refine ⟨eucGrad Q G a.X.X, hgrad, fun htol => ?_⟩
  have hnorm := blockGradient_bound hL0 hpos hL hgrad
  have hsym := (quadraticMatrix_symm t3.reach eQ).2
  unfold optimizeWith at hw
  rw [hm] at hw
  simp only [Res.ok.injEq, Prod.mk.injEq] at hw
  obtain ⟨hw, -⟩ := hw
  generalize hoo : o.opt _ = oo at hw
  have hsl : (DMat.ofMat (oo.proj g3.r g3.d g3.n (a.X.X.toMat _ _)
      ((eucGrad Q G a.X.X).toMat _ _))).normSq = slopeSq π p.r p.d (sh i) (X i) (eucGrad Q G a.X.X) := by
    rw [slope_eq (hoo ▸ hπ _), t3.r_eq, t3.d_eq, hX, show g3.n = sh i by rw [hg3]; exact hn]
  have hge : ¬ rieGradNorm oo g3 Q G a.X.X < p.localOpt.gradnormTol := by
    unfold rieGradNorm PArr.norm rieGrad
    rw [hsl]
    exact not_lt.2 htol
  unfold trustRegion at hw
  rw [if_neg hge, if_neg hit] at hw
  have g3r : g3.r = p.r := t3.r_eq
  have g3d : g3.d = p.d := t3.d_eq
  have g3n : g3.n = sh i := by rw [hg3]; exact hn
  have hge' := eucGrad_ofMat (Q := Q) (G := G) (Y := a.X.X) (r := g3.r) (c := (g3.d + 1) * g3.n)
    (by rw [hYr, g3r]) (by rw [hYc, g3d, g3n])
  have hmat : (eucGrad Q G (DMat.ofMat (a.X.X.toMat g3.r ((g3.d + 1) * g3.n)))).toMat g3.r ((g3.d + 1) * g3.n) =
      (eucGrad Q G a.X.X).toMat g3.r ((g3.d + 1) * g3.n) := by
    ext ρ j
    exact hge' ρ ρ.2 j
  have hD := (hoo ▸ hdec _ : Decreasing p.localOpt L M cc oo) g3.r g3.d g3.n Q G (a.X.X.toMat _ _) (by
      rw [g3r, g3d, g3n]
      exact orthonormal_through (hX ▸ hfe)) (by rw [hQr, g3d, g3n]) (by rw [hQc, g3d, g3n])
    (by rw [hG.1, g3r]) (by rw [hG.2, g3d, g3n]) (fun x _ y _ => hsym x y)
    (fun V v1 v2 => ?_) ?_ (by rw [hmat]; exact not_lt.1 hge)
  · rw [hmat, hsl, hw, objective_ofMat (by rw [hYr, g3r]) (by rw [hYc, g3d, g3n]) (by rw [hQc, hYc])] at hD
    have := chg Z hZr hZc
    simp only
    linarith
  · have v1' : V.rows = p.r := by rw [v1, g3r]
    have v2' : V.cols = (p.d + 1) * sh i := by rw [v2, g3d, g3n]
    have := form V v1' v2'
    have h2 := hL V v1' v2'
    unfold eucHess at this
    linarith
  · refine le_trans (le_of_eq ?_) (hnorm.trans hM)
    unfold DMat.normSq
    refine Finset.sum_congr ?_ fun ρ hρ => Finset.sum_congr rfl fun j _ => ?_
    · show range g3.r = range a.X.X.rows
      rw [hYr, g3r]
    · rw [hge' ρ (by rw [g3r, ← hYr]; exact Finset.mem_range.1 hρ) j]

end

end Dpgo
