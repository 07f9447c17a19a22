import Verif.Lemmas.TeamForm
import Verif.Spec.Async

/-! # One gradient step with old poses of the neighbours -/

namespace Dpgo

open Res Spec PoseGraph Finset

noncomputable section

/-! ### The cost after a step -/

section
variable {r d n i : Nat} {E : List (Meas ℝ)}

theorem DMat.ext_v {A B : DMat ℝ} (h1 : A.rows = B.rows) (h2 : A.cols = B.cols) (h : ∀ ρ j, A.v ρ j = B.v ρ j) :
    A = B := by
  obtain ⟨a, b, f⟩ := A
  obtain ⟨a', b', f'⟩ := B
  simp only at h1 h2 h
  subst h1 h2
  congr 1
  funext ρ j
  exact h ρ j

/-- Replacing the poses of one robot. -/
theorem teamCost_move (X : Joint ℝ) {Z : DMat ℝ} :
    teamCost r d E (Function.update X i Z) =
      teamCost r d E X + teamForm r d E X (only i (Z.sub (X i))) + teamCost r d E (only i (Z.sub (X i))) := by
  rw [teamCost_add (X := X) (Y := only i (Z.sub (X i))) (s := 1) fun j ρ c => by
    by_cases e : j = i
    · subst e
      rw [Function.update_self, only, Function.update_self]
      simp [DMat.sub]
    · rw [Function.update_of_ne e, only, Function.update_of_ne e]
      simp [DMat.zero]]
  ring

/-- The cost after a step along `-V` whose direction was computed from old poses. -/
theorem step_cost (hpos : ∀ Y, 0 ≤ teamCost r d E Y) {L γ μ g a b f : ℝ} (hL0 : 0 ≤ L) (hγ : 0 ≤ γ)
    (hL : SmoothFor r d n E i L) {X X' D : Joint ℝ} (hD : ∀ j ρ c, (X j).v ρ c = (X' j).v ρ c + (D j).v ρ c)
    (hgap : costNorm r d E D ≤ Real.sqrt L * g) {Gr V Z : DMat ℝ} (hG : IsBlockGradient r d n E X' i Gr)
    (hV : DMat.Fits r ((d + 1) * n) V) (hXi : DMat.Fits r ((d + 1) * n) (X i)) (hZ : DMat.Fits r ((d + 1) * n) Z)
    (hdir : μ * V.normSq ≤ Gr.dot V) (ha : PArr.norm (Z.sub (X i)) ≤ a)
    (hb : PArr.norm ((Z.sub (X i)).add (DMat.smul γ V)) ≤ b) (hf : teamCost r d E X ≤ f) :
    teamCost r d E (Function.update X i Z) ≤
      teamCost r d E X - γ * (μ * V.normSq) + γ * (L * g * PArr.norm V) + Real.sqrt (2 * L * f) * b + L / 2 * a ^ 2 := by
  have hΔ : DMat.Fits r ((d + 1) * n) (Z.sub (X i)) := ⟨hZ.1, hZ.2⟩
  have hR : DMat.Fits r ((d + 1) * n) ((Z.sub (X i)).add (DMat.smul γ V)) := ⟨hZ.1, hZ.2⟩
  rw [teamCost_move X]
  have e1 : teamForm r d E X (only i (Z.sub (X i))) =
      teamForm r d E X (only i ((Z.sub (X i)).add (DMat.smul γ V))) + (-γ) * teamForm r d E X (only i V) := by
    rw [teamForm_comm X (only i (Z.sub (X i))), teamForm_comm X (only i ((Z.sub (X i)).add (DMat.smul γ V))),
      teamForm_comm X (only i V)]
    refine teamForm_add (fun j ρ c => ?_) X
    unfold only
    by_cases e : j = i
    · subst e
      simp only [Function.update_self, DMat.add, DMat.smul]
      ring
    · simp only [Function.update_of_ne e, DMat.zero]
      ring
  have e2 : teamForm r d E X (only i V) = Gr.dot V + teamForm r d E D (only i V) := by
    rw [blockGradient_form hG hV, teamForm_add (X := X') (Y := D) (s := 1) (fun j ρ c => by rw [hD, one_mul]), one_mul]
  have b1 : -(L * g * PArr.norm V) ≤ teamForm r d E D (only i V) := by
    have h1 := (neg_abs_le _).trans' (neg_le_neg (abs_teamForm_le hpos D (only i V)))
    refine le_trans (neg_le_neg ?_) h1
    calc costNorm r d E D * costNorm r d E (only i V) ≤ (Real.sqrt L * g) * (Real.sqrt L * PArr.norm V) :=
          mul_le_mul hgap (costNorm_only hL hL0 hV) (costNorm_nonneg _) ((costNorm_nonneg _).trans hgap)
      _ = (Real.sqrt L * Real.sqrt L) * g * PArr.norm V := by ring
      _ = _ := by rw [Real.mul_self_sqrt hL0]
  have b2 : teamForm r d E X (only i ((Z.sub (X i)).add (DMat.smul γ V))) ≤ Real.sqrt (2 * L * f) * b := by
    refine (le_abs_self _).trans ((abs_teamForm_le hpos _ _).trans ?_)
    have h1 : costNorm r d E X ≤ Real.sqrt (2 * f) := Real.sqrt_le_sqrt (by linarith)
    have h2 := costNorm_only hL hL0 hR
    calc _ ≤ Real.sqrt (2 * f) * (Real.sqrt L * b) :=
          mul_le_mul h1 (h2.trans (mul_le_mul_of_nonneg_left hb (Real.sqrt_nonneg _))) (costNorm_nonneg _) (Real.sqrt_nonneg _)
      _ = Real.sqrt (2 * L * f) * b := by
        rw [← mul_assoc, ← Real.sqrt_mul' _ hL0]
        congr 2
        ring
  have b3 : teamCost r d E (only i (Z.sub (X i))) ≤ L / 2 * a ^ 2 := by
    have h1 := hL _ hΔ.1 hΔ.2
    have h2 := pow_le_pow_left₀ (DMat.norm_nonneg _) ha 2
    rw [DMat.norm_sq] at h2
    have := mul_le_mul_of_nonneg_left h2 hL0
    linarith
  have b4 : γ * (μ * V.normSq) - γ * (L * g * PArr.norm V) ≤ γ * teamForm r d E X (only i V) := by
    rw [e2, ← mul_sub]
    exact mul_le_mul_of_nonneg_left (by linarith) hγ
  rw [e1]
  linarith

/-- The true projected gradient from the one computed with old poses. -/
theorem step_slope (hpos : ∀ Y, 0 ≤ teamCost r d E Y) {L g c : ℝ} (hL0 : 0 ≤ L) (hc : 0 ≤ c) (hL : SmoothFor r d n E i L)
    {X X' D : Joint ℝ} (hD : ∀ j ρ c, (X j).v ρ c = (X' j).v ρ c + (D j).v ρ c)
    (hgap : costNorm r d E D ≤ Real.sqrt L * g) {Gr Gr' W : DMat ℝ} (hG : IsBlockGradient r d n E X i Gr)
    (hG' : IsBlockGradient r d n E X' i Gr') (hW : DMat.Fits r ((d + 1) * n) W)
    (h1 : Gr.dot W = W.normSq) (h2 : Gr'.dot W ≤ c * PArr.norm W) : PArr.norm W ≤ c + L * g := by
  have e : W.normSq = Gr'.dot W + teamForm r d E D (only i W) := by
    rw [← h1, blockGradient_form hG hW, blockGradient_form hG' hW,
      teamForm_add (X := X') (Y := D) (s := 1) (fun j ρ c => by rw [hD, one_mul]), one_mul]
  have b1 : teamForm r d E D (only i W) ≤ L * g * PArr.norm W := by
    refine (le_abs_self _).trans ((abs_teamForm_le hpos _ _).trans ?_)
    calc costNorm r d E D * costNorm r d E (only i W) ≤ (Real.sqrt L * g) * (Real.sqrt L * PArr.norm W) :=
          mul_le_mul hgap (costNorm_only hL hL0 hW) (costNorm_nonneg _) ((costNorm_nonneg _).trans hgap)
      _ = (Real.sqrt L * Real.sqrt L) * g * PArr.norm W := by ring
      _ = _ := by rw [Real.mul_self_sqrt hL0]
  rw [← DMat.norm_sq] at e
  rcases (DMat.norm_nonneg W).eq_or_lt with h | h
  · rw [← h]
    have hg : 0 ≤ L * g := by
      have h0 := (costNorm_nonneg D).trans hgap
      have : 0 ≤ Real.sqrt L * (Real.sqrt L * g) := mul_nonneg (Real.sqrt_nonneg _) h0
      rwa [← mul_assoc, Real.mul_self_sqrt hL0] at this
    linarith
  · have : PArr.norm W * PArr.norm W ≤ (c + L * g) * PArr.norm W := by nlinarith
    exact le_of_mul_le_mul_right this h

end

/-! ### What the agent does -/

section
variable {o : AgentOracles} {p : AgentParams} {E : List (Meas ℝ)} {sh : Nat → Nat} {i k : Nat} {a a' : Agent}

/-- The local problem is that of the team with the poses of the neighbours as known to the robot. -/
theorem Member.solve (hd : 0 < p.d) (hp : p.acceleration = false) (hl : p.robust.costType = .L2) {X : Joint ℝ}
    (h : Member o p E sh i k a) (hX : X i = a.X.X) (hup : upToDate p.r p.d X a.graph a.neighborPoses) {s : Bool}
    (e : a.iterate o true = ok (s, a')) :
    ∃ Q G g g' c, IsBlockGradient p.r p.d (sh i) E X i (eucGrad Q G a.X.X) ∧ g.r = p.r ∧ g.d = p.d ∧ g.n = sh i ∧
      optimizeWith (o.opt c) p.localOpt g Q G a.X.X = ok (a'.X.X, g') ∧ Q.rows = (p.d + 1) * sh i ∧
      Q.cols = (p.d + 1) * sh i ∧ (∀ x y, Q.v x y = Q.v y x) ∧
      (∀ V : DMat ℝ, V.rows = p.r → V.cols = (p.d + 1) * sh i → (V.mul Q).dot V = 2 * teamCost p.r p.d E (only i V)) ∧
      g.Q = some Q ∧ ∀ P, g.precon = some P → P = precondMatrix Q := by
  have hs : s = true := by
    obtain ⟨s', a'', e', hb⟩ := iterate_total (o := o) hd (agReach_inv h.reach) (agReach_cache hd h.reach)
      h.state h.noSelf h.covered (fun c => absurd hl c) (fun c => by rw [hp] at c; cases c) true
    rw [e] at e'
    cases e'
    refine (hb rfl).2 ?_
    unfold stepMissing
    rw [hp]
    have t1 : TeamInv p.r p.d E i (a.graph.setNeighborPoses a.neighborPoses) :=
      h.team.updating (Steps.one (op := .setNeighborPoses a.neighborPoses) trivial rfl)
    obtain ⟨⟨log, hi⟩, -⟩ := Reachable.inv t1.reach
    exact hi.not_missing p.r p.d X hup
  subst hs
  obtain ⟨b, hb, hc⟩ := Agent.iterate_form e
  obtain ⟨c, -, -, rfl⟩ := Agent.tick_form hb
  rcases hc with ⟨-, hc⟩ | ⟨hc, -⟩
  swap
  · exact absurd h.state hc
  obtain ⟨b', c', hu, hst, rfl⟩ := Agent.iterateBody_form hc
  have hX' : (c'.publish true).X = b'.X := by
    rcases hst with ⟨-, hst⟩ | ⟨c, -⟩
    · obtain ⟨_, _, -, -, _, -, rfl⟩ := Agent.iterateStatus_form hst
      rfl
    · cases c
  rw [hX']
  rcases hu with ⟨c, -⟩ | ⟨-, hu⟩
  · rw [show a.params.acceleration = p.acceleration by rw [h.params], hp] at c
    cases c
  rcases Agent.updateX_form hu with ⟨c, -⟩ | ⟨-, -, -, g1, hg, st, hr⟩
  · cases c
  simp only [Bool.false_eq_true, if_false] at hg hr st
  rcases hr with ⟨c, -⟩ | ⟨-, Z, res, g2, ho', -, -, -, rfl⟩
  · cases c
  have t1 : TeamInv p.r p.d E i g1 := h.team.updating st
  have bk := PoseGraph.constructDataMatrices_book hg
  have hnp : g1.neighborPoses = a.neighborPoses := bk.neighborPoses
  have hn : g1.n = sh i := by
    rw [← h.size]
    exact (st.topology Agent.updating_quiet).n
  have hr1 := t1.r_eq
  have hd1 := t1.d_eq
  rw [show a.params.localOpt = p.localOpt by rw [h.params]] at ho'
  obtain ⟨Q, G, g3, e0, hg3, -, -, hQr, hQc, hYr, hYc, hZr, hZc, hfi, hfo, -, ⟨g4, hw⟩, ⟨g6, ez⟩, -⟩ :=
    optimize_ok ho'
  rw [← hX] at e0
  have hup1 : upToDate p.r p.d X g1 g1.neighborPoses := by
    intro q hq
    rw [show g1.nbrShared = a.graph.nbrShared from bk.nbrShared] at hq
    rw [hnp]; exact hup q hq
  have hG : G.rows = g1.r ∧ G.cols = (g1.d + 1) * g1.n := by
    obtain ⟨Q', G', hq', -, -, -, -, -, hG1, hG2, -⟩ := problemF_full e0
    rw [hg3] at hq'
    have : some G = some G' := congrArg PoseGraph.G hq'
    cases this
    rw [hX] at hG1 hG2
    exact ⟨hG1.trans hYr, hG2.trans hYc⟩
  have t3 : TeamInv p.r p.d E i g3 := t1.problemF e0
  have q3 : g3.Q = some Q := by rw [hg3]
  have l3 : g3.G = some G := by rw [hg3]
  rw [hYc] at hQr hQc
  rw [hr1] at hYr hZr hG
  rw [hd1, hn] at hYc hZc hQr hQc hG
  have val : ∀ Y : DMat ℝ, Y.rows = p.r → Y.cols = (p.d + 1) * sh i → problemF g3 Y = ok (objective Q G Y, g3) := by
    intro Y y1 y2
    refine Example.problemF_cached q3 l3 ?_ ?_ ?_ ?_ ?_ ?_
    · rw [y1, t3.r_eq]
    · rw [y2, t3.d_eq, hg3]; rw [← hn]
    · rw [hQr, y2]
    · rw [hQc, y2]
    · rw [hG.1, y1]
    · rw [hG.2, y2]
  have chg : ∀ Y : DMat ℝ, Y.rows = p.r → Y.cols = (p.d + 1) * sh i →
      objective Q G Y - objective Q G a.X.X =
        teamCost p.r p.d E (Function.update X i Y) - teamCost p.r p.d E X := by
    intro Y y1 y2
    have := t1.change two_ne_zero hd X Y hup1 e0 (val Y y1 y2)
    rw [← this, hfi]
  have eQ : g3.quadraticMatrix = ok (Q, g3) := by
    unfold quadraticMatrix
    split
    · rename_i q hq; rw [q3] at hq; cases hq; rfl
    · rename_i hq; rw [q3] at hq; cases hq
  have eG : g3.linearMatrix = ok (G, g3) := by
    unfold linearMatrix
    split
    · rename_i q hq; rw [l3] at hq; cases hq; rfl
    · rename_i hq; rw [l3] at hq; cases hq
  have expand : ∀ V : DMat ℝ, V.rows = p.r → V.cols = (p.d + 1) * sh i →
      objective Q G (a.X.X.add V) = objective Q G a.X.X + (eucGrad Q G a.X.X).dot V +
        1 / 2 * (eucHess Q V).dot V := by
    intro V v1 v2
    exact Props.C12_expansion two_ne_zero i p.r p.d g3 g3 g3 g3 g3 t3.reach a.X.X V Q G _ _ (by rw [v1, hYr])
      (by rw [v2, hYc]) eQ eG (val _ hYr hYc) (val _ hYr hYc)
  have form : ∀ V : DMat ℝ, V.rows = p.r → V.cols = (p.d + 1) * sh i →
      (eucHess Q V).dot V = 2 * teamCost p.r p.d E (only i V) := by
    intro V v1 v2
    have h1 := chg (a.X.X.add V) hYr hYc
    have h2 := chg (a.X.X.add V.neg) hYr hYc
    have h3 := teamCost_swing p.r p.d i E X V V.neg rfl
    rw [hX] at h3
    rw [expand V v1 v2] at h1
    rw [expand V.neg v1 v2, dot_neg, form_neg] at h2
    linarith
  have hpre : ∀ P, g3.precon = some P → P = precondMatrix Q := by
    intro P hP
    obtain ⟨Q', rfl, hb⟩ := t3.fresh.p P hP
    obtain ⟨⟨log, hi⟩, -⟩ := Reachable.inv t3.reach
    have hmiss : ¬ posesMissing g3 := by
      refine hi.not_missing p.r p.d X ?_
      rw [hg3]
      exact hup1
    have := (t3.fresh.q Q q3).construct hi (by rw [t3.d_eq]; exact hd) (by rw [t3.priors]; simp) hmiss
    rw [hb.unique this]
  refine ⟨Q, G, g3, g4, _, ⟨hYr, hQc, fun V v1 v2 => ?_⟩, t3.r_eq, t3.d_eq, by rw [hg3]; exact hn, hw, hQr, hQc,
    (quadraticMatrix_symm t3.reach eQ).2, form, q3, hpre⟩
  have h1 := chg (a.X.X.add V) hYr hYc
  rw [expand V v1 v2, form V v1 v2] at h1
  rw [hX]
  linarith

theorem ofMat_fits {r c : Nat} (M : Matrix (Fin r) (Fin c) ℝ) : DMat.Fits r c (DMat.ofMat M) := ⟨rfl, rfl⟩

/-- The step from `Y` to `Z` along `-γ V`, computed for the joint estimate `X`. -/
structure GradStep (r d n : Nat) (E : List (Meas ℝ)) (π : PoseProj) (α β μ ν γ : ℝ) (X : Joint ℝ) (i : Nat)
    (Y Z V Gr : DMat ℝ) : Prop where
  grad : IsBlockGradient r d n E X i Gr
  fits : DMat.Fits r ((d + 1) * n) V
  down : μ * V.normSq ≤ Gr.dot V
  slope : ∀ U, DMat.Fits r ((d + 1) * n) U → ∃ W, DMat.Fits r ((d + 1) * n) W ∧
    W.normSq = slopeSq π r d n Y U ∧ U.dot W = W.normSq ∧ Gr.dot W ≤ ν * PArr.norm V * PArr.norm W
  new : DMat.Fits r ((d + 1) * n) Z
  near : PArr.norm (Z.sub Y) ≤ α * (γ * PArr.norm V)
  second : PArr.norm ((Z.sub Y).add (DMat.smul γ V)) ≤ β * (γ ^ 2 * V.normSq)

theorem ofMat_toMat_v {r c : Nat} {A : DMat ℝ} {ρ j : Nat} (hρ : ρ < r) (hj : j < c) :
    (DMat.ofMat (A.toMat r c)).v ρ j = A.v ρ j := dif_pos ⟨hρ, hj⟩

theorem dot_ofMat_toMat {r c : Nat} {A : DMat ℝ} (h : DMat.Fits r c A) (B : DMat ℝ) :
    (DMat.ofMat (A.toMat r c)).dot B = A.dot B := by
  unfold DMat.dot
  rw [h.1, h.2]
  refine sum_congr rfl fun ρ hρ => sum_congr rfl fun j hj => ?_
  rw [ofMat_toMat_v (mem_range.1 hρ) (mem_range.1 hj)]

/-- Steps along a projected direction. -/
theorem Spec.Tame.step {oo : OptOracles} {α β : ℝ} (ht : Tame α β oo) {r d n : Nat} {γ : ℝ} (hγ : 0 ≤ γ) {Y : DMat ℝ}
    (hfe : Orthonormal r d n ⟨r, d, n, Y⟩) (W : LVar r d n) :
    PArr.norm ((DMat.ofMat (oo.retr r d n (Y.toMat _ _) ((-γ) • oo.proj r d n (Y.toMat _ _) W))).sub Y) ≤
        α * (γ * PArr.norm (DMat.ofMat (oo.proj r d n (Y.toMat _ _) W))) ∧
      PArr.norm (((DMat.ofMat (oo.retr r d n (Y.toMat _ _) ((-γ) • oo.proj r d n (Y.toMat _ _) W))).sub Y).add
          (DMat.smul γ (DMat.ofMat (oo.proj r d n (Y.toMat _ _) W)))) ≤
        β * (γ ^ 2 * (DMat.ofMat (oo.proj r d n (Y.toMat _ _) W)).normSq) := by
  have hfe' := orthonormal_through hfe
  have h1 := ht.near r d n (Y.toMat _ _) W (-γ) hfe'
  have h2 := ht.second r d n (Y.toMat _ _) W (-γ) hfe'
  generalize oo.retr r d n (Y.toMat _ _) ((-γ) • oo.proj r d n (Y.toMat _ _) W) = Z at *
  generalize oo.proj r d n (Y.toMat _ _) W = V at *
  have e1 : (DMat.ofMat ((-γ) • V)).normSq = γ ^ 2 * (DMat.ofMat V).normSq := by
    rw [DMat.normSq_congr (r := r) (c := (d + 1) * n) (B := DMat.smul (-γ) (DMat.ofMat V)) (ofMat_fits _) ⟨rfl, rfl⟩
      (fun ρ hρ j hj => by simp [DMat.ofMat, DMat.smul, hρ, hj]), DMat.normSq_smul, neg_sq]
  have e2 : PArr.norm (DMat.ofMat ((-γ) • V)) = γ * PArr.norm (DMat.ofMat V) := by
    unfold PArr.norm
    rw [e1, Real.sqrt_mul (sq_nonneg γ), Real.sqrt_sq hγ]
  rw [e2] at h1
  rw [e1] at h2
  refine ⟨le_trans (le_of_eq ?_) h1, le_trans (le_of_eq ?_) h2⟩
  · refine DMat.norm_congr (r := r) (c := (d + 1) * n) ⟨rfl, rfl⟩ (ofMat_fits _) fun ρ hρ j hj => ?_
    simp [DMat.ofMat, DMat.sub, hρ, hj]
  · refine DMat.norm_congr (r := r) (c := (d + 1) * n) ⟨rfl, rfl⟩ (ofMat_fits _) fun ρ hρ j hj => ?_
    simp [DMat.ofMat, DMat.sub, DMat.add, DMat.smul, hρ, hj]

/-- A step along a projected direction. -/
theorem gradStep_of {oo : OptOracles} {π : PoseProj} (hπ : ActsPosewise π oo) {α β μ ν γ : ℝ} (ht : Tame α β oo)
    (hγ : 0 ≤ γ) {r d n i : Nat} {E : List (Meas ℝ)} {X : Joint ℝ} {Y Gr : DMat ℝ}
    (hfe : Orthonormal r d n ⟨r, d, n, Y⟩) (hG : IsBlockGradient r d n E X i Gr) (W : LVar r d n)
    (down : μ * (DMat.ofMat (oo.proj r d n (Y.toMat _ _) W)).normSq ≤
      (DMat.ofMat (oo.proj r d n (Y.toMat _ _) (Gr.toMat _ _))).dot (DMat.ofMat (oo.proj r d n (Y.toMat _ _) W)))
    (slope : PArr.norm (DMat.ofMat (oo.proj r d n (Y.toMat _ _) (Gr.toMat _ _))) ≤
      ν * PArr.norm (DMat.ofMat (oo.proj r d n (Y.toMat _ _) W))) :
    GradStep r d n E π α β μ ν γ X i Y
      (DMat.ofMat (oo.retr r d n (Y.toMat _ _) ((-γ) • oo.proj r d n (Y.toMat _ _) W)))
      (DMat.ofMat (oo.proj r d n (Y.toMat _ _) W)) Gr := by
  obtain ⟨n1, n2⟩ := ht.step hγ hfe W
  have gfit : DMat.Fits r ((d + 1) * n) Gr := ⟨hG.1, hG.2.1⟩
  have orth : ∀ (U : DMat ℝ) (W : LVar r d n), DMat.Fits r ((d + 1) * n) U →
      U.dot (DMat.ofMat (oo.proj r d n (Y.toMat _ _) W)) =
        (DMat.ofMat (oo.proj r d n (Y.toMat _ _) (U.toMat _ _))).dot
          (DMat.ofMat (oo.proj r d n (Y.toMat _ _) W)) := by
    intro U W hU
    rw [← ht.orthogonal r d n _ _ _ (orthonormal_through hfe), dot_ofMat_toMat hU]
  refine ⟨hG, ofMat_fits _, ?_, fun U hU => ⟨_, ofMat_fits _, slope_eq hπ (Gr := U), ?_, ?_⟩, ofMat_fits _, n1, n2⟩
  · rw [orth _ _ gfit]
    exact down
  · rw [orth _ _ hU]
    rfl
  · rw [orth _ _ gfit]
    refine (le_abs_self _).trans ((DMat.abs_dot_le (ofMat_fits _) (ofMat_fits _)).trans ?_)
    exact mul_le_mul_of_nonneg_right slope (DMat.norm_nonneg _)

/-- A gradient step of a member without preconditioner. -/
theorem Member.gradient (hd : 0 < p.d) (hp : p.acceleration = false) (hl : p.robust.costType = .L2)
    (hm : p.localOpt.method = .RGD) (hpre : p.localOpt.RGDUsePreconditioner = false) (hγ : 0 ≤ p.localOpt.RGDStepsize)
    {π : PoseProj} (hπ : ∀ c, ActsPosewise π (o.opt c)) {α β : ℝ} (ht : ∀ c, Tame α β (o.opt c)) {X : Joint ℝ}
    (h : Member o p E sh i k a) (hX : X i = a.X.X) (hfe : Orthonormal p.r p.d (sh i) a.X)
    (hup : upToDate p.r p.d X a.graph a.neighborPoses) {s : Bool} (e : a.iterate o true = ok (s, a')) :
    ∃ V Gr, GradStep p.r p.d (sh i) E π α β 1 1 p.localOpt.RGDStepsize X i a.X.X a'.X.X V Gr := by
  obtain ⟨Q, G, g, g', c, hG, g1, g2, g3, hw, -⟩ := h.solve hd hp hl hX hup e
  have ht := ht c
  have hπ := hπ c
  generalize o.opt c = oo at *
  unfold optimizeWith at hw
  rw [hm] at hw
  simp only [gradientDescent, hpre, Bool.false_eq_true, if_false, ok_bind, Res.ok.injEq, Prod.mk.injEq] at hw
  replace hw := hw.1
  unfold rieGrad at hw
  rw [g1, g2, g3] at hw
  have hfe' : Orthonormal p.r p.d (sh i) ⟨p.r, p.d, sh i, a.X.X⟩ := hfe
  rw [← hw]
  refine ⟨_, _, gradStep_of hπ ht hγ hfe' hG _ ?_ ?_⟩
  · rw [one_mul]
    exact le_of_eq rfl
  · rw [one_mul]

end

end

end Dpgo
