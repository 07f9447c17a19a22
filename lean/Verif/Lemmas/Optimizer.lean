import Verif.Lemmas.Team
import Verif.Spec.Optimizer
import Mathlib.Tactic.FieldSimp
import Mathlib.Tactic.Ring

/-! # Lemmas about the optimiser -/

namespace Dpgo

open Res Spec PoseGraph Finset

theorem retryLoop_spec {r d n : Nat} (run : Nat → ℝ → RtrOut r d n) (Y : DMat ℝ) :
    ∀ (c s : Nat) (ρ : ℝ), 11 - s = c → s ≤ 11 → ∃ k, s + k ≤ 11 ∧
      (retryLoop run Y ρ s).radii = (List.range (k + 1)).map (fun i => ρ / 4 ^ i) ∧
      (∀ i, i < k → (run (s + i) (ρ / 4 ^ i)).accepted = false) ∧
      (((run (s + k) (ρ / 4 ^ k)).accepted = true ∧
        (retryLoop run Y ρ s).Y = DMat.ofMat (run (s + k) (ρ / 4 ^ k)).X) ∨
       (s + k = 11 ∧ (run (s + k) (ρ / 4 ^ k)).accepted = false ∧ (retryLoop run Y ρ s).Y = Y)) := by
  intro c
  induction c with
  | zero =>
    intro s ρ hc hs
    have hs : s = 11 := by omega
    subst hs
    refine ⟨0, le_refl _, ?_⟩
    rw [retryLoop]
    cases h : (run 11 ρ).accepted with
    | true => simp [h]
    | false => simp [h]
  | succ c ih =>
    intro s ρ hc hs
    rw [retryLoop]
    cases h : (run s ρ).accepted with
    | true => exact ⟨0, by omega, by simp, by simp, Or.inl (by simp [h])⟩
    | false =>
      obtain ⟨k, h1, h2, h3, h4⟩ := ih (s + 1) (ρ / 4) (by omega) (by omega)
      have hp : ∀ i : Nat, ρ / 4 / 4 ^ i = ρ / 4 ^ (i + 1) := by
        intro i; rw [pow_succ]; field_simp
      have hng : ¬ s > 10 := by omega
      refine ⟨k + 1, by omega, ?_, ?_, ?_⟩
      · simp only [Bool.false_eq_true, if_false, dif_neg hng]
        rw [h2, List.range_succ_eq_map (n := k + 1), List.map_cons, List.map_map]
        simp only [pow_zero, div_one, List.cons.injEq, true_and]
        exact List.map_congr_left fun i _ => hp i
      · intro i hi
        cases i with
        | zero => simpa using h
        | succ i =>
          have := h3 i (by omega)
          rw [hp] at this
          rw [show s + (i + 1) = s + 1 + i by omega]
          exact this
      · simp only [Bool.false_eq_true, if_false, dif_neg hng]
        rw [hp] at h4
        rw [show s + (k + 1) = s + 1 + k by omega]
        exact h4

theorem objective_ofMat {r c : Nat} {Q G Y : DMat ℝ} (hr : Y.rows = r) (hc : Y.cols = c)
    (hQ : Q.cols = Y.cols) :
    objective Q G (DMat.ofMat (Y.toMat r c)) = objective Q G Y := by
  subst hr hc
  have hv : ∀ i ∈ range Y.rows, ∀ j ∈ range Y.cols,
      (DMat.ofMat (Y.toMat Y.rows Y.cols)).v i j = Y.v i j := by
    intro i hi j hj
    unfold DMat.ofMat
    exact dif_pos ⟨Finset.mem_range.1 hi, Finset.mem_range.1 hj⟩
  unfold objective DMat.dot DMat.mul
  simp only [hQ]
  congr 1
  · congr 1
    refine Finset.sum_congr rfl fun i hi => Finset.sum_congr rfl fun j hj => ?_
    rw [hv i hi j hj]
    congr 1
    exact Finset.sum_congr rfl fun k hk => by rw [hv i hi k hk]
  · refine Finset.sum_congr rfl fun i hi => Finset.sum_congr rfl fun j hj => ?_
    rw [hv i hi j hj]

/-- Evaluating the objective fills the two caches and changes nothing else. -/
theorem problemF_full {K : Type} [Field K] {g g' : PoseGraph K} {X : DMat K} {v : K}
    (e : problemF g X = ok (v, g')) :
    ∃ Q G, g' = { g with Q := some Q, G := some G } ∧ v = objective Q G X ∧ X.rows = g.r ∧
      X.cols = (g.d + 1) * g.n ∧ Q.rows = X.cols ∧ Q.cols = X.cols ∧ G.rows = X.rows ∧
      G.cols = X.cols ∧ (∀ Q', g.Q = some Q' → Q' = Q) ∧ (∀ G', g.G = some G' → G' = G) ∧
      (g.Q = none → g.constructQ = ok (some Q)) ∧ (g.G = none → g.constructG = ok (some G)) := by
  unfold problemF at e
  rw [bind_eq_ok] at e
  obtain ⟨_, h1, e⟩ := e
  rw [bind_eq_ok] at e
  obtain ⟨_, h2, e⟩ := e
  rw [bind_eq_ok] at e
  obtain ⟨⟨Q, g1⟩, hq, e⟩ := e
  simp only at e
  rw [bind_eq_ok] at e
  obtain ⟨⟨G, g2⟩, hg, e⟩ := e
  simp only at e
  rw [bind_eq_ok] at e
  obtain ⟨_, h3, e⟩ := e
  cases e
  rw [check_eq_ok] at h1 h2
  rw [require_eq_ok] at h3
  simp only [beq_iff_eq, Bool.and_eq_true] at h1 h2 h3
  refine ⟨Q, G, ?_, rfl, h1, h2, h3.1.1.1, h3.1.1.2, h3.1.2, h3.2, ?_, ?_, ?_, ?_⟩
  · rcases quadraticMatrix_ok hq with ⟨a, rfl⟩ | ⟨a, b, rfl⟩ <;>
      rcases linearMatrix_ok hg with ⟨c, rfl⟩ | ⟨c, e', rfl⟩
    · cases g'; simp_all
    · cases g1; simp_all
    · cases g; simp_all
    · rfl
  · intro Q' hQ'
    rcases quadraticMatrix_ok hq with ⟨a, -⟩ | ⟨a, -, -⟩ <;> simp_all
  · intro G' hG'
    rcases quadraticMatrix_ok hq with ⟨a, rfl⟩ | ⟨a, -, rfl⟩ <;>
      rcases linearMatrix_ok hg with ⟨c, -⟩ | ⟨c, -, -⟩ <;> simp_all
  · intro hn
    rcases quadraticMatrix_ok hq with ⟨a, -⟩ | ⟨-, b, -⟩
    · rw [hn] at a; cases a
    · exact b
  · intro hn
    rcases quadraticMatrix_ok hq with ⟨-, rfl⟩ | ⟨-, -, rfl⟩ <;>
      rcases linearMatrix_ok hg with ⟨c, -⟩ | ⟨-, c, -⟩
    · rw [hn] at c; cases c
    · exact c
    · have c : g.G = some G := c
      rw [hn] at c; cases c
    · exact (sameData_caches g (some Q) g.G g.precon).constructG.symm.trans c

theorem hasPreconditioner_keeps {K : Type} [Field K] {g g' : PoseGraph K} {chol : DMat K → Bool}
    {b : Bool} {Q : DMat K} (hQ : g.Q = some Q) (e : g.hasPreconditioner chol = ok (b, g')) :
    g' = { g with precon := g'.precon } := by
  rcases hasPreconditioner_ok e with ⟨P, a, rfl, -⟩ | ⟨Q1, g1, a, b, -, c⟩
  · rfl
  · rcases quadraticMatrix_ok b with ⟨-, rfl⟩ | ⟨hn, -, -⟩
    · cases h : chol (precondMatrix Q1) <;> rw [h] at c <;> subst c <;> rfl
    · rw [hn] at hQ; cases hQ

theorem optimizeWith_keeps {o : OptOracles} {p : OptParams} {g g' : PoseGraph ℝ} {Q G Y Z : DMat ℝ}
    (hQ : g.Q = some Q) (e : optimizeWith o p g Q G Y = ok (Z, g')) :
    g' = { g with precon := g'.precon } := by
  unfold optimizeWith at e
  split at e
  · cases e; rfl
  · unfold gradientDescent at e
    simp only at e
    split at e
    · rw [bind_eq_ok] at e
      obtain ⟨⟨V, g1⟩, h, e⟩ := e
      cases e
      unfold preConditioner at h
      rw [bind_eq_ok] at h
      obtain ⟨⟨b, g2⟩, h', h⟩ := h
      simp only [Res.ok.injEq, Prod.mk.injEq] at h
      obtain ⟨-, rfl⟩ := h
      exact hasPreconditioner_keeps hQ h'
    · cases e; rfl

theorem optimize_ok {o : OptOracles} {p : OptParams} {g g' : PoseGraph ℝ} {Y Z : DMat ℝ}
    {res : OptResult} (e : optimize o p g Y = ok (Z, res, g')) :
    ∃ Q G g1, problemF g Y = ok (res.fInit, g1) ∧ g1 = { g with Q := some Q, G := some G } ∧
      (g.Q = none → g.constructQ = ok (some Q)) ∧ (g.G = none → g.constructG = ok (some G)) ∧
      Q.rows = Y.cols ∧ Q.cols = Y.cols ∧ Y.rows = g.r ∧ Y.cols = (g.d + 1) * g.n ∧
      Z.rows = g.r ∧ Z.cols = (g.d + 1) * g.n ∧
      res.fInit = objective Q G Y ∧ res.fOpt = objective Q G Z ∧ res.success = true ∧
      (∃ g2, optimizeWith o p g1 Q G Y = ok (Z, g2)) ∧
      (∃ g3, problemF g1 Z = ok (res.fOpt, g3)) ∧
      res.gradNormInit = rieGradNorm o g1 Q G Y ∧ res.gradNormOpt = rieGradNorm o g1 Q G Z := by
  unfold optimize at e
  rw [bind_eq_ok] at e
  obtain ⟨⟨f, g1⟩, h1, e⟩ := e
  obtain ⟨Q, G, rfl, hf, hr, hc, hQr, hQc, hGr, hGc, -, -, hcQ, hcG⟩ := problemF_full h1
  simp only [quadraticMatrix, linearMatrix, ok_bind] at e
  rw [bind_eq_ok] at e
  obtain ⟨⟨Z', g2⟩, h2, e⟩ := e
  simp only at e
  rw [bind_eq_ok] at e
  obtain ⟨⟨f', g3⟩, h3, e⟩ := e
  cases e
  have hk := optimizeWith_keeps rfl h2
  obtain ⟨Q', G', hg', hf', hr', hc', -, -, -, -, hq, hG, -, -⟩ := problemF_full h3
  have e1 : Q = Q' := hq Q (by rw [hk])
  have e2 : G = G' := hG G (by rw [hk])
  subst e1 e2
  have hgr : g2.r = g.r := by rw [hk]
  have hgd : g2.d = g.d := by rw [hk]
  have hgn : g2.n = g.n := by rw [hk]
  rw [hgr] at hr'
  rw [hgd, hgn] at hc'
  refine ⟨Q, G, _, h1, rfl, hcQ, hcG, hQr, hQc, hr, hc, hr', hc', hf, hf', rfl, ⟨g2, h2⟩, ?_, ?_, ?_⟩
  · refine ⟨{ g with Q := some Q, G := some G }, ?_⟩
    have hr1 : Y.rows = Z.rows := hr.trans hr'.symm
    have hc1 : Y.cols = Z.cols := hc.trans hc'.symm
    simp only [problemF, quadraticMatrix, linearMatrix, ok_bind, hr', hc', hQr, hQc, hGr, hGc, hr, hc,
      beq_self_eq_true, Bool.and_self, check_true, require_true]
    rw [hf']
    rfl
  · rw [hg', hk]; rfl
  · rw [hg', hk]; rfl

theorem optimize_rtr {o : OptOracles} {p : OptParams} {g g' : PoseGraph ℝ} {Y Z : DMat ℝ}
    {res : OptResult} (ho : LawfulRtr o) (hm : p.method = .RTR)
    (e : optimize o p g Y = ok (Z, res, g')) : res.fOpt ≤ res.fInit := by
  obtain ⟨Q, G, g1, -, rfl, -, -, -, hQc, hr, hc, -, -, h1, h2, -, ⟨g2, h3⟩, -⟩ := optimize_ok e
  unfold optimizeWith at h3
  rw [hm] at h3
  simp only [Res.ok.injEq, Prod.mk.injEq] at h3
  obtain ⟨h3, -⟩ := h3
  rw [h1, h2, ← h3]
  have hY : objective Q G (DMat.ofMat (Y.toMat g.r ((g.d + 1) * g.n))) = objective Q G Y :=
    objective_ofMat hr hc hQc
  unfold trustRegion
  split
  · exact le_refl _
  · split
    · obtain ⟨k, -, -, -, h | h⟩ := retryLoop_spec
        (fun k Δ => o.rtr g.r g.d g.n Q G p k Δ Δ (Y.toMat _ _)) Y 11 0 p.RTRInitialRadius rfl
        (by omega)
      · have hl := ho g.r g.d g.n Q G p (0 + k) (p.RTRInitialRadius / 4 ^ k)
          (p.RTRInitialRadius / 4 ^ k) (Y.toMat _ _) (Or.inl h.1)
        rw [hY] at hl
        have := h.2
        simp only at this ⊢
        rw [this]
        exact hl
      · have := h.2.2
        simp only at this ⊢
        rw [this]
    · rename_i hne
      have hl := ho g.r g.d g.n Q G p 0 p.RTRInitialRadius (5 * p.RTRInitialRadius) (Y.toMat _ _)
        (Or.inr hne)
      rw [hY] at hl
      exact hl

theorem optimize_cost {o : OptOracles} {p : OptParams} {id r d : Nat} {g g' : PoseGraph ℝ}
    {Y Z : DMat ℝ} {res : OptResult} (hg : Reachable id r d g) (hQ : g.Q = none) (hG : g.G = none)
    (e : optimize o p g Y = ok (Z, res, g')) :
    res.fInit = graphCost g Y - graphCost g (zeroEst g) ∧
    res.fOpt = graphCost g Z - graphCost g (zeroEst g) := by
  obtain ⟨⟨log, h⟩, -⟩ := Reachable.inv hg
  obtain ⟨Q, G, g1, -, -, cQ, cG, hQr, -, hr, hc, hr', hc', h1, h2, -⟩ := optimize_ok e
  have h0 : (2 : ℝ) ≠ 0 := two_ne_zero
  rw [h1, h2]
  exact ⟨h.objective_eq h0 (cQ hQ) (cG hG) hr hc hQr,
    h.objective_eq h0 (cQ hQ) (cG hG) hr' hc' (by rw [hQr, hc, hc'])⟩

end Dpgo
