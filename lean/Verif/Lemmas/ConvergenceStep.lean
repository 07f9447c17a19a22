import Verif.Lemmas.ConvergenceDemo

/-! # A solver with a guaranteed decrease: one gradient step -/

namespace Dpgo

open Res Spec PoseGraph Finset

theorem objective_expand {Q G X V : DMat ℝ} (d2 : Q.cols = X.cols) (hV : V.rows = X.rows) (hV' : V.cols = X.cols)
    (hs : ∀ i < X.cols, ∀ j < X.cols, Q.v i j = Q.v j i) :
    objective Q G (X.add V) = objective Q G X + (eucGrad Q G X).dot V + 1 / 2 * (eucHess Q V).dot V := by
  unfold objective eucGrad eucHess
  simp only [DMat.dot, DMat.add, DMat.mul, d2, hV, hV']
  simp only [Finset.mul_sum]
  rw [← Finset.sum_add_distrib, ← Finset.sum_add_distrib, ← Finset.sum_add_distrib,
    ← Finset.sum_add_distrib]
  refine Finset.sum_congr rfl fun ρ _ => ?_
  -- the cross term, by symmetry of `Q`
  have hx : ∑ j ∈ range X.cols, (∑ k ∈ range X.cols, V.v ρ k * Q.v k j) * X.v ρ j =
      ∑ j ∈ range X.cols, (∑ k ∈ range X.cols, X.v ρ k * Q.v k j) * V.v ρ j := by
    simp only [Finset.sum_mul]
    rw [Finset.sum_comm]
    refine Finset.sum_congr rfl fun k hk => Finset.sum_congr rfl fun j hj => ?_
    rw [hs k (Finset.mem_range.1 hk) j (Finset.mem_range.1 hj)]; ring
  have e1 : ∑ j ∈ range X.cols, 1 / 2 * ((∑ k ∈ range X.cols, (X.v ρ k + V.v ρ k) * Q.v k j) *
      (X.v ρ j + V.v ρ j)) =
      1 / 2 * (∑ j ∈ range X.cols, (∑ k ∈ range X.cols, X.v ρ k * Q.v k j) * X.v ρ j +
        ∑ j ∈ range X.cols, (∑ k ∈ range X.cols, V.v ρ k * Q.v k j) * X.v ρ j +
        ∑ j ∈ range X.cols, (∑ k ∈ range X.cols, X.v ρ k * Q.v k j) * V.v ρ j +
        ∑ j ∈ range X.cols, (∑ k ∈ range X.cols, V.v ρ k * Q.v k j) * V.v ρ j) := by
    rw [← Finset.sum_add_distrib, ← Finset.sum_add_distrib, ← Finset.sum_add_distrib,
      ← Finset.mul_sum]
    congr 1
    refine Finset.sum_congr rfl fun j _ => ?_
    have : ∑ k ∈ range X.cols, (X.v ρ k + V.v ρ k) * Q.v k j =
        ∑ k ∈ range X.cols, X.v ρ k * Q.v k j + ∑ k ∈ range X.cols, V.v ρ k * Q.v k j := by
      rw [← Finset.sum_add_distrib]
      exact Finset.sum_congr rfl fun k _ => by ring
    rw [this]; ring
  have e2 : ∑ j ∈ range X.cols, (X.v ρ j + V.v ρ j) * G.v ρ j =
      ∑ j ∈ range X.cols, X.v ρ j * G.v ρ j + ∑ j ∈ range X.cols, G.v ρ j * V.v ρ j := by
    rw [← Finset.sum_add_distrib]
    exact Finset.sum_congr rfl fun j _ => by ring
  have e3 : ∑ j ∈ range X.cols, (∑ k ∈ range X.cols, X.v ρ k * Q.v k j + G.v ρ j) * V.v ρ j =
      ∑ j ∈ range X.cols, (∑ k ∈ range X.cols, X.v ρ k * Q.v k j) * V.v ρ j +
      ∑ j ∈ range X.cols, G.v ρ j * V.v ρ j := by
    rw [← Finset.sum_add_distrib]
    exact Finset.sum_congr rfl fun j _ => by ring
  rw [e1, e2, e3, hx, ← Finset.mul_sum, ← Finset.mul_sum]
  field_simp
  ring

/-- Translations of a direction. -/
noncomputable def shift (r d n : Nat) (V : LVar r d n) : LVar r d n :=
  Matrix.of fun ρ j => if (j : Nat) % (d + 1) = d then V ρ j else 0

/-- A gradient step of the translations. -/
noncomputable def gradStep (L : ℝ) (r d n : Nat) (Q G : DMat ℝ) (Y : LVar r d n) : LVar r d n :=
  Y - (1 / L) • shift r d n ((eucGrad Q G (DMat.ofMat Y)).toMat r ((d + 1) * n))

open Classical in
/-- One gradient step of the translations, if it does not make the cost worse. -/
noncomputable def stepOracle (L : ℝ) (base : OptOracles) : OptOracles :=
  { base with
    proj := fun r d n _ V => shift r d n V
    rtr := fun r d n Q G _ _ _ _ Y => ⟨true,
      if objective Q G (DMat.ofMat (gradStep L r d n Q G Y)) ≤ objective Q G (DMat.ofMat Y) then
        gradStep L r d n Q G Y else Y⟩ }

theorem stepOracle_step {L : ℝ} {base : OptOracles} {r d n : Nat} {Q G : DMat ℝ} {p : OptParams} {k : Nat} {Δ Δmax : ℝ}
    {Y : LVar r d n} (h : objective Q G (DMat.ofMat (gradStep L r d n Q G Y)) ≤ objective Q G (DMat.ofMat Y)) :
    ((stepOracle L base).rtr r d n Q G p k Δ Δmax Y).X = gradStep L r d n Q G Y := if_pos h

theorem stepOracle_stay {L : ℝ} {base : OptOracles} {r d n : Nat} {Q G : DMat ℝ} {p : OptParams} {k : Nat} {Δ Δmax : ℝ}
    {Y : LVar r d n} (h : ¬ objective Q G (DMat.ofMat (gradStep L r d n Q G Y)) ≤ objective Q G (DMat.ofMat Y)) :
    ((stepOracle L base).rtr r d n Q G p k Δ Δmax Y).X = Y := if_neg h

theorem stepOracle_lawful (L : ℝ) (base : OptOracles) : LawfulRtr (stepOracle L base) := by
  intro r d n Q G p k Δ Δmax Y _
  by_cases h : objective Q G (DMat.ofMat (gradStep L r d n Q G Y)) ≤ objective Q G (DMat.ofMat Y)
  · rw [stepOracle_step h]
    exact h
  · rw [stepOracle_stay h]

theorem stepOracle_manifold (L : ℝ) (base : OptOracles) : StaysOnManifold (stepOracle L base) := by
  intro r d n Q G p k Δ Δmax Y hY
  by_cases h : objective Q G (DMat.ofMat (gradStep L r d n Q G Y)) ≤ objective Q G (DMat.ofMat Y)
  swap
  · rw [stepOracle_stay h]
    exact hY
  rw [stepOracle_step h]
  intro i hi
  have : rotM r d ⟨r, d, n, DMat.ofMat (gradStep L r d n Q G Y)⟩ i = rotM r d ⟨r, d, n, DMat.ofMat Y⟩ i := by
    ext ρ c
    have hlt : i * (d + 1) + (c : Nat) < (d + 1) * n := by
      have : (i + 1) * (d + 1) ≤ n * (d + 1) := Nat.mul_le_mul_right _ hi
      have := c.2
      lia
    show (DMat.ofMat (gradStep L r d n Q G Y)).v ρ (i * (d + 1) + c) = (DMat.ofMat Y).v ρ (i * (d + 1) + c)
    unfold DMat.ofMat
    simp only
    rw [dif_pos ⟨ρ.2, hlt⟩, dif_pos ⟨ρ.2, hlt⟩]
    have hm : (i * (d + 1) + (c : Nat)) % (d + 1) ≠ d := by
      rw [Nat.mul_comm, Nat.mul_add_mod, Nat.mod_eq_of_lt (by have := c.2; omega)]
      have := c.2
      omega
    unfold gradStep shift
    simp only [Matrix.sub_apply, Matrix.smul_apply, Matrix.of_apply]
    rw [if_neg hm, smul_zero, sub_zero]
  rw [this]
  exact hY i hi

/-- The projection of `stepOracle`. -/
noncomputable def shiftProj : PoseProj := fun _ d _ V => Matrix.of fun ρ c => if (c : Nat) = d then V ρ c else 0

theorem stepOracle_posewise (L : ℝ) (base : OptOracles) : ActsPosewise shiftProj (stepOracle L base) := by
  intro r d n X V k hk
  ext ρ c
  have hlt : k * (d + 1) + (c : Nat) < (d + 1) * n := by
    have : (k + 1) * (d + 1) ≤ n * (d + 1) := Nat.mul_le_mul_right _ hk
    have := c.2
    lia
  have hm : (k * (d + 1) + (c : Nat)) % (d + 1) = c := by
    rw [Nat.mul_comm, Nat.mul_add_mod, Nat.mod_eq_of_lt c.2]
  show (DMat.ofMat (shift r d n V)).v ρ (k * (d + 1) + c) =
    if (c : Nat) = d then (DMat.ofMat V).v ρ (k * (d + 1) + c) else 0
  unfold DMat.ofMat shift
  simp only
  rw [dif_pos ⟨ρ.2, hlt⟩, dif_pos ⟨ρ.2, hlt⟩]
  simp only [Matrix.of_apply, hm]

theorem stepOracle_decreasing {L : ℝ} (hL : 0 < L) (p : OptParams) (M : ℝ) (base : OptOracles) :
    Decreasing p L M (1 / (2 * L)) (stepOracle L base) := by
  intro r d n Q G Y _ hQr hQc hGr hGc hsym hcurv _ _
  have key : objective Q G (DMat.ofMat (gradStep L r d n Q G Y)) +
      1 / (2 * L) * (DMat.ofMat (shift r d n ((eucGrad Q G (DMat.ofMat Y)).toMat r ((d + 1) * n)))).normSq ≤
      objective Q G (DMat.ofMat Y) := by
    generalize hg : DMat.ofMat (shift r d n ((eucGrad Q G (DMat.ofMat Y)).toMat r ((d + 1) * n))) = g
    have hgv : ∀ ρ < r, ∀ j < (d + 1) * n, g.v ρ j =
        if j % (d + 1) = d then (eucGrad Q G (DMat.ofMat Y)).v ρ j else 0 := by
      intro ρ hρ j hj
      rw [← hg]
      exact dif_pos ⟨hρ, hj⟩
    have e0 : (DMat.ofMat Y).add (g.smul (-(1 / L))) =
        DMat.ofMat (gradStep L r d n Q G Y) := by
      rw [← hg]
      unfold gradStep DMat.add DMat.smul DMat.ofMat
      simp only
      congr 1
      funext ρ j
      by_cases h : ρ < r ∧ j < (d + 1) * n
      · rw [dif_pos h, dif_pos h, dif_pos h]
        simp [sub_eq_add_neg]
      · rw [dif_neg h, dif_neg h, dif_neg h]
        simp
    have gr : g.rows = r := by rw [← hg]; rfl
    have gc : g.cols = (d + 1) * n := by rw [← hg]; rfl
    rw [← e0, objective_expand (X := DMat.ofMat Y) (V := g.smul (-(1 / L))) hQc gr gc hsym]
    have h1 : (eucGrad Q G (DMat.ofMat Y)).dot (g.smul (-(1 / L))) = -(1 / L) * g.normSq := by
      unfold DMat.dot DMat.normSq
      rw [gr, gc, show (eucGrad Q G (DMat.ofMat Y)).rows = r from rfl,
        show (eucGrad Q G (DMat.ofMat Y)).cols = (d + 1) * n from hQc]
      simp only [mul_sum]
      refine sum_congr rfl fun ρ hρ => sum_congr rfl fun j hj => ?_
      have hv := hgv ρ (mem_range.1 hρ) j (mem_range.1 hj)
      unfold DMat.smul
      simp only
      split at hv
      · rw [hv]; ring
      · rw [hv]; ring
    have h2 : (eucHess Q (g.smul (-(1 / L)))).dot (g.smul (-(1 / L))) ≤ L * ((1 / L) ^ 2 * g.normSq) := by
      refine (hcurv (g.smul (-(1 / L))) gr gc).trans (le_of_eq ?_)
      congr 1
      unfold DMat.normSq DMat.smul
      simp only [mul_sum]
      refine sum_congr rfl fun _ _ => sum_congr rfl fun _ _ => ?_
      ring
    rw [h1]
    have l1 : L * ((1 / L) ^ 2 * g.normSq) = 1 / L * g.normSq := by field_simp
    have l2 : 1 / (2 * L) * g.normSq = 1 / 2 * (1 / L * g.normSq) := by ring
    rw [l2]
    rw [l1] at h2
    linarith
  have hle : objective Q G (DMat.ofMat (gradStep L r d n Q G Y)) ≤
      objective Q G (DMat.ofMat Y) := by
    have h1 := normSq_nonneg (DMat.ofMat (shift r d n ((eucGrad Q G (DMat.ofMat Y)).toMat r ((d + 1) * n))))
    have : 0 ≤ 1 / (2 * L) * (DMat.ofMat (shift r d n ((eucGrad Q G (DMat.ofMat Y)).toMat r ((d + 1) * n)))).normSq := by
      positivity
    linarith
  rw [stepOracle_step hle]
  exact key

end Dpgo
