import Verif.Lemmas.Projection
import Verif.Lemmas.Poses

/-! # The projection functions of the model -/

namespace Dpgo

open Res Spec Matrix

variable {svd : SvdOracle}

/-! ### Stiefel -/

theorem stiefel_ok {r d : Nat} {M : DMat ℝ} (hM : M.rows = r ∧ M.cols = d) (hrd : d ≤ r) :
    projectToStiefelManifold svd M =
      ok (DMat.ofMat ((svd r d (M.toMat r d)).U * (svd r d (M.toMat r d)).Vᵀ)) := by
  obtain ⟨rfl, rfl⟩ := hM
  unfold projectToStiefelManifold
  rw [decide_eq_true hrd]
  rfl

theorem Spec.IsSvd.det_gram {r d : Nat} {M U : Matrix (Fin r) (Fin d) ℝ} {s : Fin d → ℝ}
    {V : Matrix (Fin d) (Fin d) ℝ} (h : IsSvd M U s V) : (Mᵀ * M).det = ∏ i, s i * s i := by
  have e : Mᵀ * M = V * (Matrix.diagonal s * Matrix.diagonal s) * Vᵀ := by
    rw [h.factor, Matrix.transpose_mul, Matrix.transpose_mul, Matrix.transpose_transpose,
      Matrix.diagonal_transpose]
    calc V * (Matrix.diagonal s * Uᵀ) * (U * Matrix.diagonal s * Vᵀ)
        = V * (Matrix.diagonal s * (Uᵀ * U) * Matrix.diagonal s) * Vᵀ := by
          simp only [Matrix.mul_assoc]
      _ = _ := by rw [h.orthoU, Matrix.mul_one]
  rw [e, Matrix.diagonal_mul_diagonal, Matrix.det_mul, Matrix.det_mul, Matrix.det_transpose,
    Matrix.det_diagonal, mul_comm, ← mul_assoc, h.orthoV.det_sq, one_mul]

theorem Spec.IsSvd.pos {r d : Nat} {M U : Matrix (Fin r) (Fin d) ℝ} {s : Fin d → ℝ}
    {V : Matrix (Fin d) (Fin d) ℝ} (h : IsSvd M U s V) (hdet : (Mᵀ * M).det ≠ 0) (i : Fin d) :
    0 < s i := by
  rcases lt_or_eq_of_le (h.nonneg i) with hp | h0
  · exact hp
  · refine absurd ?_ hdet
    rw [h.det_gram]
    exact Finset.prod_eq_zero (Finset.mem_univ i) (by rw [← h0, zero_mul])

/-! ### Rotation group -/

theorem negLastCol_eq {d : Nat} (U : Matrix (Fin d) (Fin d) ℝ) :
    negLastCol U = U * Matrix.diagonal (fun j : Fin d => if (j : Nat) = d - 1 then -1 else 1) := by
  ext i j
  rw [Matrix.mul_diagonal]
  simp only [negLastCol, Matrix.of_apply]
  split <;> simp

open Classical in
/-- The value of `projectToRotationGroup`. -/
noncomputable def rotProj {d : Nat} (o : SvdOut d d) : Matrix (Fin d) (Fin d) ℝ :=
  if o.U.det * o.V.det > 0 then o.U * o.Vᵀ else negLastCol o.U * o.Vᵀ

theorem rotation_ok {d : Nat} {M : DMat ℝ} (hM : M.rows = d ∧ M.cols = d) :
    projectToRotationGroup svd M = ok (DMat.ofMat (rotProj (svd d d (M.toMat d d)))) := by
  obtain ⟨rfl, h⟩ := hM
  unfold projectToRotationGroup rotProj
  rw [h]
  simp only [beq_self_eq_true, require_true, ok_bind]
  split <;> rfl

theorem flip_ortho {d : Nat} :
    OrthoCols (Matrix.diagonal (fun j : Fin d => if (j : Nat) = d - 1 then (-1 : ℝ) else 1)) := by
  unfold OrthoCols
  rw [Matrix.diagonal_transpose, Matrix.diagonal_mul_diagonal, ← Matrix.diagonal_one]
  congr 1
  ext j
  split <;> simp

theorem flip_det {d : Nat} (hd : 0 < d) :
    (Matrix.diagonal (fun j : Fin d => if (j : Nat) = d - 1 then (-1 : ℝ) else 1)).det = -1 := by
  rw [Matrix.det_diagonal]
  rw [Finset.prod_eq_single (⟨d - 1, by omega⟩ : Fin d)]
  · simp
  · intro b _ hb
    rw [if_neg]
    intro e
    exact hb (Fin.ext e)
  · intro h
    exact absurd (Finset.mem_univ _) h

theorem det_prod_cases {d : Nat} {U V : Matrix (Fin d) (Fin d) ℝ} (hU : OrthoCols U)
    (hV : OrthoCols V) : (0 < U.det * V.det ∧ U.det * V.det = 1) ∨
      (¬ 0 < U.det * V.det ∧ U.det * V.det = -1 ∧ 0 < d) := by
  rcases hU.det_cases with a | a <;> rcases hV.det_cases with b | b <;> rw [a, b]
  · left; norm_num
  · right
    refine ⟨by norm_num, by norm_num, ?_⟩
    rcases Nat.eq_zero_or_pos d with rfl | h
    · rw [Matrix.det_fin_zero] at b; norm_num at b
    · exact h
  · right
    refine ⟨by norm_num, by norm_num, ?_⟩
    rcases Nat.eq_zero_or_pos d with rfl | h
    · rw [Matrix.det_fin_zero] at a; norm_num at a
    · exact h
  · left; norm_num

/-- The result is a rotation, and it is a nearest one. -/
theorem rotProj_spec {d : Nat} {M : Matrix (Fin d) (Fin d) ℝ} {o : SvdOut d d}
    (h : IsSvd M o.U o.s o.V) : IsRot (rotProj o) ∧
      ∀ Q, IsRot Q → frob2 (rotProj o - M) ≤ frob2 (Q - M) := by
  classical
  have hVt := h.orthoV.transpose
  rcases det_prod_cases h.orthoU h.orthoV with ⟨hp, hd⟩ | ⟨hp, hd, hpos⟩
  · have e : rotProj o = o.U * o.Vᵀ := if_pos hp
    rw [e]
    refine ⟨⟨h.orthoU.mul hVt, by rw [Matrix.det_mul, Matrix.det_transpose, hd]⟩, fun Q hQ => ?_⟩
    refine nearest_of_inner (h.orthoU.mul hVt) hQ.1 ?_
    rw [h.inner_proj]
    exact h.inner_le hQ.1
  · have e : rotProj o = negLastCol o.U * o.Vᵀ := if_neg hp
    rw [e, negLastCol_eq]
    set D := Matrix.diagonal (fun j : Fin d => if (j : Nat) = d - 1 then (-1 : ℝ) else 1)
    have hR : OrthoCols (o.U * D * o.Vᵀ) := (h.orthoU.mul flip_ortho).mul hVt
    have hdet : (o.U * D * o.Vᵀ).det = 1 := by
      rw [Matrix.det_mul, Matrix.det_mul, Matrix.det_transpose, flip_det hpos]
      linarith
    refine ⟨⟨hR, hdet⟩, fun Q hQ => ?_⟩
    refine nearest_of_inner hR hQ.1 ?_
    let l : Fin d := ⟨d - 1, by omega⟩
    have hval : ((o.U * D * o.Vᵀ)ᵀ * M).trace = ∑ i, o.s i - 2 * o.s l := by
      rw [h.inner]
      have e2 : o.Uᵀ * (o.U * D * o.Vᵀ * o.V) = D := by
        rw [Matrix.mul_assoc (o.U * D), h.orthoV, Matrix.mul_one, ← Matrix.mul_assoc, h.orthoU,
          Matrix.one_mul]
      rw [e2]
      have e3 : ∀ i : Fin d, o.s i * D i i = o.s i - if i = l then 2 * o.s l else 0 := by
        intro i
        simp only [D, Matrix.diagonal_apply_eq]
        by_cases c : (i : Nat) = d - 1
        · have : i = l := Fin.ext c
          rw [if_pos c, if_pos this, this]; ring
        · have : i ≠ l := fun e => c (congrArg Fin.val e)
          rw [if_neg c, if_neg this]; ring
      rw [Finset.sum_congr rfl fun i _ => e3 i, Finset.sum_sub_distrib]
      simp
    rw [hval, h.inner]
    refine weighted_trace_le (h.orthoU.transpose.mul (OrthoCols.mul (A := Q) hQ.1 h.orthoV)) ?_ (h.nonneg l)
      (fun i => h.sorted i l (Fin.le_def.2 (by have := i.2; simp only [l]; omega)))
    rw [Matrix.det_mul, Matrix.det_mul, Matrix.det_transpose, hQ.2, one_mul, hd]

/-- A positive multiple of a rotation is projected to the rotation. -/
theorem rotProj_scaled {d : Nat} {R : Matrix (Fin d) (Fin d) ℝ} (hR : IsRot R) {c : ℝ} (hc : 0 < c)
    {o : SvdOut d d} (h : IsSvd (c • R) o.U o.s o.V) : rotProj o = R := by
  classical
  have hM : (c • R)ᵀ * (c • R) = (c ^ 2) • (1 : Matrix (Fin d) (Fin d) ℝ) := by
    rw [Matrix.transpose_smul, Matrix.smul_mul, Matrix.mul_smul, hR.1, smul_smul, sq]
  have e := (h.scaled hc hM).2
  have e' : R = o.U * o.Vᵀ := by
    have := congrArg (fun X => c⁻¹ • X) e
    simpa [smul_smul, inv_mul_cancel₀ hc.ne'] using this
  have hd : o.U.det * o.V.det = 1 := by
    have := congrArg Matrix.det e'
    rw [Matrix.det_mul, Matrix.det_transpose, hR.2] at this
    exact this.symm
  unfold rotProj
  rw [if_pos (by rw [hd]; exact one_pos), ← e']

/-- A positive multiple of a matrix with orthonormal columns is projected to that matrix. -/
theorem stieProj_scaled {r d : Nat} {Y : Matrix (Fin r) (Fin d) ℝ} (hY : OrthoCols Y) {c : ℝ}
    (hc : 0 < c) {o : SvdOut r d} (h : IsSvd (c • Y) o.U o.s o.V) : o.U * o.Vᵀ = Y := by
  have hM : (c • Y)ᵀ * (c • Y) = (c ^ 2) • (1 : Matrix (Fin d) (Fin d) ℝ) := by
    rw [Matrix.transpose_smul, Matrix.smul_mul, Matrix.mul_smul, hY, smul_smul, sq]
  have e := (h.scaled hc hM).2
  have := congrArg (fun X => c⁻¹ • X) e
  simpa [smul_smul, inv_mul_cancel₀ hc.ne'] using this.symm

end Dpgo
