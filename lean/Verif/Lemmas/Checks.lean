import Verif.Model.Checks
import Verif.Spec.OdometryRound
import Verif.Lemmas.Averaging
import Verif.Lemmas.Poses
import Verif.Lemmas.Svd

/-! # Lemmas on the warnings about matrices that are not orthonormal -/

namespace Dpgo

open Res Spec Matrix

variable {r d : Nat}

theorem fro_frob2 {m n : Nat} (A : Matrix (Fin m) (Fin n) ℝ) : fro A = √(frob2 A) := rfl

theorem orthoErr_eq {Y : DMat ℝ} (h : Y.rows = r ∧ Y.cols = d) :
    orthoErr Y = fro ((Y.toMat r d)ᵀ * Y.toMat r d - 1) := by
  unfold orthoErr PArr.norm
  rw [DMat.normSq_frob (A := (Y.tr.mul Y).sub (DMat.one Y.cols Y.cols)) (m := d) (n := d) ⟨h.2, h.2⟩,
    DMat.toMat_sub, DMat.toMat_mul (k := r) h.1, DMat.toMat_tr, h.2, DMat.toMat_one, fro_frob2]

section

variable {M U : Matrix (Fin r) (Fin d) ℝ} {s : Fin d → ℝ} {V : Matrix (Fin d) (Fin d) ℝ}

theorem frob2_diagonal (s : Fin d → ℝ) : frob2 (Matrix.diagonal s) = ∑ i, s i ^ 2 := by
  unfold frob2
  refine Finset.sum_congr rfl fun i _ => ?_
  rw [Finset.sum_eq_single i (fun j _ hj => by rw [Matrix.diagonal_apply_ne _ hj.symm]; norm_num) (by simp)]
  rw [Matrix.diagonal_apply_eq]

theorem frob2_mul_ortho {m : Nat} (A : Matrix (Fin m) (Fin d) ℝ) (hV : OrthoCols V) : frob2 (A * Vᵀ) = frob2 A := by
  rw [← frob2_transpose, Matrix.transpose_mul, Matrix.transpose_transpose, frob2_ortho_mul hV, frob2_transpose]

/-- How far the columns are from orthonormal, by the singular values. -/
theorem svd_gram (h : IsSvd M U s V) : frob2 (Mᵀ * M - 1) = ∑ i, (s i ^ 2 - 1) ^ 2 := by
  have e : Mᵀ * M - 1 = V * Matrix.diagonal (fun i => s i ^ 2 - 1) * Vᵀ := by
    have e2 : Matrix.diagonal (fun i => s i ^ 2 - 1) = Matrix.diagonal s * Matrix.diagonal s - 1 := by
      rw [Matrix.diagonal_mul_diagonal, ← Matrix.diagonal_one, Matrix.diagonal_sub]
      congr 1
      ext i
      ring
    rw [e2, Matrix.mul_sub, Matrix.sub_mul, Matrix.mul_one, h.orthoV.comm, h.factor, Matrix.transpose_mul,
      Matrix.transpose_mul, Matrix.transpose_transpose, Matrix.diagonal_transpose]
    congr 1
    calc V * (Matrix.diagonal s * Uᵀ) * (U * Matrix.diagonal s * Vᵀ)
        = V * (Matrix.diagonal s * (Uᵀ * U) * Matrix.diagonal s) * Vᵀ := by
          simp only [Matrix.mul_assoc]
      _ = _ := by rw [h.orthoU, Matrix.mul_one]
  rw [e, frob2_mul_ortho _ h.orthoV, frob2_ortho_mul h.orthoV, frob2_diagonal]

/-- The distance to the polar factor, by the singular values. -/
theorem svd_polar (h : IsSvd M U s V) : frob2 (M - U * Vᵀ) = ∑ i, (s i - 1) ^ 2 := by
  have e : M - U * Vᵀ = U * (Matrix.diagonal (fun i => s i - 1) * Vᵀ) := by
    have e2 : Matrix.diagonal (fun i => s i - 1) = Matrix.diagonal s - 1 := by
      rw [← Matrix.diagonal_one, Matrix.diagonal_sub]
    rw [e2, Matrix.sub_mul, Matrix.mul_sub, Matrix.one_mul, h.factor, Matrix.mul_assoc]
  rw [e, frob2_ortho_mul h.orthoU, frob2_mul_ortho _ h.orthoV, frob2_diagonal]

/-- No matrix with orthonormal columns is nearer than the polar factor. -/
theorem svd_near (h : IsSvd M U s V) {Q : Matrix (Fin r) (Fin d) ℝ} (hQ : OrthoCols Q) :
    frob2 (M - U * Vᵀ) ≤ frob2 (M - Q) := by
  have h1 := h.inner_le hQ
  have h2 := h.inner_proj
  have t : ∀ A : Matrix (Fin r) (Fin d) ℝ, (Mᵀ * A).trace = (Aᵀ * M).trace := fun A => by
    rw [← Matrix.trace_transpose, Matrix.transpose_mul, Matrix.transpose_transpose]
  rw [frob2_sub, frob2_sub, frob2_ortho hQ, frob2_ortho (h.orthoU.mul h.orthoV.transpose), t, t]
  linarith

theorem polar_le_gram (h : IsSvd M U s V) : frob2 (M - U * Vᵀ) ≤ frob2 (Mᵀ * M - 1) := by
  rw [svd_polar h, svd_gram h]
  refine Finset.sum_le_sum fun i _ => ?_
  have e : (s i ^ 2 - 1) ^ 2 = (s i - 1) ^ 2 * (s i + 1) ^ 2 := by ring
  rw [e]
  have : 1 ≤ (s i + 1) ^ 2 := by nlinarith [h.nonneg i]
  nlinarith [sq_nonneg (s i - 1)]

theorem singular_near (h : IsSvd M U s V) {ε : ℝ} (hε : 0 ≤ ε) (hn : frob2 (M - U * Vᵀ) ≤ ε ^ 2) (i : Fin d) :
    |s i - 1| ≤ ε := by
  rw [svd_polar h] at hn
  refine abs_le_of_sq_le_sq ?_ hε
  exact (Finset.single_le_sum (f := fun i => (s i - 1) ^ 2) (fun i _ => sq_nonneg _) (Finset.mem_univ i)).trans hn

theorem gram_le_polar (h : IsSvd M U s V) {ε : ℝ} (hε : 0 ≤ ε) (hn : frob2 (M - U * Vᵀ) ≤ ε ^ 2) :
    frob2 (Mᵀ * M - 1) ≤ (ε * (2 + ε)) ^ 2 := by
  have hs := singular_near h hε hn
  rw [svd_polar h] at hn
  rw [svd_gram h]
  calc ∑ i, (s i ^ 2 - 1) ^ 2 ≤ ∑ i, (s i - 1) ^ 2 * (2 + ε) ^ 2 := by
        refine Finset.sum_le_sum fun i _ => ?_
        have e : (s i ^ 2 - 1) ^ 2 = (s i - 1) ^ 2 * (s i + 1) ^ 2 := by ring
        rw [e]
        refine mul_le_mul_of_nonneg_left ?_ (sq_nonneg _)
        have := (abs_le.1 (hs i)).2
        exact pow_le_pow_left₀ (by linarith [h.nonneg i]) (by linarith) 2
    _ = (∑ i, (s i - 1) ^ 2) * (2 + ε) ^ 2 := by rw [Finset.sum_mul]
    _ ≤ ε ^ 2 * (2 + ε) ^ 2 := mul_le_mul_of_nonneg_right hn (sq_nonneg _)
    _ = _ := by ring

end

theorem fro_le_iff {m n : Nat} (A : Matrix (Fin m) (Fin n) ℝ) {ε : ℝ} (hε : 0 ≤ ε) :
    fro A ≤ ε ↔ frob2 A ≤ ε ^ 2 := by
  rw [fro_frob2, Real.sqrt_le_left hε]

section

variable {M U : Matrix (Fin d) (Fin d) ℝ} {s : Fin d → ℝ} {V : Matrix (Fin d) (Fin d) ℝ}

theorem svd_det (h : IsSvd M U s V) : M.det = (U * Vᵀ).det * ∏ i, s i := by
  rw [h.factor, Matrix.det_mul, Matrix.det_mul, Matrix.det_mul, Matrix.det_diagonal]
  ring

/-- Orthogonal matrices of opposite determinants are far apart. -/
theorem opposite_far {P Q : Matrix (Fin d) (Fin d) ℝ} (hP : OrthoCols P) (hQ : OrthoCols Q) (h1 : P.det = -1)
    (h2 : Q.det = 1) : 4 ≤ frob2 (Q - P) := by
  have hz : OrthoCols (Qᵀ * P) := hQ.transpose.mul hP
  have := trace_le_of_det_neg hz (by rw [Matrix.det_mul, Matrix.det_transpose, h1, h2]; norm_num)
  rw [frob2_sub, frob2_ortho hQ, frob2_ortho hP]
  linarith

theorem frob2_tri {m n : Nat} (A B : Matrix (Fin m) (Fin n) ℝ) : frob2 (A - B) ≤ 2 * frob2 A + 2 * frob2 B := by
  unfold frob2
  rw [Finset.mul_sum, Finset.mul_sum, ← Finset.sum_add_distrib]
  refine Finset.sum_le_sum fun i _ => ?_
  rw [Finset.mul_sum, Finset.mul_sum, ← Finset.sum_add_distrib]
  refine Finset.sum_le_sum fun j _ => ?_
  rw [Matrix.sub_apply]
  nlinarith [sq_nonneg (A i j + B i j)]

/-- The determinant of a matrix near a rotation. -/
theorem det_near_rot (h : IsSvd M U s V) {Q : Matrix (Fin d) (Fin d) ℝ} (hQ : IsRot Q) {ε : ℝ} (h0 : 0 ≤ ε)
    (h1 : ε < 1) (hn : frob2 (M - Q) ≤ ε ^ 2) : (1 - ε) ^ d ≤ M.det ∧ M.det ≤ (1 + ε) ^ d := by
  have hp : OrthoCols (U * Vᵀ) := h.orthoU.mul h.orthoV.transpose
  have hnp := (svd_near h hQ.1).trans hn
  have hdet : (U * Vᵀ).det = 1 := by
    rcases hp.det_cases with e | e
    · exact e
    · exfalso
      have h4 := opposite_far hp hQ.1 e hQ.2
      have h5 := frob2_tri (M - U * Vᵀ) (M - Q)
      rw [sub_sub_sub_cancel_left] at h5
      nlinarith
  have hs := singular_near h h0 hnp
  rw [svd_det h, hdet, one_mul]
  constructor
  · calc (1 - ε) ^ d = ∏ _i : Fin d, (1 - ε) := by simp
      _ ≤ _ := Finset.prod_le_prod (fun i _ => by linarith) fun i _ => by linarith [(abs_le.1 (hs i)).1]
  · calc ∏ i, s i ≤ ∏ _i : Fin d, (1 + ε) :=
          Finset.prod_le_prod (fun i _ => h.nonneg i) fun i _ => by linarith [(abs_le.1 (hs i)).2]
      _ = _ := by simp

end

open Classical in
theorem rotationWarning_eq {R : DMat ℝ} (h : R.cols = R.rows) :
    rotationWarning R = ok (decide (orthoTol < |R.det - 1| ∨ orthoTol < orthoErr R)) := by
  unfold rotationWarning checkRotationMatrix
  rw [h, beq_self_eq_true]
  rfl

theorem stiefel_silent {Y : DMat ℝ} : stiefelWarning Y = false ↔ orthoErr Y ≤ orthoTol := by
  simp [stiefelWarning]

theorem checkData_eq {n : Nat} {P : PArr ℝ} (h : ArrOk r d n P) :
    P.checkData = ok ((List.range n).filter fun i =>
      stiefelWarning ((P.X.block 0 (i * (d + 1)) r (d + 1)).block 0 0 r d)) := by
  unfold PArr.checkData
  rw [h.2.2.1]
  have key : ∀ (l : List Nat) (w : List Nat), (∀ i ∈ l, i < n) → Res.foldl (fun w i => do
      let Y ← P.rotationAt i
      ok (if stiefelWarning Y then w ++ [i] else w)) w l = ok (w ++ l.filter fun i =>
        stiefelWarning ((P.X.block 0 (i * (d + 1)) r (d + 1)).block 0 0 r d)) := by
    intro l
    induction l with
    | nil => intro w _; simp
    | cons i l ih =>
      intro w hl
      rw [Res.foldl_cons, PArr.rotationAt_ok h (hl i (by simp))]
      simp only [Res.ok_bind, Res.ok_bind']
      rw [ih _ fun j hj => hl j (by simp [hj]), List.filter_cons]
      split_ifs <;> simp
  rw [key _ _ fun i hi => List.mem_range.1 hi, List.nil_append]

end Dpgo
