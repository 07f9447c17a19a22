import Verif.Spec.Projection
import Mathlib.LinearAlgebra.Matrix.ToLinearEquiv
import Mathlib.Tactic.Linarith
import Mathlib.Tactic.Ring

/-! # Nearest orthonormal matrices: trace inequalities -/

namespace Dpgo.Spec

open Matrix

section Frob
variable {m n k : Nat}

theorem frob2_eq_trace (A : Matrix (Fin m) (Fin n) ℝ) : frob2 A = (Aᵀ * A).trace := by
  unfold frob2 Matrix.trace
  simp only [Matrix.diag_apply, Matrix.mul_apply, Matrix.transpose_apply]
  rw [Finset.sum_comm]
  simp only [sq]

theorem frob2_nonneg (A : Matrix (Fin m) (Fin n) ℝ) : 0 ≤ frob2 A :=
  Finset.sum_nonneg fun _ _ => Finset.sum_nonneg fun _ _ => sq_nonneg _

theorem frob2_eq_zero {A : Matrix (Fin m) (Fin n) ℝ} : frob2 A = 0 ↔ A = 0 := by
  constructor
  · intro h
    ext i j
    have h1 := (Finset.sum_eq_zero_iff_of_nonneg
      (fun i _ => Finset.sum_nonneg fun j _ => sq_nonneg (A i j))).1 h i (Finset.mem_univ i)
    have h2 := (Finset.sum_eq_zero_iff_of_nonneg (fun j _ => sq_nonneg (A i j))).1 h1 j
      (Finset.mem_univ j)
    exact pow_eq_zero_iff two_ne_zero |>.1 h2
  · rintro rfl
    simp [frob2]

/-- Expansion of the squared distance. -/
theorem frob2_sub (A B : Matrix (Fin m) (Fin n) ℝ) :
    frob2 (A - B) = frob2 A + frob2 B - 2 * (Aᵀ * B).trace := by
  have h : (Aᵀ * B).trace = (Bᵀ * A).trace := by
    rw [← Matrix.trace_transpose, Matrix.transpose_mul, Matrix.transpose_transpose]
  rw [frob2_eq_trace, frob2_eq_trace, frob2_eq_trace, Matrix.transpose_sub, Matrix.sub_mul,
    Matrix.mul_sub, Matrix.mul_sub, Matrix.trace_sub, Matrix.trace_sub, Matrix.trace_sub, ← h]
  ring

/-- Multiplying by orthonormal columns keeps the norm. -/
theorem frob2_ortho_mul {Q : Matrix (Fin k) (Fin m) ℝ} (hQ : OrthoCols Q)
    (A : Matrix (Fin m) (Fin n) ℝ) : frob2 (Q * A) = frob2 A := by
  rw [frob2_eq_trace, frob2_eq_trace, Matrix.transpose_mul, Matrix.mul_assoc,
    ← Matrix.mul_assoc Qᵀ, hQ, Matrix.one_mul]

theorem frob2_transpose (A : Matrix (Fin m) (Fin n) ℝ) : frob2 Aᵀ = frob2 A := by
  unfold frob2
  rw [Finset.sum_comm]
  rfl

theorem frob2_ortho {Q : Matrix (Fin m) (Fin n) ℝ} (hQ : OrthoCols Q) : frob2 Q = n := by
  rw [frob2_eq_trace, hQ, Matrix.trace_one, Fintype.card_fin]

end Frob

variable {r d : Nat}

theorem OrthoCols.comm {V : Matrix (Fin d) (Fin d) ℝ} (h : OrthoCols V) : V * Vᵀ = 1 :=
  mul_eq_one_comm.1 h

theorem OrthoCols.transpose {V : Matrix (Fin d) (Fin d) ℝ} (h : OrthoCols V) : OrthoCols Vᵀ := by
  unfold OrthoCols
  rw [Matrix.transpose_transpose]
  exact h.comm

theorem OrthoCols.mul {m n k : Nat} {A : Matrix (Fin m) (Fin n) ℝ} {B : Matrix (Fin n) (Fin k) ℝ}
    (hA : OrthoCols A) (hB : OrthoCols B) : OrthoCols (A * B) := by
  unfold OrthoCols
  rw [Matrix.transpose_mul, Matrix.mul_assoc, ← Matrix.mul_assoc Aᵀ, hA, Matrix.one_mul, hB]

theorem OrthoCols.det_sq {V : Matrix (Fin d) (Fin d) ℝ} (h : OrthoCols V) : V.det * V.det = 1 := by
  have := congrArg Matrix.det h
  rwa [Matrix.det_mul, Matrix.det_transpose, Matrix.det_one] at this

theorem OrthoCols.det_cases {V : Matrix (Fin d) (Fin d) ℝ} (h : OrthoCols V) :
    V.det = 1 ∨ V.det = -1 := mul_self_eq_one_iff.1 h.det_sq

theorem OrthoCols.col_sq {m n : Nat} {Q : Matrix (Fin m) (Fin n) ℝ} (h : OrthoCols Q) (j : Fin n) :
    ∑ i, Q i j ^ 2 = 1 := by
  have := congrFun (congrFun h j) j
  rw [Matrix.mul_apply, Matrix.one_apply_eq] at this
  simpa [sq] using this

/-- Entries of a matrix with orthonormal columns are at most 1. -/
theorem OrthoCols.entry_sq_le {m n : Nat} {Q : Matrix (Fin m) (Fin n) ℝ} (h : OrthoCols Q)
    (i : Fin m) (j : Fin n) : Q i j ^ 2 ≤ 1 := by
  rw [← h.col_sq j]
  exact Finset.single_le_sum (f := fun i => Q i j ^ 2) (fun i _ => sq_nonneg _) (Finset.mem_univ i)

theorem le_one_of_sq {x : ℝ} (h : x ^ 2 ≤ 1) : x ≤ 1 := by nlinarith [sq_nonneg (x - 1)]

/-- Diagonal entries of `Uᵀ Q V` for orthonormal columns: Cauchy–Schwarz. -/
theorem diag_le_one {m n : Nat} {P Q : Matrix (Fin m) (Fin n) ℝ} (hP : OrthoCols P)
    (hQ : OrthoCols Q) (i : Fin n) : (Pᵀ * Q) i i ≤ 1 := by
  have h1 := hP.col_sq i
  have h2 := hQ.col_sq i
  have h3 : 0 ≤ ∑ k, (P k i - Q k i) ^ 2 := Finset.sum_nonneg fun _ _ => sq_nonneg _
  have h4 : ∑ k, (P k i - Q k i) ^ 2 = ∑ k, P k i ^ 2 + ∑ k, Q k i ^ 2 - 2 * (Pᵀ * Q) i i := by
    rw [Matrix.mul_apply, Finset.mul_sum, ← Finset.sum_add_distrib, ← Finset.sum_sub_distrib]
    refine Finset.sum_congr rfl fun k _ => ?_
    rw [Matrix.transpose_apply]
    ring
  linarith

/-- The inner product with a matrix given by its SVD. -/
theorem IsSvd.inner {M U : Matrix (Fin r) (Fin d) ℝ} {s : Fin d → ℝ} {V : Matrix (Fin d) (Fin d) ℝ}
    (h : IsSvd M U s V) (Q : Matrix (Fin r) (Fin d) ℝ) :
    (Qᵀ * M).trace = ∑ i, s i * (Uᵀ * (Q * V)) i i := by
  have e : Vᵀ * (Qᵀ * (U * Matrix.diagonal s)) = (Uᵀ * (Q * V))ᵀ * Matrix.diagonal s := by
    rw [Matrix.transpose_mul, Matrix.transpose_mul, Matrix.transpose_transpose]
    simp only [Matrix.mul_assoc]
  rw [h.factor, ← Matrix.mul_assoc, Matrix.trace_mul_comm, e]
  unfold Matrix.trace
  refine Finset.sum_congr rfl fun i _ => ?_
  rw [Matrix.diag_apply, Matrix.mul_diagonal, Matrix.transpose_apply, mul_comm]

/-- The value of the inner product at the projection. -/
theorem IsSvd.inner_proj {M U : Matrix (Fin r) (Fin d) ℝ} {s : Fin d → ℝ}
    {V : Matrix (Fin d) (Fin d) ℝ} (h : IsSvd M U s V) : ((U * Vᵀ)ᵀ * M).trace = ∑ i, s i := by
  rw [h.inner]
  refine Finset.sum_congr rfl fun i _ => ?_
  rw [Matrix.mul_assoc, h.orthoV, Matrix.mul_one, h.orthoU, Matrix.one_apply_eq, mul_one]

theorem IsSvd.inner_le {M U : Matrix (Fin r) (Fin d) ℝ} {s : Fin d → ℝ}
    {V : Matrix (Fin d) (Fin d) ℝ} (h : IsSvd M U s V) {Q : Matrix (Fin r) (Fin d) ℝ}
    (hQ : OrthoCols Q) : (Qᵀ * M).trace ≤ ∑ i, s i := by
  rw [h.inner]
  refine Finset.sum_le_sum fun i _ => ?_
  have := diag_le_one h.orthoU (hQ.mul h.orthoV) i
  nlinarith [h.nonneg i]

/-- Comparing distances is comparing inner products. -/
theorem nearest_of_inner {M P Q : Matrix (Fin r) (Fin d) ℝ} (hP : OrthoCols P) (hQ : OrthoCols Q)
    (h : (Qᵀ * M).trace ≤ (Pᵀ * M).trace) : frob2 (P - M) ≤ frob2 (Q - M) := by
  rw [frob2_sub, frob2_sub, frob2_ortho hP, frob2_ortho hQ]
  linarith

/-- With positive singular values the nearest point is unique. -/
theorem IsSvd.unique {M U : Matrix (Fin r) (Fin d) ℝ} {s : Fin d → ℝ}
    {V : Matrix (Fin d) (Fin d) ℝ} (h : IsSvd M U s V) (hpos : ∀ i, 0 < s i)
    {Q : Matrix (Fin r) (Fin d) ℝ} (hQ : OrthoCols Q)
    (hle : frob2 (Q - M) ≤ frob2 (U * Vᵀ - M)) : Q = U * Vᵀ := by
  have hP : OrthoCols (U * Vᵀ) := h.orthoU.mul h.orthoV.transpose
  have hin : ∑ i, s i ≤ (Qᵀ * M).trace := by
    rw [← h.inner_proj]
    rw [frob2_sub, frob2_sub, frob2_ortho hP, frob2_ortho hQ] at hle
    linarith
  have hd : ∀ i, (Uᵀ * (Q * V)) i i = 1 := by
    intro i
    by_contra hne
    have hlt : (Uᵀ * (Q * V)) i i < 1 :=
      lt_of_le_of_ne (diag_le_one h.orthoU (hQ.mul h.orthoV) i) hne
    have : (Qᵀ * M).trace < ∑ i, s i := by
      rw [h.inner]
      refine Finset.sum_lt_sum (fun j _ => ?_) ⟨i, Finset.mem_univ i, ?_⟩
      · have := diag_le_one h.orthoU (hQ.mul h.orthoV) j
        nlinarith [h.nonneg j]
      · nlinarith [hpos i]
    linarith
  have hz : frob2 (U - Q * V) = 0 := by
    rw [frob2_sub, frob2_ortho h.orthoU, frob2_ortho (hQ.mul h.orthoV)]
    have : (Uᵀ * (Q * V)).trace = d := by
      unfold Matrix.trace
      simp only [Matrix.diag_apply, hd, Finset.sum_const, Finset.card_univ, Fintype.card_fin,
        nsmul_eq_mul, mul_one]
    rw [this]
    ring
  have hU := sub_eq_zero.1 (frob2_eq_zero.1 hz)
  rw [hU, Matrix.mul_assoc, h.orthoV.comm, Matrix.mul_one]

/-- A positive multiple of a matrix with orthonormal columns: all singular values agree and the
projection gives the matrix back. -/
theorem IsSvd.scaled {M U : Matrix (Fin r) (Fin d) ℝ} {s : Fin d → ℝ}
    {V : Matrix (Fin d) (Fin d) ℝ} (h : IsSvd M U s V) {c : ℝ} (hc : 0 < c)
    (hM : Mᵀ * M = (c ^ 2) • (1 : Matrix (Fin d) (Fin d) ℝ)) : (∀ i, s i = c) ∧ M = c • (U * Vᵀ) := by
  have h1 : Vᵀ * (Mᵀ * M) * V = Matrix.diagonal fun i => s i * s i := by
    have e : Mᵀ * M = V * (Matrix.diagonal s * Matrix.diagonal s) * Vᵀ := by
      rw [h.factor, Matrix.transpose_mul, Matrix.transpose_mul, Matrix.transpose_transpose,
        Matrix.diagonal_transpose]
      calc V * (Matrix.diagonal s * Uᵀ) * (U * Matrix.diagonal s * Vᵀ)
          = V * (Matrix.diagonal s * (Uᵀ * U) * Matrix.diagonal s) * Vᵀ := by
            simp only [Matrix.mul_assoc]
        _ = _ := by rw [h.orthoU, Matrix.mul_one]
    rw [e, Matrix.diagonal_mul_diagonal]
    calc Vᵀ * (V * (Matrix.diagonal fun i => s i * s i) * Vᵀ) * V
        = (Vᵀ * V) * (Matrix.diagonal fun i => s i * s i) * (Vᵀ * V) := by
          simp only [Matrix.mul_assoc]
      _ = _ := by rw [h.orthoV, Matrix.mul_one, Matrix.one_mul]
  have hs : ∀ i, s i = c := by
    intro i
    have := congrFun (congrFun h1 i) i
    rw [hM, Matrix.mul_smul, Matrix.mul_one, Matrix.smul_mul, h.orthoV, Matrix.smul_apply,
      Matrix.one_apply_eq, Matrix.diagonal_apply_eq, smul_eq_mul, mul_one] at this
    have hs0 := h.nonneg i
    nlinarith [mul_self_nonneg (s i - c)]
  refine ⟨hs, ?_⟩
  have hsc : s = fun _ => c := funext hs
  rw [h.factor, hsc]
  have : (Matrix.diagonal fun _ : Fin d => c) = c • (1 : Matrix (Fin d) (Fin d) ℝ) := by
    rw [Matrix.smul_one_eq_diagonal]
  rw [this, Matrix.mul_smul, Matrix.mul_one, Matrix.smul_mul]

/-! ### Orthogonal matrices of determinant -1 -/

/-- An orthogonal matrix of determinant `-1` has `-1` as an eigenvalue. -/
theorem exists_neg_eigen {Z : Matrix (Fin d) (Fin d) ℝ} (h : OrthoCols Z) (hdet : Z.det = -1) :
    ∃ v, v ≠ 0 ∧ Z *ᵥ v = -v := by
  have h0 : (1 + Z).det = 0 := by
    have e : 1 + Z = Z * (1 + Zᵀ) := by
      rw [Matrix.mul_add, Matrix.mul_one, h.comm, add_comm]
    have e2 : (1 + Zᵀ).det = (1 + Z).det := by
      rw [← Matrix.det_transpose, Matrix.transpose_add, Matrix.transpose_transpose,
        Matrix.transpose_one]
    have := congrArg Matrix.det e
    rw [Matrix.det_mul, e2, hdet] at this
    linarith
  obtain ⟨v, hv, e⟩ := Matrix.exists_mulVec_eq_zero_iff.2 h0
  refine ⟨v, hv, ?_⟩
  rw [Matrix.add_mulVec, Matrix.one_mulVec] at e
  rw [eq_neg_iff_add_eq_zero, add_comm]
  exact e

/-- The trace of an orthogonal matrix of determinant `-1` is at most `d - 2`. -/
theorem trace_le_of_det_neg {Z : Matrix (Fin d) (Fin d) ℝ} (h : OrthoCols Z) (hdet : Z.det = -1) :
    Z.trace ≤ d - 2 := by
  obtain ⟨v, hv, e⟩ := exists_neg_eigen h hdet
  have hq : 0 < v ⬝ᵥ v := by
    rcases lt_or_eq_of_le (show 0 ≤ v ⬝ᵥ v from Finset.sum_nonneg fun i _ => mul_self_nonneg _) with
      h | h
    · exact h
    · refine absurd (funext fun i => ?_) hv
      have := (Finset.sum_eq_zero_iff_of_nonneg (fun i _ => mul_self_nonneg (v i))).1 h.symm i
        (Finset.mem_univ i)
      exact mul_self_eq_zero.1 this
  set q := v ⬝ᵥ v
  let W : Matrix (Fin d) (Fin d) ℝ := Matrix.vecMulVec v v
  have hWt : Wᵀ = W := by
    ext i j; simp only [W, Matrix.transpose_apply, Matrix.vecMulVec_apply, mul_comm]
  have hWW : W * W = q • W := by
    ext i j
    simp only [W, Matrix.mul_apply, Matrix.vecMulVec_apply, Matrix.smul_apply, smul_eq_mul]
    simp only [q, dotProduct, Finset.sum_mul]
    exact Finset.sum_congr rfl fun k _ => by ring
  have hZW : Z * W = -W := by
    ext i j
    have := congrFun e i
    simp only [W, Matrix.mul_apply, Matrix.vecMulVec_apply, Matrix.neg_apply]
    simp only [Matrix.mulVec, dotProduct, Pi.neg_apply] at this
    rw [← neg_mul, ← this, Finset.sum_mul]
    exact Finset.sum_congr rfl fun k _ => by ring
  have htW : W.trace = q := by
    simp only [W, Matrix.trace, Matrix.diag_apply, Matrix.vecMulVec_apply, q, dotProduct]
  let H : Matrix (Fin d) (Fin d) ℝ := 1 - (2 / q) • W
  have hH : OrthoCols H := by
    unfold OrthoCols
    have ht : Hᵀ = H := by
      simp only [H, Matrix.transpose_sub, Matrix.transpose_one, Matrix.transpose_smul, hWt]
    rw [ht]
    simp only [H, Matrix.sub_mul, Matrix.mul_sub, Matrix.one_mul, Matrix.mul_one, Matrix.smul_mul,
      Matrix.mul_smul, hWW, smul_smul]
    have : 2 / q * q = 2 := by field_simp
    rw [this, two_smul]
    simp
  have hZH : Z * H = Z + (2 / q) • W := by
    simp only [H, Matrix.mul_sub, Matrix.mul_one, Matrix.mul_smul, hZW, smul_neg, sub_neg_eq_add]
  have h1 : (Z * H).trace ≤ d := by
    have ho : OrthoCols (Z * H) := h.mul hH
    calc (Z * H).trace ≤ ∑ _i : Fin d, (1 : ℝ) :=
          Finset.sum_le_sum fun i _ => le_one_of_sq (ho.entry_sq_le i i)
      _ = d := by simp
  rw [hZH, Matrix.trace_add, Matrix.trace_smul, htW, smul_eq_mul, div_mul_cancel₀ _ hq.ne'] at h1
  linarith

/-- Weighted trace bound for determinant `-1`. -/
theorem weighted_trace_le {Z : Matrix (Fin d) (Fin d) ℝ} (h : OrthoCols Z) (hdet : Z.det = -1)
    {s : Fin d → ℝ} {l : Fin d} (h0 : 0 ≤ s l) (hl : ∀ i, s l ≤ s i) :
    ∑ i, s i * Z i i ≤ ∑ i, s i - 2 * s l := by
  have h1 : ∑ i, s i * Z i i = s l * Z.trace + ∑ i, (s i - s l) * Z i i := by
    rw [Matrix.trace, Finset.mul_sum, ← Finset.sum_add_distrib]
    exact Finset.sum_congr rfl fun i _ => by rw [Matrix.diag_apply]; ring
  have h2 : ∑ i, (s i - s l) * Z i i ≤ ∑ i, (s i - s l) := by
    refine Finset.sum_le_sum fun i _ => ?_
    have := le_one_of_sq (h.entry_sq_le i i)
    nlinarith [hl i]
  have h3 : ∑ i, (s i - s l) = ∑ i, s i - d * s l := by
    rw [Finset.sum_sub_distrib]; simp
  have h4 := trace_le_of_det_neg h hdet
  rw [h1]
  nlinarith

end Dpgo.Spec
