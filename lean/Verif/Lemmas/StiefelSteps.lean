import Verif.Lemmas.AsyncStep
import Mathlib.LinearAlgebra.Matrix.Rank

/-! # Gradient steps on the manifold of poses -/

namespace Dpgo

open Res Spec Finset Matrix

noncomputable section

/-! ### One rotation -/

section
variable {r d : Nat}

theorem OrthoCols.le {R : Matrix (Fin r) (Fin d) ℝ} (h : OrthoCols R) : d ≤ r := by
  have h1 : (Rᵀ * R).rank ≤ R.rank := Matrix.rank_mul_le_right _ _
  rw [h, Matrix.rank_one, Fintype.card_fin] at h1
  have h2 := Matrix.rank_le_card_height R
  rw [Fintype.card_fin] at h2
  exact h1.trans h2

theorem trace_inner_comm (A B : Matrix (Fin r) (Fin d) ℝ) : (Aᵀ * B).trace = (Bᵀ * A).trace := by
  rw [← Matrix.trace_transpose, Matrix.transpose_mul, Matrix.transpose_transpose]

/-- The projection of directions at `R`. -/
def tang (R A : Matrix (Fin r) (Fin d) ℝ) : Matrix (Fin r) (Fin d) ℝ := A - R * ((1 / 2 : ℝ) • (Rᵀ * A + Aᵀ * R))

/-- Projected directions are tangent. -/
theorem tang_skew {R : Matrix (Fin r) (Fin d) ℝ} (h : OrthoCols R) (A : Matrix (Fin r) (Fin d) ℝ) :
    Rᵀ * tang R A + (tang R A)ᵀ * R = 0 := by
  have e : Rᵀ * tang R A = Rᵀ * A - (1 / 2 : ℝ) • (Rᵀ * A + Aᵀ * R) := by
    unfold tang
    rw [Matrix.mul_sub, ← Matrix.mul_assoc, h, Matrix.one_mul]
  have e' : (tang R A)ᵀ * R = (Rᵀ * tang R A)ᵀ := by
    rw [Matrix.transpose_mul, Matrix.transpose_transpose]
  rw [e', e]
  simp only [Matrix.transpose_sub, Matrix.transpose_smul, Matrix.transpose_add, Matrix.transpose_mul,
    Matrix.transpose_transpose]
  ext i j
  simp only [Matrix.add_apply, Matrix.sub_apply, Matrix.smul_apply, Matrix.zero_apply, smul_eq_mul]
  ring

/-- The projection is orthogonal. -/
theorem tang_orthogonal {R : Matrix (Fin r) (Fin d) ℝ} (h : OrthoCols R) (A U : Matrix (Fin r) (Fin d) ℝ) :
    (Uᵀ * tang R A).trace = ((tang R U)ᵀ * tang R A).trace := by
  have hs := tang_skew h A
  generalize tang R A = T at hs
  have e : (tang R U)ᵀ * T = Uᵀ * T - ((1 / 2 : ℝ) • (Rᵀ * U + Uᵀ * R)) * (Rᵀ * T) := by
    unfold tang
    rw [Matrix.transpose_sub, Matrix.sub_mul, Matrix.transpose_mul, Matrix.transpose_smul, Matrix.transpose_add,
      Matrix.transpose_mul, Matrix.transpose_mul, Matrix.transpose_transpose, Matrix.transpose_transpose,
      Matrix.mul_assoc, add_comm (Uᵀ * R) (Rᵀ * U)]
  rw [e, Matrix.trace_sub]
  have hz : (((1 / 2 : ℝ) • (Rᵀ * U + Uᵀ * R)) * (Rᵀ * T)).trace = 0 := by
    have hS : ((1 / 2 : ℝ) • (Rᵀ * U + Uᵀ * R))ᵀ = (1 / 2 : ℝ) • (Rᵀ * U + Uᵀ * R) := by
      simp only [Matrix.transpose_smul, Matrix.transpose_add, Matrix.transpose_mul, Matrix.transpose_transpose]
      rw [add_comm]
    have hK : (Rᵀ * T)ᵀ = -(Rᵀ * T) := by
      rw [Matrix.transpose_mul, Matrix.transpose_transpose]
      exact eq_neg_of_add_eq_zero_right hs
    generalize ((1 / 2 : ℝ) • (Rᵀ * U + Uᵀ * R)) = S at hS
    generalize Rᵀ * T = K at hK
    have : (S * K).trace = -(S * K).trace := by
      conv_lhs => rw [← Matrix.trace_transpose, Matrix.transpose_mul, hS, hK, Matrix.neg_mul, Matrix.trace_neg,
        Matrix.trace_mul_comm]
    linarith
  rw [hz, sub_zero]

/-- The nearest matrix with orthonormal columns is close to a tangent step. -/
theorem polar_second {svd : SvdOracle} (hsvd : LawfulSvd svd) {R T : Matrix (Fin r) (Fin d) ℝ} (h : OrthoCols R)
    (hT : Rᵀ * T + Tᵀ * R = 0) :
    OrthoCols ((svd r d (R + T)).U * (svd r d (R + T)).Vᵀ) ∧
    frob2 ((svd r d (R + T)).U * (svd r d (R + T)).Vᵀ - (R + T)) ≤ (1 / 2 * frob2 T) ^ 2 ∧
    frob2 ((svd r d (R + T)).U * (svd r d (R + T)).Vᵀ - (R + T)) ≤ frob2 T := by
  have hs : IsSvd _ _ _ _ := hsvd r d (R + T) (OrthoCols.le h)
  generalize (svd r d (R + T)).U = U at *
  generalize (svd r d (R + T)).V = V at *
  generalize (svd r d (R + T)).s = σ at *
  have hP : OrthoCols (U * Vᵀ) := hs.orthoU.mul hs.orthoV.transpose
  refine ⟨hP, ?_, ?_⟩
  · have hM : (R + T)ᵀ * (R + T) = 1 + Tᵀ * T := by
      rw [Matrix.transpose_add, Matrix.add_mul, Matrix.mul_add, Matrix.mul_add, h,
        show (1 : Matrix (Fin d) (Fin d) ℝ) + Rᵀ * T + (Tᵀ * R + Tᵀ * T) = 1 + (Rᵀ * T + Tᵀ * R) + Tᵀ * T by abel, hT,
        add_zero]
    have hd : Vᵀ * ((R + T)ᵀ * (R + T)) * V = Matrix.diagonal fun i => σ i * σ i := by
      rw [hs.factor]
      have : Vᵀ * ((U * Matrix.diagonal σ * Vᵀ)ᵀ * (U * Matrix.diagonal σ * Vᵀ)) * V =
          (Vᵀ * V) * Matrix.diagonal σ * (Uᵀ * U) * Matrix.diagonal σ * (Vᵀ * V) := by
        simp only [Matrix.transpose_mul, Matrix.transpose_transpose, Matrix.diagonal_transpose, Matrix.mul_assoc]
      rw [this, hs.orthoV, hs.orthoU, Matrix.one_mul, Matrix.mul_one, Matrix.mul_one, Matrix.diagonal_mul_diagonal]
    have hd2 : Vᵀ * ((R + T)ᵀ * (R + T)) * V = 1 + (T * V)ᵀ * (T * V) := by
      rw [hM, Matrix.mul_add, Matrix.mul_one, Matrix.add_mul, hs.orthoV, Matrix.transpose_mul]
      simp only [Matrix.mul_assoc]
    have hlam : ∀ i, σ i * σ i = 1 + ∑ ρ, (T * V) ρ i ^ 2 := by
      intro i
      have := congrFun (congrFun (hd.symm.trans hd2) i) i
      rw [Matrix.diagonal_apply_eq, Matrix.add_apply, Matrix.one_apply_eq, Matrix.mul_apply] at this
      rw [this]
      congr 1
      refine sum_congr rfl fun ρ _ => ?_
      rw [Matrix.transpose_apply, sq]
    have hsum : ∑ i, ∑ ρ, (T * V) ρ i ^ 2 = frob2 T := by
      rw [sum_comm]
      show frob2 (T * V) = frob2 T
      rw [← frob2_transpose, Matrix.transpose_mul, frob2_ortho_mul hs.orthoV.transpose, frob2_transpose]
    have hval : frob2 (U * Vᵀ - (R + T)) = ∑ i, (σ i - 1) ^ 2 := by
      have e : U * Vᵀ - (R + T) = U * (Matrix.diagonal (fun i => 1 - σ i) * Vᵀ) := by
        rw [hs.factor, Matrix.mul_assoc U, ← Matrix.mul_sub, ← Matrix.diagonal_sub, Matrix.sub_mul, Matrix.diagonal_one,
          Matrix.one_mul]
      rw [e, frob2_ortho_mul hs.orthoU, ← frob2_transpose, Matrix.transpose_mul, Matrix.transpose_transpose,
        Matrix.diagonal_transpose, frob2_ortho_mul hs.orthoV]
      unfold frob2
      refine sum_congr rfl fun i _ => ?_
      rw [sum_eq_single_of_mem i (mem_univ i) fun j _ hj => by
        rw [Matrix.diagonal_apply_ne _ (Ne.symm hj)]; norm_num]
      rw [Matrix.diagonal_apply_eq]
      ring
    rw [hval]
    have hle : ∀ i, 0 ≤ σ i - 1 ∧ σ i - 1 ≤ 1 / 2 * ∑ ρ, (T * V) ρ i ^ 2 := by
      intro i
      have h0 : 0 ≤ ∑ ρ, (T * V) ρ i ^ 2 := sum_nonneg fun _ _ => sq_nonneg _
      have h1 := hlam i
      have h2 := hs.nonneg i
      constructor <;> nlinarith
    calc ∑ i, (σ i - 1) ^ 2 ≤ (∑ i, (σ i - 1)) ^ 2 := sum_sq_le_sq_sum_of_nonneg fun i _ => (hle i).1
      _ ≤ (1 / 2 * frob2 T) ^ 2 := by
        refine pow_le_pow_left₀ (sum_nonneg fun i _ => (hle i).1) ?_ 2
        rw [← hsum, mul_sum]
        exact sum_le_sum fun i _ => (hle i).2
  · have := nearest_of_inner hP h (by rw [hs.inner_proj]; exact hs.inner_le h)
    refine this.trans (le_of_eq ?_)
    rw [show R - (R + T) = -T by abel]
    unfold frob2
    simp

end

/-! ### Poses -/

section
variable {r d n : Nat}

/-- Sum of products of the entries. -/
def poseDot (A B : Matrix (Fin r) (Fin (d + 1)) ℝ) : ℝ := ∑ ρ, ∑ c, A ρ c * B ρ c

theorem rotPart_mkPose (R : Matrix (Fin r) (Fin d) ℝ) (t : Fin r → ℝ) : rotPart (mkPose R t) = R := by
  ext ρ c
  simp [rotPart, mkPose]

theorem mkPose_last (R : Matrix (Fin r) (Fin d) ℝ) (t : Fin r → ℝ) (ρ : Fin r) : mkPose R t ρ (Fin.last d) = t ρ := by
  simp [mkPose]

theorem poseDot_parts (A B : Matrix (Fin r) (Fin (d + 1)) ℝ) :
    poseDot A B = ((rotPart A)ᵀ * rotPart B).trace + ∑ ρ, A ρ (Fin.last d) * B ρ (Fin.last d) := by
  unfold poseDot Matrix.trace
  simp only [Fin.sum_univ_castSucc, sum_add_distrib, Matrix.diag_apply, Matrix.mul_apply, Matrix.transpose_apply]
  rw [sum_comm]
  rfl

theorem poseDot_self (A : Matrix (Fin r) (Fin (d + 1)) ℝ) :
    poseDot A A = frob2 (rotPart A) + ∑ ρ, A ρ (Fin.last d) ^ 2 := by
  rw [poseDot_parts, frob2_eq_trace]
  simp only [sq]

theorem tangent_rot (Y V : Matrix (Fin r) (Fin (d + 1)) ℝ) : rotPart (tangent r d Y V) = tang (rotPart Y) (rotPart V) :=
  rotPart_mkPose _ _

theorem tangent_orthogonal {Y : Matrix (Fin r) (Fin (d + 1)) ℝ} (h : OrthoCols (rotPart Y))
    (U V : Matrix (Fin r) (Fin (d + 1)) ℝ) :
    poseDot U (tangent r d Y V) = poseDot (tangent r d Y U) (tangent r d Y V) := by
  rw [poseDot_parts, poseDot_parts, tangent_rot, tangent_rot, tang_orthogonal h]
  congr 1
  refine sum_congr rfl fun ρ _ => ?_
  rw [show tangent r d Y U ρ (Fin.last d) = U ρ (Fin.last d) from mkPose_last _ _ _]

/-- A tangent step from a pose. -/
theorem polar_pose {svd : SvdOracle} (hsvd : LawfulSvd svd) {Y : Matrix (Fin r) (Fin (d + 1)) ℝ}
    (h : OrthoCols (rotPart Y)) (V : Matrix (Fin r) (Fin (d + 1)) ℝ) (s : ℝ) :
    poseDot (polar svd Y (s • tangent r d Y V) - Y - s • tangent r d Y V)
        (polar svd Y (s • tangent r d Y V) - Y - s • tangent r d Y V) ≤
      (1 / 2 * poseDot (s • tangent r d Y V) (s • tangent r d Y V)) ^ 2 ∧
    poseDot (polar svd Y (s • tangent r d Y V) - Y) (polar svd Y (s • tangent r d Y V) - Y) ≤
      4 * poseDot (s • tangent r d Y V) (s • tangent r d Y V) := by
  have hsk := tang_skew h (rotPart V)
  have hr : rotPart (s • tangent r d Y V) = s • tang (rotPart Y) (rotPart V) := by
    rw [← tangent_rot]
    rfl
  have hsk' : (rotPart Y)ᵀ * rotPart (s • tangent r d Y V) + (rotPart (s • tangent r d Y V))ᵀ * rotPart Y = 0 := by
    rw [hr, Matrix.mul_smul, Matrix.transpose_smul, Matrix.smul_mul, ← smul_add, hsk, smul_zero]
  obtain ⟨-, h2, h3⟩ := polar_second hsvd h hsk'
  generalize s • tangent r d Y V = T at *
  clear hr hsk
  have e1 : rotPart (polar svd Y T) = (svd r d (rotPart Y + rotPart T)).U * (svd r d (rotPart Y + rotPart T)).Vᵀ :=
    rotPart_mkPose _ _
  rw [← e1] at h2 h3
  have t1 : ∀ ρ, polar svd Y T ρ (Fin.last d) = Y ρ (Fin.last d) + T ρ (Fin.last d) := fun ρ => mkPose_last _ _ _
  have p1 : poseDot (polar svd Y T - Y - T) (polar svd Y T - Y - T) =
      frob2 (rotPart (polar svd Y T) - (rotPart Y + rotPart T)) := by
    rw [poseDot_self, show rotPart (polar svd Y T - Y - T) = rotPart (polar svd Y T) - (rotPart Y + rotPart T) by
      ext ρ c; simp [rotPart]; ring]
    simp [Matrix.sub_apply, t1]
  have hTT : frob2 (rotPart T) ≤ poseDot T T := by
    rw [poseDot_self]
    have : 0 ≤ ∑ ρ, T ρ (Fin.last d) ^ 2 := sum_nonneg fun _ _ => sq_nonneg _
    linarith
  constructor
  · rw [p1]
    refine h2.trans (pow_le_pow_left₀ (mul_nonneg (by norm_num) (frob2_nonneg _)) ?_ 2)
    linarith
  · -- `a = (a - b) + b` with `‖a - b‖ ≤ ‖b‖`
    have q : poseDot (polar svd Y T - Y) (polar svd Y T - Y) ≤
        2 * poseDot (polar svd Y T - Y - T) (polar svd Y T - Y - T) + 2 * poseDot T T := by
      unfold poseDot
      rw [mul_sum, mul_sum, ← sum_add_distrib]
      refine sum_le_sum fun ρ _ => ?_
      rw [mul_sum, mul_sum, ← sum_add_distrib]
      refine sum_le_sum fun c _ => ?_
      simp only [Matrix.sub_apply]
      nlinarith [sq_nonneg (polar svd Y T ρ c - Y ρ c - T ρ c - T ρ c)]
    rw [p1] at q
    linarith

/-! ### All poses -/

theorem poseOf_eachPose {f : Nat → Matrix (Fin r) (Fin (d + 1)) ℝ} {k : Nat} (hk : k < n) :
    poseOf r d (DMat.ofMat (eachPose f : LVar r d n)) k = f k := by
  ext ρ c
  have hlt : k * (d + 1) + (c : Nat) < (d + 1) * n := by
    have : (k + 1) * (d + 1) ≤ n * (d + 1) := Nat.mul_le_mul_right _ hk
    have := c.2
    lia
  have h1 : (k * (d + 1) + (c : Nat)) / (d + 1) = k := by
    rw [Nat.mul_comm, Nat.mul_add_div (by omega), Nat.div_eq_of_lt c.2, add_zero]
  have h2 : (k * (d + 1) + (c : Nat)) % (d + 1) = c := by
    rw [Nat.mul_comm, Nat.mul_add_mod, Nat.mod_eq_of_lt c.2]
  show (DMat.ofMat (eachPose f : LVar r d n)).v ρ (k * (d + 1) + c) = f k ρ c
  unfold DMat.ofMat eachPose
  simp only
  rw [dif_pos ⟨ρ.2, hlt⟩]
  simp only [Matrix.of_apply, h1, h2]

theorem poseOf_sub (A B : LVar r d n) (k : Nat) :
    poseOf r d (DMat.ofMat (A - B)) k = poseOf r d (DMat.ofMat A) k - poseOf r d (DMat.ofMat B) k := by
  ext ρ c
  simp only [poseOf, DMat.ofMat, Matrix.of_apply, Matrix.sub_apply]
  split <;> simp

theorem poseOf_smul (s : ℝ) (A : LVar r d n) (k : Nat) :
    poseOf r d (DMat.ofMat (s • A)) k = s • poseOf r d (DMat.ofMat A) k := by
  ext ρ c
  simp only [poseOf, DMat.ofMat, Matrix.of_apply, Matrix.smul_apply]
  split <;> simp

theorem dot_poses (A B : LVar r d n) : (DMat.ofMat A).dot (DMat.ofMat B) =
    ∑ k ∈ range n, poseDot (poseOf r d (DMat.ofMat A) k) (poseOf r d (DMat.ofMat B) k) := by
  unfold DMat.dot
  rw [show (DMat.ofMat A).cols = n * (d + 1) from Nat.mul_comm _ _, show (DMat.ofMat A).rows = r from rfl]
  simp only [Example.sum_mul_range]
  rw [sum_comm]
  refine sum_congr rfl fun k _ => ?_
  unfold poseDot
  rw [Finset.sum_range]
  refine sum_congr rfl fun ρ _ => ?_
  rw [Finset.sum_range]
  rfl

theorem rotPart_poseOf (Y : DMat ℝ) (k : Nat) : rotPart (poseOf r d Y k) = rotM r d ⟨r, d, n, Y⟩ k := rfl

theorem onManifold_posewise (svd : SvdOracle) (o : OptOracles) : ActsPosewise tangent (onManifold svd o) :=
  fun r d _ Y V _ hk =>
    poseOf_eachPose (f := fun k => tangent r d (poseOf r d (DMat.ofMat Y) k) (poseOf r d (DMat.ofMat V) k)) hk

theorem onManifold_retr (svd : SvdOracle) (o : OptOracles) (Y V : LVar r d n) {k : Nat} (hk : k < n) :
    poseOf r d (DMat.ofMat ((onManifold svd o).retr r d n Y V)) k =
      polar svd (poseOf r d (DMat.ofMat Y) k) (poseOf r d (DMat.ofMat V) k) :=
  poseOf_eachPose (f := fun k => polar svd (poseOf r d (DMat.ofMat Y) k) (poseOf r d (DMat.ofMat V) k)) hk

/-- The manifold of poses is tame. -/
theorem onManifold_tame {svd : SvdOracle} (hsvd : LawfulSvd svd) (o : OptOracles) : Tame 2 (1 / 2) (onManifold svd o) := by
  have pr : ∀ {r d n : Nat} (Y V : LVar r d n) {k}, k < n →
      poseOf r d (DMat.ofMat ((onManifold svd o).proj r d n Y V)) k =
        tangent r d (poseOf r d (DMat.ofMat Y) k) (poseOf r d (DMat.ofMat V) k) := fun {r d n} Y V k hk =>
    onManifold_posewise svd o r d n Y V k hk
  have re : ∀ {r d n : Nat} (Y V : LVar r d n) {k}, k < n →
      poseOf r d (DMat.ofMat ((onManifold svd o).retr r d n Y V)) k =
        polar svd (poseOf r d (DMat.ofMat Y) k) (poseOf r d (DMat.ofMat V) k) := fun Y V k hk => onManifold_retr svd o Y V hk
  have nonneg : ∀ {r d : Nat} (A : Matrix (Fin r) (Fin (d + 1)) ℝ), 0 ≤ poseDot A A := fun A =>
    sum_nonneg fun _ _ => sum_nonneg fun _ _ => mul_self_nonneg _
  refine ⟨?_, ?_, ?_⟩
  · intro r d n Y U V hY
    rw [dot_poses, dot_poses]
    refine sum_congr rfl fun k hk => ?_
    rw [mem_range] at hk
    rw [pr Y V hk, pr Y U hk]
    exact tangent_orthogonal (Y := poseOf r d (DMat.ofMat Y) k) (hY k hk) _ _
  · intro r d n Y V s hY
    unfold PArr.norm
    rw [show (2 : ℝ) = Real.sqrt 4 by rw [show (4 : ℝ) = 2 ^ 2 by norm_num]; exact (Real.sqrt_sq (by norm_num)).symm,
      ← Real.sqrt_mul (by norm_num)]
    refine Real.sqrt_le_sqrt ?_
    show (DMat.ofMat _).dot (DMat.ofMat _) ≤ 4 * (DMat.ofMat _).dot (DMat.ofMat _)
    rw [dot_poses, dot_poses, mul_sum]
    refine sum_le_sum fun k hk => ?_
    rw [mem_range] at hk
    rw [poseOf_sub, re _ _ hk, poseOf_smul, pr _ _ hk]
    exact (polar_pose hsvd (Y := poseOf r d (DMat.ofMat Y) k) (hY k hk) _ s).2
  · intro r d n Y V s hY
    unfold PArr.norm
    refine Real.sqrt_le_iff.2 ⟨mul_nonneg (by norm_num) (normSq_nonneg _), ?_⟩
    show (DMat.ofMat _).dot (DMat.ofMat _) ≤ (1 / 2 * (DMat.ofMat _).dot (DMat.ofMat _)) ^ 2
    rw [dot_poses, dot_poses, mul_sum]
    refine le_trans (sum_le_sum (g := fun k => (1 / 2 * poseDot
      (poseOf r d (DMat.ofMat (s • (onManifold svd o).proj r d n Y V)) k)
      (poseOf r d (DMat.ofMat (s • (onManifold svd o).proj r d n Y V)) k)) ^ 2) fun k hk => ?_)
      (sum_sq_le_sq_sum_of_nonneg fun k _ => mul_nonneg (by norm_num) (nonneg _))
    rw [mem_range] at hk
    rw [poseOf_sub, poseOf_sub, re _ _ hk, poseOf_smul, pr _ _ hk]
    exact (polar_pose hsvd (Y := poseOf r d (DMat.ofMat Y) k) (hY k hk) _ s).1

theorem onManifold_retracts {svd : SvdOracle} (hsvd : LawfulSvd svd) (o : OptOracles) :
    RetractsToManifold (onManifold svd o) := by
  intro r d n Y V hY k hk
  have hs : IsSvd _ _ _ _ := hsvd r d (rotPart (poseOf r d (DMat.ofMat Y) k) + rotPart (poseOf r d (DMat.ofMat V) k))
    (OrthoCols.le (hY k hk))
  have : rotM r d ⟨r, d, n, DMat.ofMat ((onManifold svd o).retr r d n Y V)⟩ k =
      rotPart (polar svd (poseOf r d (DMat.ofMat Y) k) (poseOf r d (DMat.ofMat V) k)) := by
    rw [← rotPart_poseOf]
    exact congrArg rotPart (onManifold_retr svd o Y V hk)
  rw [this, polar, rotPart_mkPose]
  exact hs.orthoU.mul hs.orthoV.transpose

end

end

end Dpgo
