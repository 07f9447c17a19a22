import Verif.Lemmas.StiefelSteps
import Verif.Lemmas.TeamForm
import Verif.Spec.AsyncLimit

/-! # Projected gradients at nearby poses -/

namespace Dpgo

open Res Spec Finset Matrix

noncomputable section

section
variable {m k l r d n : Nat}

theorem frob2_mul_le (A : Matrix (Fin m) (Fin k) ℝ) (B : Matrix (Fin k) (Fin l) ℝ) :
    frob2 (A * B) ≤ frob2 A * frob2 B := by
  have e : frob2 A * frob2 B = ∑ i, ∑ j, (∑ x, A i x ^ 2) * ∑ x, B x j ^ 2 := by
    unfold frob2
    rw [sum_mul]
    refine sum_congr rfl fun i _ => ?_
    rw [sum_comm (f := fun x j => B x j ^ 2), mul_sum]
  rw [e]
  unfold frob2
  refine sum_le_sum fun i _ => sum_le_sum fun j _ => ?_
  rw [Matrix.mul_apply]
  exact sum_mul_sq_le_sq_mul_sq _ _ _

theorem frob2_add_le (A B : Matrix (Fin m) (Fin k) ℝ) : frob2 (A + B) ≤ 2 * frob2 A + 2 * frob2 B := by
  unfold frob2
  rw [mul_sum, mul_sum, ← sum_add_distrib]
  refine sum_le_sum fun i _ => ?_
  rw [mul_sum, mul_sum, ← sum_add_distrib]
  refine sum_le_sum fun j _ => ?_
  rw [Matrix.add_apply]
  nlinarith [sq_nonneg (A i j - B i j)]

theorem frob2_sym_le (A : Matrix (Fin m) (Fin m) ℝ) : frob2 ((1 / 2 : ℝ) • (A + Aᵀ)) ≤ frob2 A := by
  have h1 : frob2 ((1 / 2 : ℝ) • (A + Aᵀ)) = 1 / 4 * frob2 (A + Aᵀ) := by
    unfold frob2
    simp only [mul_sum, Matrix.smul_apply, smul_eq_mul]
    refine sum_congr rfl fun _ _ => sum_congr rfl fun _ _ => ?_
    ring
  have h2 := frob2_add_le A Aᵀ
  rw [frob2_transpose] at h2
  linarith

theorem frob2_sub_eq (A B : Matrix (Fin m) (Fin k) ℝ) :
    frob2 (A - B) = frob2 A - 2 * (Aᵀ * B).trace + frob2 B := by
  unfold frob2 Matrix.trace
  simp only [Matrix.diag_apply, Matrix.mul_apply, Matrix.transpose_apply]
  rw [sum_comm (f := fun x y => A y x * B y x)]
  simp only [mul_sum, ← sum_add_distrib, ← sum_sub_distrib]
  refine sum_congr rfl fun _ _ => sum_congr rfl fun _ _ => ?_
  rw [Matrix.sub_apply]
  ring

/-- Components along orthonormal columns. -/
theorem frob2_coords_le {R : Matrix (Fin r) (Fin d) ℝ} (h : OrthoCols R) (V : Matrix (Fin r) (Fin l) ℝ) :
    frob2 (Rᵀ * V) ≤ frob2 V := by
  have h1 := frob2_nonneg (V - R * (Rᵀ * V))
  rw [frob2_sub_eq, frob2_ortho_mul h] at h1
  have h2 : (Vᵀ * (R * (Rᵀ * V))).trace = frob2 (Rᵀ * V) := by
    rw [frob2_eq_trace, Matrix.transpose_mul, Matrix.transpose_transpose, Matrix.mul_assoc]
  rw [h2] at h1
  linarith

/-- The projection depends on the point with rate two. -/
theorem tang_lipschitz {R R' : Matrix (Fin r) (Fin d) ℝ} (h : OrthoCols R) (h' : OrthoCols R')
    (V : Matrix (Fin r) (Fin d) ℝ) : frob2 (tang R' V - tang R V) ≤ 4 * (frob2 (R' - R) * frob2 V) := by
  have e : tang R' V - tang R V = -((R' - R) * ((1 / 2 : ℝ) • (R'ᵀ * V + (R'ᵀ * V)ᵀ)) +
      R * ((1 / 2 : ℝ) • ((R' - R)ᵀ * V + ((R' - R)ᵀ * V)ᵀ))) := by
    unfold tang
    simp only [Matrix.transpose_mul, Matrix.transpose_transpose, Matrix.transpose_sub, Matrix.sub_mul, Matrix.mul_sub,
      Matrix.mul_smul, Matrix.mul_add, smul_add, smul_sub]
    abel
  have hn : ∀ A : Matrix (Fin r) (Fin d) ℝ, frob2 (-A) = frob2 A := by
    intro A
    unfold frob2
    simp
  rw [e, hn]
  refine (frob2_add_le _ _).trans ?_
  have h1 : frob2 ((R' - R) * ((1 / 2 : ℝ) • (R'ᵀ * V + (R'ᵀ * V)ᵀ))) ≤ frob2 (R' - R) * frob2 V :=
    (frob2_mul_le _ _).trans (mul_le_mul_of_nonneg_left ((frob2_sym_le _).trans (frob2_coords_le h' V)) (frob2_nonneg _))
  have h2 : frob2 (R * ((1 / 2 : ℝ) • ((R' - R)ᵀ * V + ((R' - R)ᵀ * V)ᵀ))) ≤ frob2 (R' - R) * frob2 V := by
    rw [frob2_ortho_mul h]
    refine (frob2_sym_le _).trans ((frob2_mul_le _ _).trans (le_of_eq ?_))
    rw [frob2_transpose]
  linarith

theorem tangent_lipschitz {Y Y' : Matrix (Fin r) (Fin (d + 1)) ℝ} (h : OrthoCols (rotPart Y)) (h' : OrthoCols (rotPart Y'))
    (V : Matrix (Fin r) (Fin (d + 1)) ℝ) :
    poseDot (tangent r d Y' V - tangent r d Y V) (tangent r d Y' V - tangent r d Y V) ≤
      4 * (poseDot (Y' - Y) (Y' - Y) * poseDot V V) := by
  have hsub : ∀ A B : Matrix (Fin r) (Fin (d + 1)) ℝ, rotPart (A - B) = rotPart A - rotPart B := fun _ _ => rfl
  have hle : ∀ A : Matrix (Fin r) (Fin (d + 1)) ℝ, frob2 (rotPart A) ≤ poseDot A A := by
    intro A
    rw [poseDot_self]
    have : 0 ≤ ∑ ρ, A ρ (Fin.last d) ^ 2 := sum_nonneg fun _ _ => sq_nonneg _
    linarith
  have hz : ∑ ρ, (tangent r d Y' V - tangent r d Y V) ρ (Fin.last d) ^ 2 = 0 := by
    refine sum_eq_zero fun ρ _ => ?_
    rw [Matrix.sub_apply, show tangent r d Y' V ρ (Fin.last d) = V ρ (Fin.last d) from mkPose_last _ _ _,
      show tangent r d Y V ρ (Fin.last d) = V ρ (Fin.last d) from mkPose_last _ _ _]
    ring
  rw [poseDot_self, hz, add_zero, hsub, tangent_rot, tangent_rot]
  refine (tang_lipschitz h h' _).trans ?_
  rw [← hsub]
  exact mul_le_mul_of_nonneg_left (mul_le_mul (hle _) (hle _) (frob2_nonneg _) ((frob2_nonneg _).trans (hle _)))
    (by norm_num)

theorem tangent_sub (Y U V : Matrix (Fin r) (Fin (d + 1)) ℝ) :
    tangent r d Y (U - V) = tangent r d Y U - tangent r d Y V := by
  ext ρ c
  refine Fin.lastCases ?_ (fun c => ?_) c
  · rw [Matrix.sub_apply]
    simp only [tangent, mkPose, Matrix.of_apply, Fin.lastCases_last, Matrix.sub_apply]
  · have h1 : rotPart (U - V) = rotPart U - rotPart V := rfl
    rw [Matrix.sub_apply]
    simp only [tangent, mkPose, Matrix.of_apply, Fin.lastCases_castSucc, h1, Matrix.transpose_sub, Matrix.mul_sub,
      Matrix.sub_mul]
    simp only [Matrix.mul_smul, Matrix.mul_add, Matrix.mul_sub, smul_add, smul_sub, Matrix.sub_apply, Matrix.add_apply]
    ring

theorem sum_mul_le_mul_sum {f g : Nat → ℝ} (hf : ∀ k, 0 ≤ f k) (hg : ∀ k, 0 ≤ g k) (n : Nat) :
    ∑ k ∈ range n, f k * g k ≤ (∑ k ∈ range n, f k) * ∑ k ∈ range n, g k := by
  rw [sum_mul]
  refine sum_le_sum fun k hk => mul_le_mul_of_nonneg_left ?_ (hf k)
  exact single_le_sum (f := g) (fun k _ => hg k) hk

/-- The manifold of poses is steady. -/
theorem onManifold_steady {svd : SvdOracle} (hsvd : LawfulSvd svd) (o : OptOracles) : Steady 2 (onManifold svd o) := by
  have pr : ∀ {r d n : Nat} (Y V : LVar r d n) {k}, k < n →
      poseOf r d (DMat.ofMat ((onManifold svd o).proj r d n Y V)) k =
        tangent r d (poseOf r d (DMat.ofMat Y) k) (poseOf r d (DMat.ofMat V) k) := fun {r d n} Y V k hk =>
    onManifold_posewise svd o r d n Y V k hk
  have nonneg : ∀ {r d : Nat} (A : Matrix (Fin r) (Fin (d + 1)) ℝ), 0 ≤ poseDot A A := fun A =>
    sum_nonneg fun _ _ => sum_nonneg fun _ _ => mul_self_nonneg _
  have ht := onManifold_tame hsvd o
  intro r d n Y Y' V V' hY hY'
  generalize hP : (onManifold svd o).proj r d n = P at *
  have hpr : ∀ (Y V : LVar r d n) {k}, k < n → poseOf r d (DMat.ofMat (P Y V)) k =
        tangent r d (poseOf r d (DMat.ofMat Y) k) (poseOf r d (DMat.ofMat V) k) := by
    rw [← hP]
    exact fun Y V k hk => pr Y V hk
  have fit : ∀ A : LVar r d n, DMat.Fits r ((d + 1) * n) (DMat.ofMat A) := fun A => ⟨rfl, rfl⟩
  -- a sum of three
  have hlin : (DMat.ofMat (P Y' V')).normSq =
      (((DMat.ofMat (P Y V)).add (DMat.ofMat (P Y' (V' - V)))).add (DMat.ofMat (P Y' V - P Y V))).normSq := by
    show (DMat.ofMat (P Y' V')).dot (DMat.ofMat (P Y' V')) = _
    have e : (((DMat.ofMat (P Y V)).add (DMat.ofMat (P Y' (V' - V)))).add (DMat.ofMat (P Y' V - P Y V))).normSq =
        (DMat.ofMat (P Y V + P Y' (V' - V) + (P Y' V - P Y V))).dot
          (DMat.ofMat (P Y V + P Y' (V' - V) + (P Y' V - P Y V))) := by
      refine DMat.normSq_congr (r := r) (c := (d + 1) * n) ⟨rfl, rfl⟩ ⟨rfl, rfl⟩ fun ρ hρ j hj => ?_
      simp only [DMat.add, DMat.ofMat]
      rw [dif_pos ⟨hρ, hj⟩, dif_pos ⟨hρ, hj⟩, dif_pos ⟨hρ, hj⟩, dif_pos ⟨hρ, hj⟩]
      rfl
    rw [e, dot_poses, dot_poses]
    refine sum_congr rfl fun k hk => ?_
    rw [mem_range] at hk
    have e2 : poseOf r d (DMat.ofMat (P Y V + P Y' (V' - V) + (P Y' V - P Y V))) k =
        poseOf r d (DMat.ofMat (P Y' V')) k := by
      rw [show P Y V + P Y' (V' - V) + (P Y' V - P Y V) = P Y' V - (0 - P Y' (V' - V)) by abel, poseOf_sub, poseOf_sub,
        hpr _ _ hk, hpr _ _ hk, hpr _ _ hk, poseOf_sub, tangent_sub]
      have : poseOf r d (DMat.ofMat (0 : LVar r d n)) k = 0 := by
        ext ρ c
        simp [poseOf, DMat.ofMat]
      rw [this]
      abel
    rw [e2]
  have h1 : PArr.norm (DMat.ofMat (P Y' (V' - V))) ≤ PArr.norm (DMat.ofMat (V' - V)) := by
    have h2 := ht.orthogonal r d n Y' (V' - V) (V' - V) hY'
    rw [hP] at h2
    have h3 := (le_abs_self _).trans (DMat.abs_dot_le (fit (V' - V)) (fit (P Y' (V' - V))))
    rw [h2, show (DMat.ofMat (P Y' (V' - V))).dot (DMat.ofMat (P Y' (V' - V))) = (DMat.ofMat (P Y' (V' - V))).normSq
      from rfl, ← DMat.norm_sq, sq] at h3
    rcases (DMat.norm_nonneg (DMat.ofMat (P Y' (V' - V)))).eq_or_lt with h0 | h0
    · rw [← h0]
      exact DMat.norm_nonneg _
    · exact le_of_mul_le_mul_right h3 h0
  have h2 : PArr.norm (DMat.ofMat (P Y' V - P Y V)) ≤
      2 * PArr.norm (DMat.ofMat (Y' - Y)) * PArr.norm (DMat.ofMat V) := by
    refine Real.sqrt_le_iff.2 ⟨mul_nonneg (mul_nonneg (by norm_num) (DMat.norm_nonneg _)) (DMat.norm_nonneg _), ?_⟩
    rw [mul_pow, mul_pow, DMat.norm_sq, DMat.norm_sq]
    show (DMat.ofMat _).dot (DMat.ofMat _) ≤ 2 ^ 2 * (DMat.ofMat _).dot (DMat.ofMat _) * (DMat.ofMat _).dot (DMat.ofMat _)
    rw [dot_poses, dot_poses, dot_poses]
    have hs := sum_mul_le_mul_sum
      (f := fun k => poseDot (poseOf r d (DMat.ofMat (Y' - Y)) k) (poseOf r d (DMat.ofMat (Y' - Y)) k))
      (g := fun k => poseDot (poseOf r d (DMat.ofMat V) k) (poseOf r d (DMat.ofMat V) k))
      (fun _ => nonneg _) (fun _ => nonneg _) n
    refine le_trans ?_ (le_trans (mul_le_mul_of_nonneg_left hs (by norm_num : (0 : ℝ) ≤ 4)) (le_of_eq (by ring)))
    rw [mul_sum]
    refine sum_le_sum fun k hk => ?_
    rw [mem_range] at hk
    rw [poseOf_sub, hpr _ _ hk, hpr _ _ hk, poseOf_sub]
    exact tangent_lipschitz (Y := poseOf r d (DMat.ofMat Y) k) (Y' := poseOf r d (DMat.ofMat Y') k) (hY k hk) (hY' k hk) _
  have h3 : PArr.norm (DMat.ofMat (P Y' V')) =
      PArr.norm (((DMat.ofMat (P Y V)).add (DMat.ofMat (P Y' (V' - V)))).add (DMat.ofMat (P Y' V - P Y V))) := by
    unfold PArr.norm
    rw [hlin]
  rw [h3]
  refine (DMat.norm_add_le (r := r) (c := (d + 1) * n) ⟨rfl, rfl⟩ ⟨rfl, rfl⟩).trans (add_le_add ?_ h2)
  exact (DMat.norm_add_le (r := r) (c := (d + 1) * n) ⟨rfl, rfl⟩ ⟨rfl, rfl⟩).trans (add_le_add le_rfl h1)

end

end

end Dpgo
