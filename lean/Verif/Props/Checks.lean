import Verif.Lemmas.Checks

/-!
# What a silent orthonormality check promises (C95)

The code warns when `YᵀY` is far from the identity, or the determinant far from one.  The specification speaks of the
distance from the matrix to the nearest matrix with orthonormal columns, or to the nearest rotation.
-/

namespace Dpgo.Props

open Res Spec Matrix

variable {r d n : Nat}

/-- **C95, Stiefel points.** If `checkStiefelMatrix` is silent, a matrix with orthonormal columns is within `1e-5`; and
it is silent whenever one is within `4.9e-6`. -/
theorem C95_stiefel (hrd : d ≤ r) {Y : DMat ℝ} (hY : Y.rows = r ∧ Y.cols = d) :
    (stiefelWarning Y = false → ∃ Q, OrthoCols Q ∧ fro (Y.toMat r d - Q) ≤ 1 / 100000) ∧
    ((∃ Q, OrthoCols Q ∧ fro (Y.toMat r d - Q) ≤ 49 / 10000000) → stiefelWarning Y = false) := by
  obtain ⟨U, s, V, h⟩ := exists_svd hrd (Y.toMat r d)
  rw [stiefel_silent, orthoErr_eq hY]
  unfold orthoTol
  constructor
  · intro hs
    refine ⟨U * Vᵀ, h.orthoU.mul h.orthoV.transpose, ?_⟩
    rw [fro_le_iff _ (by norm_num)] at hs ⊢
    exact (polar_le_gram h).trans hs
  · rintro ⟨Q, hQ, hn⟩
    rw [fro_le_iff _ (by norm_num)] at hn ⊢
    refine (gram_le_polar h (by norm_num) ((svd_near h hQ).trans hn)).trans ?_
    norm_num

/-- **C95, rotations.** If `checkRotationMatrix` is silent, a rotation is within `1e-5`; in two and three dimensions it
is silent whenever one is within `3e-6`.  A reflection is never passed over, though its columns are orthonormal. -/
theorem C95_rotation {R : DMat ℝ} (hR : R.rows = d ∧ R.cols = d) :
    ∃ w, rotationWarning R = ok w ∧
      (w = false → ∃ Q, IsRot Q ∧ fro (R.toMat d d - Q) ≤ 1 / 100000) ∧
      (d ≤ 3 → (∃ Q, IsRot Q ∧ fro (R.toMat d d - Q) ≤ 3 / 1000000) → w = false) := by
  obtain ⟨U, s, V, h⟩ := exists_svd le_rfl (R.toMat d d)
  have hdet : R.det = (R.toMat d d).det := by unfold DMat.det; rw [hR.1]
  refine ⟨_, rotationWarning_eq (hR.2.trans hR.1.symm), ?_, ?_⟩
  · intro hw
    simp only [decide_eq_false_iff_not, not_or, not_lt, orthoErr_eq hR, hdet, orthoTol] at hw
    obtain ⟨h1, h2⟩ := hw
    have hp : OrthoCols (U * Vᵀ) := h.orthoU.mul h.orthoV.transpose
    refine ⟨U * Vᵀ, ⟨hp, ?_⟩, ?_⟩
    · rcases hp.det_cases with e | e
      · exact e
      · exfalso
        have e2 := svd_det h
        have e3 : 0 ≤ ∏ i, s i := Finset.prod_nonneg fun i _ => h.nonneg i
        have e4 := (abs_le.1 h1).1
        rw [e2, e] at e4
        linarith
    · rw [fro_le_iff _ (by norm_num)] at h2 ⊢
      exact (polar_le_gram h).trans h2
  · rintro hd ⟨Q, hQ, hn⟩
    simp only [decide_eq_false_iff_not, not_or, not_lt, orthoErr_eq hR, hdet, orthoTol]
    rw [fro_le_iff _ (by norm_num)] at hn ⊢
    obtain ⟨h1, h2⟩ := det_near_rot h hQ (by norm_num) (by norm_num) hn
    refine ⟨abs_le.2 ⟨?_, ?_⟩, (gram_le_polar h (by norm_num) ((svd_near h hQ.1).trans hn)).trans (by norm_num)⟩
    · have : (1 - 1 / 100000 : ℝ) ≤ (1 - 3 / 1000000) ^ d := by interval_cases d <;> norm_num
      linarith
    · have : (1 + 3 / 1000000 : ℝ) ^ d ≤ 1 + 1 / 100000 := by interval_cases d <;> norm_num
      linarith

/-- **C95, trajectories.** `checkData` of a lifted pose array returns, warns about every pose that is not within `1e-5`
of the manifold, about none that is within `4.9e-6`, at most once each and in order. -/
theorem C95_array (hrd : d ≤ r) {P : PArr ℝ} (hP : ArrOk r d n P) :
    ∃ w : List Nat, P.checkData = ok w ∧ w.Pairwise (· < ·) ∧ (∀ i ∈ w, i < n) ∧
      (∀ i < n, i ∉ w → ∃ Q, OrthoCols Q ∧ fro (rotM r d P i - Q) ≤ 1 / 100000) ∧
      (∀ i < n, (∃ Q, OrthoCols Q ∧ fro (rotM r d P i - Q) ≤ 49 / 10000000) → i ∉ w) := by
  have hb := fun i => C95_stiefel hrd (Y := (P.X.block 0 (i * (d + 1)) r (d + 1)).block 0 0 r d) ⟨rfl, rfl⟩
  simp only [PArr.rotationAt_val] at hb
  refine ⟨_, checkData_eq hP, List.pairwise_lt_range.filter _, fun i hi => ?_, fun i hi hw => ?_, fun i hi hq hw => ?_⟩
  · exact List.mem_range.1 (List.mem_filter.1 hi).1
  · refine (hb i).1 ?_
    simpa [hi] using hw
  · have := (hb i).2 hq
    simp [this] at hw

/-- A turn with a rounded entry: not a rotation. -/
noncomputable def exRounded : DMat ℝ := DMat.ofMat !![3 / 5, -4 / 5; 4 / 5, 600001 / 1000000]

/-- The hypotheses hold with a rotation that is near but not equal, and the check is silent. -/
example : ¬ IsRot (exRounded.toMat 2 2) ∧ rotationWarning exRounded = ok false := by
  constructor
  · intro h
    have := h.2
    rw [exRounded, DMat.toMat_ofMat, Matrix.det_fin_two_of] at this
    norm_num at this
  · obtain ⟨w, e, -, h⟩ := C95_rotation (d := 2) (R := exRounded) ⟨rfl, rfl⟩
    rw [e, h (by norm_num) ⟨!![3 / 5, -4 / 5; 4 / 5, 3 / 5], ⟨?_, ?_⟩, ?_⟩]
    · ext i j
      fin_cases i <;> fin_cases j <;> norm_num [Matrix.mul_apply, Fin.sum_univ_two]
    · rw [Matrix.det_fin_two_of]
      norm_num
    · rw [fro_le_iff _ (by norm_num), exRounded, DMat.toMat_ofMat]
      norm_num [frob2, Fin.sum_univ_two]

/-- A reflection: its columns are orthonormal, and only the rotation check warns. -/
noncomputable def exMirror : DMat ℝ := DMat.ofMat !![3 / 5, 4 / 5; 4 / 5, -3 / 5]

example : stiefelWarning exMirror = false ∧ rotationWarning exMirror = ok true := by
  have ho : OrthoCols (!![3 / 5, 4 / 5; 4 / 5, -3 / 5] : Matrix (Fin 2) (Fin 2) ℝ) := by
    unfold OrthoCols
    ext i j
    fin_cases i <;> fin_cases j <;> norm_num [Matrix.mul_apply, Fin.sum_univ_two]
  constructor
  · refine (C95_stiefel (r := 2) (d := 2) le_rfl (Y := exMirror) ⟨rfl, rfl⟩).2 ⟨_, ho, ?_⟩
    rw [fro_le_iff _ (by norm_num), exMirror, DMat.toMat_ofMat, sub_self]
    norm_num [frob2]
  · obtain ⟨w, e, h, -⟩ := C95_rotation (d := 2) (R := exMirror) ⟨rfl, rfl⟩
    cases w
    · exfalso
      obtain ⟨Q, hQ, hn⟩ := h rfl
      rw [fro_le_iff _ (by norm_num), exMirror, DMat.toMat_ofMat] at hn
      have h4 := opposite_far ho hQ.1 (by rw [Matrix.det_fin_two_of]; norm_num) hQ.2
      have e4 : frob2 (Q - !![3 / 5, 4 / 5; 4 / 5, -3 / 5]) = frob2 (!![3 / 5, 4 / 5; 4 / 5, -3 / 5] - Q) := by
        unfold frob2
        refine Finset.sum_congr rfl fun i _ => Finset.sum_congr rfl fun j _ => ?_
        rw [Matrix.sub_apply, Matrix.sub_apply]
        ring
      rw [e4] at h4
      norm_num at hn
      linarith
    · exact e

/-- Two lifted planar poses in three dimensions, the second scaled. -/
noncomputable def exScaled : PArr ℝ :=
  ⟨3, 2, 2, ⟨3, 6, fun i j => if i = j % 3 ∧ j % 3 < 2 then (if j < 3 then 1 else 2) else 0⟩⟩

/-- `checkData` warns about the second pose only. -/
example : exScaled.checkData = ok [1] := by
  rw [checkData_eq (r := 3) (d := 2) (n := 2) ⟨rfl, rfl, rfl, rfl, rfl⟩]
  have h0 : stiefelWarning ((exScaled.X.block 0 (0 * (2 + 1)) 3 (2 + 1)).block 0 0 3 2) = false := by
    rw [stiefel_silent, orthoErr_eq (r := 3) (d := 2) ⟨rfl, rfl⟩, orthoTol, fro_le_iff _ (by norm_num)]
    norm_num [frob2, Fin.sum_univ_two, Fin.sum_univ_three, Matrix.mul_apply, exScaled, DMat.block]
  have h1 : stiefelWarning ((exScaled.X.block 0 (1 * (2 + 1)) 3 (2 + 1)).block 0 0 3 2) = true := by
    rw [← Bool.not_eq_false, stiefel_silent, orthoErr_eq (r := 3) (d := 2) ⟨rfl, rfl⟩, orthoTol,
      fro_le_iff _ (by norm_num)]
    norm_num [frob2, Fin.sum_univ_two, Fin.sum_univ_three, Matrix.mul_apply, exScaled, DMat.block]
  simp only [List.range_succ, List.range_zero, List.nil_append, List.cons_append, List.filter_cons, h0, h1]
  rfl

end Dpgo.Props
