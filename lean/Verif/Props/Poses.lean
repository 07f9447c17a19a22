import Verif.Lemmas.Poses
import Verif.Lemmas.Distances
import Mathlib.LinearAlgebra.UnitaryGroup

/-!
# Poses and pose arrays: C17, C18, C19
-/

namespace Dpgo.Props

open Res Spec Matrix PArr

section
variable {K : Type} [Field K]

/-! ### C17 -/

/-- **C17.** Composition: rotations multiply, translations are rotated and added. -/
theorem C17_mul (d : Nat) (A B : PArr K) (hA : ArrOk d d 1 A) (hB : ArrOk d d 1 B) :
    ∃ C, A.mul B = ok C ∧ ArrOk d d 1 C ∧ rotM d d C 0 = rotM d d A 0 * rotM d d B 0 ∧
      traV d d C 0 = rotM d d A 0 *ᵥ traV d d B 0 + traV d d A 0 := by
  obtain ⟨MA, a1, a2, a3, a4⟩ := matrix_ok hA
  obtain ⟨MB, b1, b2, b3, b4⟩ := matrix_ok hB
  unfold PArr.mul
  rw [hA.2.1, hB.2.1, a1, b1]
  simp only [beq_self_eq_true, check_true, ok_bind]
  exact ofMatrix_homog (by rw [DMat.toMat_mul a3, a4, b4, homog_mul])

/-- **C17.** `Identity` is the identity pose. -/
theorem C17_identity_value (d : Nat) : ∃ E : PArr K, identity d = ok E ∧ ArrOk d d 1 E ∧
    rotM d d E 0 = 1 ∧ traV d d E 0 = 0 := by
  obtain ⟨E, e, o, h⟩ := make_ok (K := K) (n := 1) (le_refl d)
  refine ⟨E, e, o, ?_, ?_⟩
  · ext a c
    have := (h 0 zero_lt_one).1 a c a.2 c.2
    simp only [rotM, Matrix.of_apply, this, Matrix.one_apply, Fin.ext_iff]
  · ext a
    exact (h 0 zero_lt_one).2 a a.2

/-- **C17.** The identity is neutral on both sides. -/
theorem C17_identity (d : Nat) (A : PArr K) (hA : ArrOk d d 1 A) : ∃ E C C' : PArr K,
    identity d = ok E ∧ E.mul A = ok C ∧ A.mul E = ok C' ∧ SamePose d C A ∧ SamePose d C' A := by
  obtain ⟨E, e, o, h1, h2⟩ := C17_identity_value (K := K) d
  obtain ⟨C, c1, -, c2, c3⟩ := C17_mul d E A o hA
  obtain ⟨C', c1', -, c2', c3'⟩ := C17_mul d A E hA o
  refine ⟨E, C, C', e, c1, c1', ⟨?_, ?_⟩, ⟨?_, ?_⟩⟩
  · rw [c2, h1, Matrix.one_mul]
  · rw [c3, h1, h2, Matrix.one_mulVec, add_zero]
  · rw [c2', h1, Matrix.mul_one]
  · rw [c3', h2, Matrix.mulVec_zero, zero_add]

/-- **C17.** Composition is associative. -/
theorem C17_assoc (d : Nat) (A B C : PArr K) (hA : ArrOk d d 1 A) (hB : ArrOk d d 1 B)
    (hC : ArrOk d d 1 C) : ∃ AB BC L R : PArr K, A.mul B = ok AB ∧ B.mul C = ok BC ∧
      AB.mul C = ok L ∧ A.mul BC = ok R ∧ SamePose d L R := by
  obtain ⟨AB, x1, x2, x3, x4⟩ := C17_mul d A B hA hB
  obtain ⟨BC, y1, y2, y3, y4⟩ := C17_mul d B C hB hC
  obtain ⟨L, l1, l2, l3, l4⟩ := C17_mul d AB C x2 hC
  obtain ⟨R, r1, r2, r3, r4⟩ := C17_mul d A BC hA y2
  refine ⟨AB, BC, L, R, x1, y1, l1, r1, ?_, ?_⟩
  · rw [l3, r3, x3, y3, Matrix.mul_assoc]
  · rw [l4, r4, x3, x4, y4, Matrix.mulVec_add, Matrix.mulVec_mulVec, add_assoc]

/-- **C17.** For every pose with invertible rotation part, `inverse()` is `[R⁻¹, −R⁻¹ t]`. -/
theorem C17_inverse_value (d : Nat) (A : PArr K) (hA : ArrOk d d 1 A)
    (hdet : (rotM d d A 0).det ≠ 0) :
    ∃ C, A.inverse = ok C ∧ ArrOk d d 1 C ∧ rotM d d C 0 = (rotM d d A 0)⁻¹ ∧
      traV d d C 0 = - ((rotM d d A 0)⁻¹ *ᵥ traV d d A 0) := by
  obtain ⟨M, m1, m2, m3, m4⟩ := matrix_ok hA
  set R := rotM d d A 0
  set t := traV d d A 0
  have hR : R * R⁻¹ = 1 := Matrix.mul_nonsing_inv R (Ne.isUnit hdet)
  have hprod : homog R t * homog R⁻¹ (-(R⁻¹ *ᵥ t)) = 1 := by
    rw [homog_mul, hR, Matrix.mulVec_neg, Matrix.mulVec_mulVec, hR, Matrix.one_mulVec,
      neg_add_cancel, homog_one]
  have hinv : (homog R t)⁻¹ = homog R⁻¹ (-(R⁻¹ *ᵥ t)) := Matrix.inv_eq_right_inv hprod
  have hunit := Matrix.isUnit_det_of_right_inverse hprod
  unfold PArr.inverse
  rw [m1, ok_bind]
  unfold DMat.inverse DMat.det
  rw [m2, m4, if_neg hunit.ne_zero, ok_bind, hA.2.1, hinv]
  exact ofMatrix_homog (DMat.toMat_ofMat _)

/-- **C17.** For a pose with orthogonal rotation part, `inverse()` is `[Rᵀ, −Rᵀ t]`. -/
theorem C17_inverse (d : Nat) (A : PArr K) (hA : ArrOk d d 1 A)
    (horth : (rotM d d A 0)ᵀ * rotM d d A 0 = 1) :
    ∃ C, A.inverse = ok C ∧ ArrOk d d 1 C ∧ rotM d d C 0 = (rotM d d A 0)ᵀ ∧
      traV d d C 0 = - ((rotM d d A 0)ᵀ *ᵥ traV d d A 0) := by
  have hinv : (rotM d d A 0)⁻¹ = (rotM d d A 0)ᵀ := Matrix.inv_eq_left_inv horth
  rw [← hinv]
  exact C17_inverse_value d A hA (Matrix.isUnit_det_of_left_inverse horth).ne_zero

/-- **C17.** The inverse cancels on both sides. -/
theorem C17_inverse_cancels (d : Nat) (A : PArr K) (hA : ArrOk d d 1 A)
    (hdet : (rotM d d A 0).det ≠ 0) : ∃ E V L R : PArr K, identity d = ok E ∧ A.inverse = ok V ∧
      V.mul A = ok L ∧ A.mul V = ok R ∧ SamePose d L E ∧ SamePose d R E := by
  obtain ⟨E, e1, -, e2, e3⟩ := C17_identity_value (K := K) d
  obtain ⟨V, v1, v2, v3, v4⟩ := C17_inverse_value d A hA hdet
  obtain ⟨L, l1, -, l2, l3⟩ := C17_mul d V A v2 hA
  obtain ⟨R, r1, -, r2, r3⟩ := C17_mul d A V hA v2
  have u := Ne.isUnit hdet
  refine ⟨E, V, L, R, e1, v1, l1, r1, ⟨?_, ?_⟩, ⟨?_, ?_⟩⟩
  · rw [l2, v3, e2, Matrix.nonsing_inv_mul _ u]
  · rw [l3, v3, v4, e3, add_neg_cancel]
  · rw [r2, v3, e2, Matrix.mul_nonsing_inv _ u]
  · rw [r3, v4, e3, Matrix.mulVec_neg, Matrix.mulVec_mulVec, Matrix.mul_nonsing_inv _ u,
      Matrix.one_mulVec, neg_add_cancel]

/-- **C17.** Composing and inverting rigid poses gives rigid poses. -/
theorem C17_rigid (d : Nat) (A B : PArr K) (hA : ArrOk d d 1 A) (hB : ArrOk d d 1 B)
    (rA : Rigid d A) (rB : Rigid d B) :
    (∃ C, A.mul B = ok C ∧ Rigid d C) ∧ (∃ C, A.inverse = ok C ∧ Rigid d C) := by
  constructor
  · obtain ⟨C, c1, -, c2, -⟩ := C17_mul d A B hA hB
    refine ⟨C, c1, ?_, ?_⟩
    · rw [c2, Matrix.transpose_mul]
      calc (rotM d d B 0)ᵀ * (rotM d d A 0)ᵀ * (rotM d d A 0 * rotM d d B 0)
          = (rotM d d B 0)ᵀ * ((rotM d d A 0)ᵀ * rotM d d A 0) * rotM d d B 0 := by
            simp only [Matrix.mul_assoc]
        _ = 1 := by rw [rA.1, Matrix.mul_one, rB.1]
    · rw [c2, Matrix.det_mul, rA.2, rB.2, one_mul]
  · obtain ⟨C, c1, -, c2, -⟩ := C17_inverse d A hA rA.1
    refine ⟨C, c1, ?_, ?_⟩
    · rw [c2, Matrix.transpose_transpose]
      exact mul_eq_one_comm.1 rA.1
    · rw [c2, Matrix.det_transpose, rA.2]

/-- **C17.** `matrix()` is a homomorphism, and determines the pose. -/
theorem C17_matrix (d : Nat) (A B : PArr K) (hA : ArrOk d d 1 A) (hB : ArrOk d d 1 B) :
    ∃ C MA MB MC, A.mul B = ok C ∧ A.matrix = ok MA ∧ B.matrix = ok MB ∧ C.matrix = ok MC ∧
      DMat.Same MC (MA.mul MB) ∧ (DMat.Same MA MB ↔ SamePose d A B) := by
  obtain ⟨C, c1, c2, c3, c4⟩ := C17_mul d A B hA hB
  obtain ⟨MA, a1, a2, a3, a4⟩ := matrix_ok hA
  obtain ⟨MB, b1, b2, b3, b4⟩ := matrix_ok hB
  obtain ⟨MC, m1, m2, m3, m4⟩ := matrix_ok c2
  refine ⟨C, MA, MB, MC, c1, a1, b1, m1, ?_, ?_⟩
  · rw [DMat.same_iff ⟨m2, m3⟩]
    refine ⟨a2, b3, ?_⟩
    rw [DMat.toMat_mul a3, a4, b4, m4, homog_mul, c3, c4]
  · rw [DMat.same_iff ⟨a2, a3⟩, a4, b4]
    constructor
    · rintro ⟨-, -, h⟩; exact homog_inj h
    · rintro ⟨h1, h2⟩; exact ⟨b2, b3, by rw [h1, h2]⟩

/-! ### C18 -/

omit [Field K] in
/-- **C18.** Reading: in range, the accessors return exactly the requested block. -/
theorem C18_read (r d n i : Nat) (P : PArr K) (h : ArrOk r d n P) (hi : i < n) :
    (∃ R, P.rotationAt i = ok R ∧ R.rows = r ∧ R.cols = d ∧ R.toMat r d = rotM r d P i) ∧
    (∃ t, P.translationAt i = ok t ∧ t.rows = r ∧ t.cols = 1 ∧ colV r t = traV r d P i) ∧
    (∃ X, P.poseAt i = ok X ∧ X.rows = r ∧ X.cols = d + 1 ∧ X.toMat r d = rotM r d P i ∧
      (fun a : Fin r => X.v a d) = traV r d P i) := by
  refine ⟨⟨_, rotationAt_ok h hi, rfl, rfl, rotationAt_val P i⟩,
    ⟨_, translationAt_ok h hi, rfl, rfl, translationAt_val P i⟩, ⟨_, poseAt_ok h hi, rfl, rfl, ?_, ?_⟩⟩
  · ext a c; simp [DMat.block, rotM]
  · ext a; simp [DMat.block, traV]

omit [Field K] in
/-- **C18.** Writing rotation `i` changes that rotation and nothing else. -/
theorem C18_write_rotation (r d n i : Nat) (P : PArr K) (h : ArrOk r d n P) (hi : i < n) (B : DMat K)
    (hB : B.rows = r ∧ B.cols = d) :
    ∃ P', P.setRotation i B = ok P' ∧ ArrOk r d n P' ∧ rotM r d P' i = B.toMat r d ∧
      (∀ j, j ≠ i → rotM r d P' j = rotM r d P j) ∧ (∀ j, traV r d P' j = traV r d P j) := by
  refine ⟨_, setRotation_ok h hi hB, h, ?_, ?_, ?_⟩
  · rw [rotM_setRotation P i i hB, if_pos rfl]
  · intro j hj; rw [rotM_setRotation P i j hB, if_neg hj]
  · intro j; exact traV_setRotation P i j hB

omit [Field K] in
/-- **C18.** Writing translation `i` changes that translation and nothing else. -/
theorem C18_write_translation (r d n i : Nat) (P : PArr K) (h : ArrOk r d n P) (hi : i < n)
    (b : DMat K) (hb : b.rows = r ∧ b.cols = 1) :
    ∃ P', P.setTranslation i b = ok P' ∧ ArrOk r d n P' ∧ traV r d P' i = colV r b ∧
      (∀ j, j ≠ i → traV r d P' j = traV r d P j) ∧ (∀ j, rotM r d P' j = rotM r d P j) := by
  refine ⟨_, setTranslation_ok h hi hb, h, ?_, ?_, ?_⟩
  · rw [traV_setTranslation P i i hb, if_pos rfl]
  · intro j hj; rw [traV_setTranslation P i j hb, if_neg hj]
  · intro j; exact rotM_setTranslation P i j hb

omit [Field K] in
/-- **C18.** Writing pose `i` changes that pose and nothing else. -/
theorem C18_write_pose (r d n i : Nat) (P : PArr K) (h : ArrOk r d n P) (hi : i < n) (B : DMat K)
    (hB : B.rows = r ∧ B.cols = d + 1) :
    ∃ P', P.setPose i B = ok P' ∧ ArrOk r d n P' ∧ rotM r d P' i = B.toMat r d ∧
      traV r d P' i = (fun a : Fin r => B.v a d) ∧
      (∀ j, j ≠ i → rotM r d P' j = rotM r d P j ∧ traV r d P' j = traV r d P j) := by
  refine ⟨_, setPose_ok h hi hB, h, ?_, ?_, ?_⟩
  · rw [rotM_setPose P i i hB, if_pos rfl]
  · rw [traV_setPose P i i hB, if_pos rfl]
  · intro j hj
    rw [rotM_setPose P i j hB, if_neg hj, traV_setPose P i j hB, if_neg hj]
    exact ⟨rfl, rfl⟩

omit [Field K] in
/-- **C18.** Out of range every accessor aborts. -/
theorem C18_out_of_range (P : PArr K) (i : Nat) (hi : P.n ≤ i) (B : DMat K) :
    P.poseAt i = abort ∧ P.rotationAt i = abort ∧ P.translationAt i = abort ∧
      P.setPose i B = abort ∧ P.setRotation i B = abort ∧ P.setTranslation i B = abort := by
  have : decide (i < P.n) = false := by simp [hi]
  unfold poseAt rotationAt translationAt setPose setRotation setTranslation
  simp [this]

omit [Field K] in
/-- **C18.** `setData` accepts exactly the matrices of the right size and stores them. -/
theorem C18_setData (r d n : Nat) (P : PArr K) (h : ArrOk r d n P) (X : DMat K) :
    (X.rows = r ∧ X.cols = (d + 1) * n → P.setData X = ok { P with X := X }) ∧
    (¬ (X.rows = r ∧ X.cols = (d + 1) * n) → P.setData X = abort) := by
  refine ⟨setData_ok h, fun hX => ?_⟩
  unfold setData
  rw [h.1, h.2.1, h.2.2.1]
  by_cases c : X.rows = r
  · have e2 : (X.cols == (d + 1) * n) = false := beq_eq_false_iff_ne.2 fun e => hX ⟨c, e⟩
    simp only [c, e2, beq_self_eq_true, check_true, ok_bind]
    rfl
  · have e1 : (X.rows == r) = false := beq_eq_false_iff_ne.2 c
    rw [e1]
    rfl

/-- **C18.** The constructor gives identity poses: rotation `[I; 0]`, translation zero. -/
theorem C18_make (r d n : Nat) (hrd : d ≤ r) : ∃ P : PArr K, make r d n = ok P ∧ ArrOk r d n P ∧
    ∀ j < n, (∀ a c, rotM r d P j a c = if (a : Nat) = c then 1 else 0) ∧ traV r d P j = 0 := by
  obtain ⟨P, e, o, h⟩ := make_ok (K := K) (n := n) hrd
  refine ⟨P, e, o, fun j hj => ⟨fun a c => (h j hj).1 a c a.2 c.2, ?_⟩⟩
  ext a
  exact (h j hj).2 a a.2

end

/-! ### C19 -/

/-- **C19.** The maximum distance bounds every single translation distance and is attained (or zero
for an empty array). -/
theorem C19_max_value (r d n : Nat) (A B : PArr ℝ) (hA : ArrOk r d n A) (hB : ArrOk r d n B) :
    ∃ m, maxTranslationDistance A B = ok m ∧ 0 ≤ m ∧
      (∀ i < n, Spec.dist r (traV r d A i) (traV r d B i) ≤ m) ∧
      (0 < n → ∃ i < n, Spec.dist r (traV r d A i) (traV r d B i) = m) :=
  max_value hA hB

/-- **C19.** The maximum distance is zero exactly when all translations agree. -/
theorem C19_zero_iff (r d n : Nat) (A B : PArr ℝ) (hA : ArrOk r d n A) (hB : ArrOk r d n B) :
    maxTranslationDistance A B = ok 0 ↔ ∀ i < n, traV r d A i = traV r d B i := by
  obtain ⟨m, e, h0, h1, h2⟩ := max_value hA hB
  rw [e]
  constructor
  · intro h i hi
    cases h
    exact (dist_eq_zero _ _).1 (le_antisymm (h1 i hi) (dist_nonneg _ _))
  · intro h
    congr 1
    rcases Nat.eq_zero_or_pos n with rfl | hn
    · unfold maxTranslationDistance at e
      rw [hA.2.2.1, hA.2.1, hB.2.1, hB.2.2.1] at e
      simp only [beq_self_eq_true, check_true, ok_bind, List.range_zero, foldl_nil] at e
      cases e; rfl
    · obtain ⟨i, hi, e⟩ := h2 hn
      rw [← e, (dist_eq_zero _ _).2 (h i hi)]

/-- **C19.** The maximum distance is symmetric. -/
theorem C19_symmetric (r d n : Nat) (A B : PArr ℝ) (hA : ArrOk r d n A) (hB : ArrOk r d n B) :
    maxTranslationDistance A B = maxTranslationDistance B A := by
  obtain ⟨m, e, h0, h1, h2⟩ := max_value hA hB
  obtain ⟨m', e', h0', h1', h2'⟩ := max_value hB hA
  rw [e, e']
  rcases Nat.eq_zero_or_pos n with rfl | hn
  · have z := (C19_zero_iff r d 0 A B hA hB).2 (fun i hi => absurd hi (by omega))
    have z' := (C19_zero_iff r d 0 B A hB hA).2 (fun i hi => absurd hi (by omega))
    rw [← e, ← e', z, z']
  · congr 1
    obtain ⟨i, hi, rfl⟩ := h2 hn
    obtain ⟨j, hj, rfl⟩ := h2' hn
    apply le_antisymm
    · rw [dist_comm]; exact h1' i hi
    · rw [dist_comm]; exact h1 j hj

/-- **C19.** Triangle inequality. -/
theorem C19_triangle (r d n : Nat) (A B C : PArr ℝ) (hA : ArrOk r d n A) (hB : ArrOk r d n B)
    (hC : ArrOk r d n C) (ab bc ac : ℝ) (e1 : maxTranslationDistance A B = ok ab)
    (e2 : maxTranslationDistance B C = ok bc) (e3 : maxTranslationDistance A C = ok ac) :
    ac ≤ ab + bc := by
  obtain ⟨m1, f1, p1, h1, -⟩ := max_value hA hB
  obtain ⟨m2, f2, p2, h2, -⟩ := max_value hB hC
  obtain ⟨m3, f3, p3, -, h3⟩ := max_value hA hC
  rw [f1] at e1; cases e1
  rw [f2] at e2; cases e2
  rw [f3] at e3; cases e3
  rcases Nat.eq_zero_or_pos n with rfl | hn
  · have z := (C19_zero_iff r d 0 A C hA hC).2 (fun i hi => absurd hi (by omega))
    rw [f3] at z
    cases z
    linarith
  · obtain ⟨i, hi, rfl⟩ := h3 hn
    have := Spec.dist_triangle (traV r d A i) (traV r d B i) (traV r d C i)
    have := h1 i hi
    have := h2 i hi
    linarith

/-- **C19.** For non-empty arrays the average is the mean of the distances; it never exceeds the
maximum. -/
theorem C19_average (r d n : Nat) (hn : 0 < n) (A B : PArr ℝ) (hA : ArrOk r d n A)
    (hB : ArrOk r d n B) : ∃ a m, averageTranslationDistance A B = ok a ∧
      maxTranslationDistance A B = ok m ∧ 0 ≤ a ∧ a ≤ m ∧
      a = (∑ i ∈ Finset.range n, Spec.dist r (traV r d A i) (traV r d B i)) / n := by
  obtain ⟨m, e, h0, h1, -⟩ := max_value hA hB
  have ea := average_value hA hB
  rw [if_neg hn.ne'] at ea
  have hn' : (0 : ℝ) < n := by exact_mod_cast hn
  refine ⟨_, m, ea, e, ?_, ?_, rfl⟩
  · exact div_nonneg (Finset.sum_nonneg fun i _ => dist_nonneg _ _) hn'.le
  · rw [div_le_iff₀ hn']
    calc ∑ i ∈ Finset.range n, Spec.dist r (traV r d A i) (traV r d B i)
        ≤ ∑ i ∈ Finset.range n, m :=
          Finset.sum_le_sum fun i hi => h1 i (Finset.mem_range.1 hi)
      _ = m * n := by rw [Finset.sum_const, Finset.card_range, nsmul_eq_mul]; ring

/-! ### Concrete cases -/

section Examples

/-- A planar pose: quarter turn, translation (1, 2). -/
def exQuarter : PArr ℚ := ⟨2, 2, 1, ⟨2, 3, fun i j =>
  match i, j with
  | 0, 1 => -1 | 1, 0 => 1 | 0, 2 => 1 | 1, 2 => 2 | _, _ => 0⟩⟩

/-- It satisfies the hypotheses of C17. -/
example : ArrOk 2 2 1 exQuarter ∧ Rigid 2 exQuarter ∧ (rotM 2 2 exQuarter 0).det ≠ 0 := by
  have h1 : (rotM 2 2 exQuarter 0).det = 1 := by
    rw [Matrix.det_fin_two]
    simp [rotM, exQuarter]
  refine ⟨⟨rfl, rfl, rfl, rfl, rfl⟩, ⟨?_, h1⟩, by rw [h1]; exact one_ne_zero⟩
  ext i j
  fin_cases i <;> fin_cases j <;> simp [rotM, exQuarter, Matrix.mul_apply, Fin.sum_univ_two]

/-- Two arrays of three lifted poses, differing in one translation: hypotheses of C18 and C19. -/
noncomputable def exArr (s : ℝ) : PArr ℝ := ⟨3, 2, 3, ⟨3, 9, fun i j =>
  if i = j % 3 ∧ i < 2 then 1 else if j = 5 ∧ i = 0 then s else 0⟩⟩

example : ArrOk 3 2 3 (exArr 0) ∧ ArrOk 3 2 3 (exArr 1) ∧
    traV 3 2 (exArr 0) 1 ≠ traV 3 2 (exArr 1) 1 := by
  refine ⟨⟨rfl, rfl, rfl, rfl, rfl⟩, ⟨rfl, rfl, rfl, rfl, rfl⟩, fun h => ?_⟩
  have := congrFun h 0
  simp [traV, exArr] at this

end Examples

end Dpgo.Props
