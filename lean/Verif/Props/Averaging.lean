import Verif.Lemmas.RobustAvg
import Verif.Lemmas.Svd

/-! # C24, C25, C26: averaging -/

namespace Dpgo.Props

open Res Spec Matrix

section C24

theorem pos_of_ne {m n : Nat} {A : Matrix (Fin m) (Fin n) ℝ} (h : A ≠ 0) : 0 < frob2 A :=
  lt_of_le_of_ne (frob2_nonneg A) fun e => h (frob2_eq_zero.1 e.symm)

/-- C24: translation averaging returns the unique minimiser of the weighted sum of squared
distances, whenever the total weight is positive (single weights may be negative). -/
theorem C24_translation {d : Nat} {ts : List (DMat ℝ)} (h0 : ts ≠ []) (hs : Sized d 1 ts)
    (tau : List ℝ) (hw : 0 < totalWeight 1 ts.length tau) :
    ∃ t, singleTranslationAveraging ts tau = ok t ∧ t.rows = d ∧ t.cols = 1 ∧
      ∀ X : Matrix (Fin d) (Fin 1) ℝ, X ≠ t.toMat d 1 →
        weightedCost d 1 1 tau ts (t.toMat d 1) < weightedCost d 1 1 tau ts X := by
  rw [← totalWeight_eq] at hw
  obtain ⟨t, e, h1, h2, h3⟩ := translation_avg_ok h0 hs tau hw.ne'
  refine ⟨t, e, h1, h2, fun X hX => ?_⟩
  rw [weightedCost_eq, weightedCost_eq, cost_expand, cost_expand,
    map_fst_zip (weightsOr_length _ _ _)]
  generalize (weightsOr 1 ts.length tau).sum = W at *
  generalize wsum d 1 ((weightsOr 1 ts.length tau).zip ts) = S at *
  have hS : S = W • t.toMat d 1 := by
    rw [h3, smul_smul, mul_one_div_cancel hw.ne', one_smul]
  have hp : 0 < frob2 (X - t.toMat d 1) := pos_of_ne (sub_ne_zero.2 hX)
  rw [frob2_sub] at hp
  rw [hS, Matrix.mul_smul, Matrix.mul_smul, Matrix.trace_smul, Matrix.trace_smul, smul_eq_mul,
    smul_eq_mul, ← frob2_eq_trace]
  nlinarith

/-- C24: rotation averaging returns a rotation that minimises the weighted sum of squared chordal
distances over all rotations; no sign condition on the weights, the samples need not be rotations. -/
theorem C24_rotation {svd : SvdOracle} (hsvd : LawfulSvd svd) {d : Nat} {Rs : List (DMat ℝ)}
    (h0 : Rs ≠ []) (hs : Sized d d Rs) (kappa : List ℝ) :
    ∃ R, singleRotationAveraging svd Rs kappa = ok R ∧ R.rows = d ∧ R.cols = d ∧
      IsRot (R.toMat d d) ∧ ∀ Q, IsRot Q →
        weightedCost d d 1 kappa Rs (R.toMat d d) ≤ weightedCost d d 1 kappa Rs Q := by
  refine ⟨_, rotation_avg_ok svd h0 hs kappa, rfl, rfl, ?_⟩
  rw [DMat.toMat_ofMat]
  obtain ⟨hR, hmin⟩ := rotProj_spec
    (hsvd d d (wsum d d ((weightsOr 1 Rs.length kappa).zip Rs)) (le_refl d))
  refine ⟨hR, fun Q hQ => ?_⟩
  have h := hmin Q hQ
  rw [frob2_sub, frob2_sub, frob2_ortho hR.1, frob2_ortho hQ.1] at h
  rw [weightedCost_eq, weightedCost_eq, cost_expand, cost_expand, frob2_ortho hR.1,
    frob2_ortho hQ.1]
  linarith

/-- C24: pose averaging averages rotations and translations separately. -/
theorem C24_pose {svd : SvdOracle} (hsvd : LawfulSvd svd) {d : Nat} {Rs ts : List (DMat ℝ)}
    (h0 : Rs ≠ []) (hR : Sized d d Rs) (ht : Sized d 1 ts) (hl : Rs.length = ts.length)
    (kappa tau : List ℝ) (hw : 0 < totalWeight 1 ts.length tau) :
    ∃ R t, singlePoseAveraging svd Rs ts kappa tau = ok (R, t) ∧ IsRot (R.toMat d d) ∧
      (∀ Q, IsRot Q →
        weightedCost d d 1 kappa Rs (R.toMat d d) ≤ weightedCost d d 1 kappa Rs Q) ∧
      ∀ X : Matrix (Fin d) (Fin 1) ℝ, X ≠ t.toMat d 1 →
        weightedCost d 1 1 tau ts (t.toMat d 1) < weightedCost d 1 1 tau ts X := by
  have h0' : ts ≠ [] := by rintro rfl; simp at hl; exact h0 hl
  obtain ⟨t, et, -, -, ht'⟩ := C24_translation h0' ht tau hw
  obtain ⟨R, eR, -, -, hR1, hR2⟩ := C24_rotation hsvd h0 hR kappa
  refine ⟨R, t, ?_, hR1, hR2, ht'⟩
  cases Rs with
  | nil => exact absurd rfl h0
  | cons a l =>
    cases ts with
    | nil => exact absurd rfl h0'
    | cons b m =>
      simp only [singlePoseAveraging]
      rw [hl, (hR a (by simp)).1, (ht b (by simp)).1, et, eR]
      simp

/-- Two samples at 0 and 4 with weights 1 and 3: the average is 3, and it is the strict minimiser. -/
example : ∃ t, singleTranslationAveraging [⟨1, 1, fun _ _ => 0⟩, ⟨1, 1, fun _ _ => 4⟩] [1, 3] = ok t ∧
    t.v 0 0 = 3 := by
  obtain ⟨t, e, -, -, h⟩ := translation_avg_ok (d := 1)
    (ts := [⟨1, 1, fun _ _ => 0⟩, ⟨1, 1, fun _ _ => 4⟩]) (by simp) (by simp [Sized]) [1, 3]
    (by norm_num [weightsOr])
  refine ⟨t, e, ?_⟩
  have := congrFun (congrFun h 0) 0
  simp only [DMat.toMat_apply] at this
  rw [show ((0 : Fin 1) : Nat) = 0 from rfl] at this
  rw [this]
  norm_num [weightsOr, wsum, DMat.toMat]

example : 0 < totalWeight 1 2 [1, 3] := by
  norm_num [totalWeight, weightAt, Fin.sum_univ_two]

/-- A lawful SVD exists, so the hypotheses of `C24_rotation` can be met. -/
example : ∃ svd, LawfulSvd svd := exists_lawfulSvd

end C24

section C25

/-- C25: every inlier reported by robust rotation averaging is a valid index, in increasing order,
and its residual with respect to the *returned* rotation is below the threshold; whatever the SVD
routine does and whether or not the graduated scheme ran or converged. -/
theorem C25_rotation (svd : SvdOracle) {Rs : List (DMat ℝ)} {kappa : List ℝ} {thr : ℝ}
    (hthr : 0 < thr) {R : DMat ℝ} {inl : List Nat}
    (h : robustSingleRotationAveraging svd Rs kappa thr = ok (R, inl)) :
    inl.Pairwise (· < ·) ∧ Sized R.rows R.cols Rs ∧ ∀ i ∈ inl, ∃ hi : i < Rs.length,
      weightAt 1 Rs.length kappa i *
        frob2 (R.toMat R.rows R.cols - (Rs[i]).toMat R.rows R.cols) < thr ^ 2 := by
  unfold robustSingleRotationAveraging at h
  simp only [bind_eq_ok] at h
  obtain ⟨_, -, _, -, R0, -, o, ho, h⟩ := h
  simp only [ok.injEq, Prod.mk.injEq] at h
  obtain ⟨rfl, rfl⟩ := h
  obtain ⟨-, -, rs, hrs, hin⟩ := robustAverage_inlier hthr (by norm_num) ho
  obtain ⟨hsz, hval⟩ := (rotResiduals_iff _ _ _).1 hrs
  have hlen : ((weightsOr 1 Rs.length kappa).zip Rs).length = Rs.length := by
    simp [weightsOr_length]
  have hsize : Sized o.est.rows o.est.cols Rs := by
    intro A hA
    obtain ⟨j, hj, rfl⟩ := List.getElem_of_mem hA
    have := hsz (((weightsOr 1 Rs.length kappa).zip Rs)[j]'(by rw [hlen]; exact hj))
      (List.getElem_mem _)
    simp only [List.getElem_zip] at this
    exact ⟨this.1.symm, this.2.symm⟩
  have hwlen := robustAverage_weights_length ho (fun e rs h => by
    rw [((rotResiduals_iff _ _ _).1 h).2, List.length_map, hlen])
  refine ⟨inliers_sorted _, hsize, fun i hi => ?_⟩
  obtain ⟨hil, -⟩ := mem_inliers.1 hi
  rw [hwlen] at hil
  refine ⟨hil, ?_⟩
  have := hin i hi (by rw [hval, List.length_map, hlen]; exact hil)
  simp only [hval, List.getElem_map, List.getElem_zip] at this
  rw [DMat.normSq_frob (A := o.est.sub _) (m := o.est.rows) (n := o.est.cols) ⟨rfl, rfl⟩, DMat.toMat_sub] at this
  rw [← weightsOr_getD 1 _ kappa hil, getD_eq (by rw [weightsOr_length]; exact hil)]
  exact this

/-- C25 for poses: the residual of an inlier with respect to the returned pose is below the
threshold. -/
theorem C25_pose (svd : SvdOracle) {Rs ts : List (DMat ℝ)} {kappa tau : List ℝ} {thr : ℝ}
    (hthr : 0 < thr) {R t : DMat ℝ} {inl : List Nat}
    (h : robustSinglePoseAveraging svd Rs ts kappa tau thr = ok ((R, t), inl)) :
    inl.Pairwise (· < ·) ∧ Sized R.rows R.cols Rs ∧ Sized t.rows t.cols ts ∧
    ∀ i ∈ inl, ∃ (hi : i < Rs.length) (hj : i < ts.length),
      weightAt 10000 Rs.length kappa i *
          frob2 (R.toMat R.rows R.cols - (Rs[i]).toMat R.rows R.cols) +
        weightAt 100 Rs.length tau i *
          frob2 (t.toMat t.rows t.cols - (ts[i]).toMat t.rows t.cols) < thr ^ 2 := by
  unfold robustSinglePoseAveraging at h
  simp only [bind_eq_ok] at h
  obtain ⟨_, -, _, hl, _, -, R0, -, o, ho, h⟩ := h
  rw [check_eq_ok, beq_iff_eq] at hl
  simp only [ok.injEq, Prod.mk.injEq] at h
  obtain ⟨he, rfl⟩ := h
  obtain ⟨-, -, rs, hrs, hin⟩ := robustAverage_inlier hthr (by norm_num) ho
  obtain ⟨hsz, hval⟩ := (poseResiduals_iff _ _ _).1 hrs
  have hlen : (((weightsOr 10000 Rs.length kappa).zip Rs).zip
      ((weightsOr 100 Rs.length tau).zip ts)).length = Rs.length := by
    simp [weightsOr_length, hl]
  have hall : ∀ j, ∀ hj : j < Rs.length, (R.rows = (Rs[j]).rows ∧ R.cols = (Rs[j]).cols) ∧
      (t.rows = (ts[j]'(by omega)).rows ∧ t.cols = (ts[j]'(by omega)).cols) := by
    intro j hj
    have := hsz _ (List.getElem_mem (n := j) (by rw [hlen]; exact hj))
    simp only [List.getElem_zip, he] at this
    exact this
  have hwlen := robustAverage_weights_length ho (fun e rs h => by
    rw [((poseResiduals_iff _ _ _).1 h).2, List.length_map, hlen])
  refine ⟨inliers_sorted _, ?_, ?_, fun i hi => ?_⟩
  · intro A hA
    obtain ⟨j, hj, rfl⟩ := List.getElem_of_mem hA
    exact ⟨(hall j hj).1.1.symm, (hall j hj).1.2.symm⟩
  · intro A hA
    obtain ⟨j, hj, rfl⟩ := List.getElem_of_mem hA
    have := hall j (by omega)
    exact ⟨this.2.1.symm, this.2.2.symm⟩
  obtain ⟨hil, -⟩ := mem_inliers.1 hi
  rw [hwlen] at hil
  refine ⟨hil, by omega, ?_⟩
  have := hin i hi (by rw [hval, List.length_map, hlen]; exact hil)
  simp only [hval, List.getElem_map, List.getElem_zip, he] at this
  rw [DMat.normSq_frob (A := R.sub _) (m := R.rows) (n := R.cols) ⟨rfl, rfl⟩, DMat.toMat_sub,
    DMat.normSq_frob (A := t.sub _) (m := t.rows) (n := t.cols) ⟨rfl, rfl⟩, DMat.toMat_sub] at this
  rw [← weightsOr_getD 10000 _ kappa hil, ← weightsOr_getD 100 _ tau hil,
    getD_eq (by rw [weightsOr_length]; exact hil),
    getD_eq (by rw [weightsOr_length]; exact hil)]
  exact this

/-- C25: the number of passes never exceeds the budget, whatever the averaging step and the residuals
do (in particular the loop terminates). -/
theorem C25_budget {E : Type} {n k : Nat} {thr : ℝ} (hthr : 0 < thr) (hk : 0 < k)
    {solve : List ℝ → Res E} {resid : E → Res (List ℝ)} {e0 : E} {o : GncOut E}
    (h : robustAverage n k thr solve resid e0 = ok o) : o.iters ≤ k :=
  (robustAverage_inlier hthr hk h).1

/-- C25: on square samples of one size with non-negative weights, robust rotation averaging always
returns, and returns a rotation. -/
theorem C25_rotation_total {svd : SvdOracle} (hsvd : LawfulSvd svd) {d : Nat} {Rs : List (DMat ℝ)}
    (h0 : Rs ≠ []) (hs : Sized d d Rs) {kappa : List ℝ}
    (hk : ∀ i < Rs.length, 0 ≤ weightAt 1 Rs.length kappa i) {thr : ℝ} (hthr : 0 < thr) :
    ∃ R inl, robustSingleRotationAveraging svd Rs kappa thr = ok (R, inl) ∧ R.rows = d ∧
      R.cols = d ∧ IsRot (R.toMat d d) := by
  have hkl := weightsOr_length 1 Rs.length kappa
  have hk' := weightsOr_nonneg hk
  have hsolve : ∀ w : List ℝ, ∃ e, singleRotationAveraging svd Rs w = ok e ∧
      (e.rows = d ∧ e.cols = d ∧ IsRot (e.toMat d d)) := by
    intro w
    obtain ⟨R, e, h1, h2, h3, -⟩ := C24_rotation hsvd h0 hs w
    exact ⟨R, e, h1, h2, h3⟩
  obtain ⟨R0, e0, hP0⟩ := hsolve (weightsOr 1 Rs.length kappa)
  have hres : ∀ e : DMat ℝ, (e.rows = d ∧ e.cols = d ∧ IsRot (e.toMat d d)) →
      ∃ rs, rotResiduals e ((weightsOr 1 Rs.length kappa).zip Rs) = ok rs ∧
        rs.length = Rs.length ∧ ∀ r ∈ rs, 0 ≤ r := by
    intro e he
    refine ⟨_, (rotResiduals_iff _ _ _).2 ⟨fun p hp => ?_, rfl⟩, by simp [hkl], ?_⟩
    · have := sized_zip hs _ p hp
      exact ⟨he.1.trans this.1.symm, he.2.1.trans this.2.symm⟩
    · intro r hr
      obtain ⟨p, hp, rfl⟩ := List.mem_map.1 hr
      refine mul_nonneg (hk' _ (List.of_mem_zip (a := p.1) (b := p.2) hp).1) ?_
      rw [DMat.normSq_frob (A := e.sub p.2) (m := e.rows) (n := e.cols) ⟨rfl, rfl⟩]
      exact frob2_nonneg _
  obtain ⟨o, ho, hP⟩ := robustAverage_total (k := 1000) hthr
    (fun e : DMat ℝ => e.rows = d ∧ e.cols = d ∧ IsRot (e.toMat d d))
    (solve := fun w => singleRotationAveraging svd Rs (cwise (weightsOr 1 Rs.length kappa) w))
    (List.length_pos_iff.2 h0) (fun w _ _ _ => hsolve _) hres hP0
  refine ⟨o.est, inliers o.weights, ?_, hP⟩
  unfold robustSingleRotationAveraging
  rw [decide_eq_true (List.length_pos_iff.2 h0), checkRotations_ok hs]
  simp only [check_true, ok_bind]
  rw [e0, ok_bind, ho, ok_bind]

/-- C25 for poses: with positive translation weights and non-negative rotation weights the call always
returns, and the rotation part is a rotation. -/
theorem C25_pose_total {svd : SvdOracle} (hsvd : LawfulSvd svd) {d : Nat} {Rs ts : List (DMat ℝ)}
    (h0 : Rs ≠ []) (hR : Sized d d Rs) (ht : Sized d 1 ts) (hl : ts.length = Rs.length)
    {kappa tau : List ℝ} (hk : ∀ i < Rs.length, 0 ≤ weightAt 10000 Rs.length kappa i)
    (hta : ∀ i < Rs.length, 0 < weightAt 100 Rs.length tau i) {thr : ℝ} (hthr : 0 < thr) :
    ∃ R t inl, robustSinglePoseAveraging svd Rs ts kappa tau thr = ok ((R, t), inl) ∧
      IsRot (R.toMat d d) := by
  have hn : 0 < Rs.length := List.length_pos_iff.2 h0
  have hkl := weightsOr_length 10000 Rs.length kappa
  have htl := weightsOr_length 100 Rs.length tau
  have hk' := weightsOr_nonneg hk
  have ht' := weightsOr_pos hta
  have hsolve : ∀ w : List ℝ, w.length = Rs.length → (∀ x ∈ w, 0 ≤ x) → (∃ x ∈ w, 0 < x) →
      ∃ e, singlePoseAveraging svd Rs ts (cwise (weightsOr 10000 Rs.length kappa) w)
        (cwise (weightsOr 100 Rs.length tau) w) = ok e ∧
      (e.1.rows = d ∧ e.1.cols = d ∧ e.2.rows = d ∧ e.2.cols = 1 ∧ IsRot (e.1.toMat d d)) := by
    intro w hwl hw0 hwp
    have hcl : (cwise (weightsOr 100 Rs.length tau) w).length = ts.length := by
      simp [cwise, htl, hwl, hl]
    have hsum := cwise_sum_pos (htl.trans hwl.symm) ht' hw0 hwp
    obtain ⟨t, et, t1, t2, -⟩ := translation_avg_ok (ts := ts)
      (by rintro rfl; simp at hl; omega) ht (cwise (weightsOr 100 Rs.length tau) w)
      (by rw [weightsOr_self 1 hcl]; exact hsum.ne')
    obtain ⟨R, eR, r1, r2, r3, -⟩ := C24_rotation hsvd h0 hR
      (cwise (weightsOr 10000 Rs.length kappa) w)
    exact ⟨(R, t), singlePoseAveraging_ok hn hR ht hl et eR, r1, r2, t1, t2, r3⟩
  obtain ⟨e0, he0, hP0⟩ := hsolve (List.replicate Rs.length 1) (by simp)
    (fun x hx => by rw [List.eq_of_mem_replicate hx]; norm_num)
    ⟨1, List.mem_replicate.2 ⟨by omega, rfl⟩, one_pos⟩
  have hres : ∀ e : DMat ℝ × DMat ℝ, (e.1.rows = d ∧ e.1.cols = d ∧ e.2.rows = d ∧ e.2.cols = 1 ∧
      IsRot (e.1.toMat d d)) →
      ∃ rs, poseResiduals e (((weightsOr 10000 Rs.length kappa).zip Rs).zip
        ((weightsOr 100 Rs.length tau).zip ts)) = ok rs ∧
        rs.length = Rs.length ∧ ∀ r ∈ rs, 0 ≤ r := by
    intro e he
    refine ⟨_, (poseResiduals_iff _ _ _).2 ⟨fun p hp => ?_, rfl⟩, by simp [hkl, htl, hl], ?_⟩
    · have hm := List.of_mem_zip (a := p.1) (b := p.2) hp
      have h1 := sized_zip hR _ p.1 hm.1
      have h2 := sized_zip ht _ p.2 hm.2
      exact ⟨⟨he.1.trans h1.1.symm, he.2.1.trans h1.2.symm⟩,
        he.2.2.1.trans h2.1.symm, he.2.2.2.1.trans h2.2.symm⟩
    · intro r hr
      obtain ⟨p, hp, rfl⟩ := List.mem_map.1 hr
      have hm := List.of_mem_zip (a := p.1) (b := p.2) hp
      rw [DMat.normSq_frob (A := e.1.sub _) (m := e.1.rows) (n := e.1.cols) ⟨rfl, rfl⟩,
        DMat.normSq_frob (A := e.2.sub _) (m := e.2.rows) (n := e.2.cols) ⟨rfl, rfl⟩]
      exact add_nonneg
        (mul_nonneg (hk' _ (List.of_mem_zip (a := p.1.1) (b := p.1.2) hm.1).1) (frob2_nonneg _))
        (mul_nonneg (ht' _ (List.of_mem_zip (a := p.2.1) (b := p.2.2) hm.2).1).le (frob2_nonneg _))
  obtain ⟨o, ho, hP⟩ := robustAverage_total (k := 10000) hthr
    (fun e : DMat ℝ × DMat ℝ => e.1.rows = d ∧ e.1.cols = d ∧ e.2.rows = d ∧ e.2.cols = 1 ∧
      IsRot (e.1.toMat d d)) hn hsolve hres hP0
  refine ⟨o.est.1, o.est.2, inliers o.weights, ?_, hP.2.2.2.2⟩
  unfold robustSinglePoseAveraging
  rw [decide_eq_true hn, checkRotations_ok hR, hl]
  simp only [check_true, ok_bind, beq_self_eq_true]
  rw [he0, ok_bind, ho, ok_bind]

/-- Two different `1 × 1` samples meet the hypotheses of `C25_rotation_total`; hence of
`C25_rotation`. -/
example : ∃ (svd : SvdOracle) (R : DMat ℝ) (inl : List Nat),
    robustSingleRotationAveraging svd [⟨1, 1, fun _ _ => 1⟩, ⟨1, 1, fun _ _ => 5⟩] [] 1 =
      ok (R, inl) := by
  obtain ⟨svd, hsvd⟩ := exists_lawfulSvd
  obtain ⟨R, inl, h, -⟩ := C25_rotation_total hsvd (d := 1)
    (Rs := [⟨1, 1, fun _ _ => 1⟩, ⟨1, 1, fun _ _ => 5⟩]) (by simp) (by simp [Sized]) (kappa := [])
    (by intro i _; simp [weightAt]) (thr := 1) one_pos
  exact ⟨svd, R, inl, h⟩

end C25

section C26

/-- C26: if all samples are the same rotation, it is returned and every index is an inlier. -/
theorem C26_rotation {svd : SvdOracle} (hsvd : LawfulSvd svd) {d : Nat} {Rs : List (DMat ℝ)}
    (h0 : Rs ≠ []) (hs : Sized d d Rs) {Q : Matrix (Fin d) (Fin d) ℝ} (hQ : IsRot Q)
    (hall : ∀ A ∈ Rs, A.toMat d d = Q) {kappa : List ℝ}
    (hk : 0 < totalWeight 1 Rs.length kappa) {thr : ℝ} (hthr : 0 < thr) :
    ∃ R, robustSingleRotationAveraging svd Rs kappa thr = ok (R, List.range Rs.length) ∧
      R.rows = d ∧ R.cols = d ∧ R.toMat d d = Q := by
  have hkl := weightsOr_length 1 Rs.length kappa
  have e0 := rotation_consistent hsvd h0 hs hQ hall hkl
    (by rw [totalWeight_eq]; exact hk)
  refine ⟨DMat.ofMat Q, ?_, rfl, rfl, DMat.toMat_ofMat Q⟩
  unfold robustSingleRotationAveraging
  rw [decide_eq_true (List.length_pos_iff.2 h0), checkRotations_ok hs]
  simp only [check_true, ok_bind]
  rw [e0, ok_bind, robustAverage_zero hthr (rs := (((weightsOr 1 Rs.length kappa).zip Rs)).map
    fun p => p.1 * ((DMat.ofMat Q).sub p.2).normSq), ok_bind, inliers_ones]
  · refine (rotResiduals_iff _ _ _).2 ⟨fun p hp => ?_, rfl⟩
    have := sized_zip hs _ p hp
    exact ⟨this.1.symm, this.2.symm⟩
  · intro x hx
    obtain ⟨p, hp, rfl⟩ := List.mem_map.1 hx
    rw [normSq_same (hall _ (List.of_mem_zip (a := p.1) (b := p.2) hp).2), mul_zero]

/-- C26: if all samples are the same pose, it is returned and every index is an inlier. -/
theorem C26_pose {svd : SvdOracle} (hsvd : LawfulSvd svd) {d : Nat} {Rs ts : List (DMat ℝ)}
    (h0 : Rs ≠ []) (hR : Sized d d Rs) (ht : Sized d 1 ts) (hl : ts.length = Rs.length)
    {Q : Matrix (Fin d) (Fin d) ℝ} (hQ : IsRot Q) {q : Matrix (Fin d) (Fin 1) ℝ}
    (hallR : ∀ A ∈ Rs, A.toMat d d = Q) (hallt : ∀ a ∈ ts, a.toMat d 1 = q)
    {kappa tau : List ℝ} (hk : 0 < totalWeight 10000 Rs.length kappa)
    (hta : 0 < totalWeight 100 Rs.length tau) {thr : ℝ} (hthr : 0 < thr) :
    ∃ R t, robustSinglePoseAveraging svd Rs ts kappa tau thr = ok ((R, t), List.range Rs.length) ∧
      R.toMat d d = Q ∧ t.rows = d ∧ t.cols = 1 ∧ t.toMat d 1 = q := by
  have hn : 0 < Rs.length := List.length_pos_iff.2 h0
  have hkl := weightsOr_length 10000 Rs.length kappa
  have htl := weightsOr_length 100 Rs.length tau
  have ek : cwise (weightsOr 10000 Rs.length kappa) (List.replicate Rs.length 1) =
      weightsOr 10000 Rs.length kappa := cwise_ones hkl
  have et : cwise (weightsOr 100 Rs.length tau) (List.replicate Rs.length 1) =
      weightsOr 100 Rs.length tau := cwise_ones htl
  have e0 := rotation_consistent hsvd h0 hR hQ hallR hkl (by rw [totalWeight_eq]; exact hk)
  have hne : ts ≠ [] := by rintro rfl; simp at hl; omega
  have hself : weightsOr 1 ts.length (weightsOr 100 Rs.length tau) = weightsOr 100 Rs.length tau :=
    weightsOr_self 1 (htl.trans hl.symm)
  have hpos : 0 < (weightsOr 100 Rs.length tau).sum := by rw [totalWeight_eq]; exact hta
  obtain ⟨t, et', t1, t2, t3⟩ := translation_avg_ok hne ht (weightsOr 100 Rs.length tau)
    (by rw [hself]; exact hpos.ne')
  have htq : t.toMat d 1 = q := by
    rw [t3, hself, wsum_const (R := q) _ (fun p hp =>
      hallt _ (List.of_mem_zip (a := p.1) (b := p.2) hp).2), map_fst_zip (htl.trans hl.symm),
      smul_smul, one_div_mul_cancel hpos.ne', one_smul]
  refine ⟨DMat.ofMat Q, t, ?_, DMat.toMat_ofMat Q, t1, t2, htq⟩
  unfold robustSinglePoseAveraging
  rw [decide_eq_true hn, checkRotations_ok hR, hl]
  simp only [check_true, ok_bind, beq_self_eq_true]
  rw [ek, et, singlePoseAveraging_ok hn hR ht hl et' e0, ok_bind, robustAverage_zero hthr
    (rs := ((((weightsOr 10000 Rs.length kappa).zip Rs)).zip
      ((weightsOr 100 Rs.length tau).zip ts)).map
    fun p => p.1.1 * ((DMat.ofMat Q).sub p.1.2).normSq + p.2.1 * (t.sub p.2.2).normSq), ok_bind,
    inliers_ones]
  · refine (poseResiduals_iff _ _ _).2 ⟨fun p hp => ?_, rfl⟩
    have hm := List.of_mem_zip (a := p.1) (b := p.2) hp
    have h1 := sized_zip hR _ p.1 hm.1
    have h2 := sized_zip ht _ p.2 hm.2
    exact ⟨⟨h1.1.symm, h1.2.symm⟩, t1.trans h2.1.symm, t2.trans h2.2.symm⟩
  · intro x hx
    obtain ⟨p, hp, rfl⟩ := List.mem_map.1 hx
    have hm := List.of_mem_zip (a := p.1) (b := p.2) hp
    rw [normSq_same (hallR _ (List.of_mem_zip (a := p.1.1) (b := p.1.2) hm.1).2),
      normSq_same' t1 t2 (htq.trans
        (hallt _ (List.of_mem_zip (a := p.2.1) (b := p.2.2) hm.2).2).symm), mul_zero, mul_zero,
      add_zero]

/-- A quarter turn, three times. -/
example : ∃ (svd : SvdOracle) (R : DMat ℝ),
    robustSingleRotationAveraging svd (List.replicate 3 (DMat.ofMat !![0, -1; 1, 0])) [] (1 / 10) =
      ok (R, [0, 1, 2]) ∧ R.toMat 2 2 = !![0, -1; 1, 0] := by
  obtain ⟨svd, hsvd⟩ := exists_lawfulSvd
  obtain ⟨R, h, -, -, h2⟩ := C26_rotation hsvd (d := 2)
    (Rs := List.replicate 3 (DMat.ofMat !![0, -1; 1, 0])) (Q := !![0, -1; 1, 0]) (kappa := [])
    (thr := 1 / 10) (by simp) (by intro A hA; rw [List.eq_of_mem_replicate hA]; exact ⟨rfl, rfl⟩)
    ⟨by ext i j; fin_cases i <;> fin_cases j <;> simp [Matrix.mul_apply, Fin.sum_univ_two],
      by simp [Matrix.det_fin_two]⟩
    (by intro A hA; rw [List.eq_of_mem_replicate hA]; exact DMat.toMat_ofMat _)
    (by norm_num [totalWeight, weightAt, Fin.sum_univ_three]) (by norm_num)
  exact ⟨svd, R, h, h2⟩

end C26

end Dpgo.Props
