import Verif.Lemmas.DemoSingle
import Verif.Lemmas.ChordalExact
import Verif.Model.Examples
import Verif.Spec.Examples

/-! # Lemmas about the single-robot example programs -/

namespace Dpgo.Example

open Res Spec PoseGraph Finset Matrix

section
variable {d n : Nat} {D : List (Meas ℝ)} {T : PArr ℝ}

/-! ### Costs of satisfied measurements -/

theorem rotRes_eq (d : Nat) (m : Meas ℝ) (T : PArr ℝ) :
    rotRes d d m T.X m.p1 T.X m.p2 = ∑ a : Fin d, ∑ c : Fin d,
      (rotM d d T m.p2 a c - (rotM d d T m.p1 * m.R.toMat d d) a c) ^ 2 := by
  unfold rotRes
  rw [Finset.sum_range]
  refine Finset.sum_congr rfl fun a _ => ?_
  rw [Finset.sum_range]
  refine Finset.sum_congr rfl fun c _ => ?_
  rw [Matrix.mul_apply, Finset.sum_range]
  rfl

theorem traRes_eq (d : Nat) (m : Meas ℝ) (T : PArr ℝ) :
    traRes d d m T.X m.p1 T.X m.p2 = ∑ a : Fin d,
      (traV d d T m.p2 a - traV d d T m.p1 a - (rotM d d T m.p1 *ᵥ colV d m.t) a) ^ 2 := by
  unfold traRes
  rw [Finset.sum_range]
  refine Finset.sum_congr rfl fun a _ => ?_
  rw [Finset.sum_range]
  rfl

theorem res_zero_iff (d : Nat) (m : Meas ℝ) (T : PArr ℝ) :
    (rotRes d d m T.X m.p1 T.X m.p2 = 0 ∧ traRes d d m T.X m.p1 T.X m.p2 = 0) ↔
      Satisfied d T m.p1 m.p2 m := by
  rw [rotRes_eq, traRes_eq]
  constructor
  · rintro ⟨h1, h2⟩
    rw [Finset.sum_eq_zero_iff_of_nonneg (fun _ _ => Finset.sum_nonneg fun _ _ => sq_nonneg _)] at h1
    rw [Finset.sum_eq_zero_iff_of_nonneg (fun _ _ => sq_nonneg _)] at h2
    refine ⟨?_, ?_⟩
    · ext a c
      have := h1 a (Finset.mem_univ _)
      rw [Finset.sum_eq_zero_iff_of_nonneg (fun _ _ => sq_nonneg _)] at this
      exact sub_eq_zero.1 (pow_eq_zero_iff two_ne_zero |>.1 (this c (Finset.mem_univ _)))
    · ext a
      have := pow_eq_zero_iff two_ne_zero |>.1 (h2 a (Finset.mem_univ _))
      rw [Pi.add_apply]
      linarith
  · rintro ⟨h1, h2⟩
    rw [h1, h2]
    simp

theorem rotRes_nonneg (r d : Nat) (m : Meas ℝ) (A B : DMat ℝ) (i j : Nat) : 0 ≤ rotRes r d m A i B j :=
  Finset.sum_nonneg fun _ _ => Finset.sum_nonneg fun _ _ => sq_nonneg _

theorem traRes_nonneg (r d : Nat) (m : Meas ℝ) (A B : DMat ℝ) (i j : Nat) : 0 ≤ traRes r d m A i B j :=
  Finset.sum_nonneg fun _ _ => sq_nonneg _

theorem edgeCost_nonneg {r d : Nat} {m : Meas ℝ} (hp : 0 ≤ m.kappa ∧ 0 ≤ m.tau) (hw : 0 ≤ m.weight)
    (A B : DMat ℝ) (i j : Nat) : 0 ≤ edgeCost r d m A i B j :=
  mul_nonneg hw (add_nonneg (mul_nonneg hp.1 (rotRes_nonneg ..)) (mul_nonneg hp.2 (traRes_nonneg ..)))

theorem pgoCost_zero (h : ∀ m ∈ D, Satisfied d T m.p1 m.p2 m) : pgoCost d D T = 0 := by
  unfold pgoCost teamCost
  rw [List.sum_eq_zero, mul_zero]
  intro x hx
  obtain ⟨m, hm, rfl⟩ := List.mem_map.1 hx
  obtain ⟨h1, h2⟩ := (res_zero_iff d m T).2 (h m (mem_of_firstWins hm))
  simp only [edgeCost, h1, h2]
  ring

theorem pgoCost_nonneg (hp : Precise D) (hw : ∀ m ∈ D, 0 ≤ m.weight) (T : PArr ℝ) : 0 ≤ pgoCost d D T := by
  unfold pgoCost teamCost
  refine mul_nonneg (by norm_num) (List.sum_nonneg fun x hx => ?_)
  obtain ⟨m, hm, rfl⟩ := List.mem_map.1 hx
  exact edgeCost_nonneg (hp m (mem_of_firstWins hm)) (hw m (mem_of_firstWins hm)) _ _ _ _

theorem satisfied_of_cost (hp : ∀ m ∈ D, 0 < m.kappa ∧ 0 < m.tau) (hw : ∀ m ∈ D, 0 < m.weight)
    (h : pgoCost d D T ≤ 0) : ∀ m ∈ firstWins D, Satisfied d T m.p1 m.p2 m := by
  intro m hm
  have hm' := mem_of_firstWins hm
  have h0 : ∀ x ∈ (firstWins D).map (fun m => edgeCost d d m T.X m.p1 T.X m.p2), 0 ≤ x := by
    intro x hx
    obtain ⟨m, hm, rfl⟩ := List.mem_map.1 hx
    exact edgeCost_nonneg ⟨(hp m (mem_of_firstWins hm)).1.le, (hp m (mem_of_firstWins hm)).2.le⟩
      (hw m (mem_of_firstWins hm)).le _ _ _ _
  have h1 : ((firstWins D).map (fun m => edgeCost d d m T.X m.p1 T.X m.p2)).sum ≤ 0 := by
    unfold pgoCost teamCost at h
    linarith
  have h2 := List.single_le_sum h0 _ (List.mem_map.2 ⟨m, hm, rfl⟩)
  have a := mul_nonneg (hp m hm').1.le (rotRes_nonneg d d m T.X T.X m.p1 m.p2)
  have b := mul_nonneg (hp m hm').2.le (traRes_nonneg d d m T.X T.X m.p1 m.p2)
  have h3 : m.weight * (m.kappa * rotRes d d m T.X m.p1 T.X m.p2 + m.tau * traRes d d m T.X m.p1 T.X m.p2) ≤ 0 :=
    h2.trans h1
  have h4 := nonpos_of_mul_nonpos_right h3 (hw m hm')
  refine (res_zero_iff d m T).1 ⟨?_, ?_⟩
  · have : m.kappa * rotRes d d m T.X m.p1 T.X m.p2 = 0 := by linarith
    exact (mul_eq_zero.1 this).resolve_left (hp m hm').1.ne'
  · have : m.tau * traRes d d m T.X m.p1 T.X m.p2 = 0 := by linarith
    exact (mul_eq_zero.1 this).resolve_left (hp m hm').2.ne'

theorem residual_zero (hT : ArrOk d d n T) {m : Meas ℝ} (hm : MeasDim d m) (h1 : m.p1 < n) (h2 : m.p2 < n)
    (hs : Satisfied d T m.p1 m.p2 m) : pgoResidual T m = ok 0 := by
  unfold pgoResidual
  simp only [PArr.rotationAt_ok hT h1, PArr.translationAt_ok hT h1, PArr.rotationAt_ok hT h2,
    PArr.translationAt_ok hT h2, ok_bind]
  have hb : ∀ (A : DMat ℝ) i j r c, (A.block i j r c).cols = c := fun _ _ _ _ _ => rfl
  simp only [hb, hm.1, hm.2.1, hm.2.2.1, hm.2.2.2, beq_self_eq_true, Bool.and_self, require_true,
    ok_bind]
  congr 1
  obtain ⟨s1, s2⟩ := (res_zero_iff d m T).2 hs
  have e1 : (((((T.X.block 0 (m.p1 * (d + 1)) d (d + 1)).block 0 0 d d).mul m.R).sub
      ((T.X.block 0 (m.p2 * (d + 1)) d (d + 1)).block 0 0 d d)).normSq) =
      rotRes d d m T.X m.p1 T.X m.p2 := by
    unfold DMat.normSq rotRes DMat.sub DMat.mul DMat.block rot
    simp only [hm.2.1, Nat.zero_add]
    refine Finset.sum_congr rfl fun ρ _ => Finset.sum_congr rfl fun c _ => ?_
    ring
  have e2 : (((((T.X.block 0 (m.p2 * (d + 1)) d (d + 1)).block 0 d d 1).sub
      ((T.X.block 0 (m.p1 * (d + 1)) d (d + 1)).block 0 d d 1)).sub
      (((T.X.block 0 (m.p1 * (d + 1)) d (d + 1)).block 0 0 d d).mul m.t)).normSq) =
      traRes d d m T.X m.p1 T.X m.p2 := by
    unfold DMat.normSq traRes DMat.sub DMat.mul DMat.block rot tra
    simp only [Nat.zero_add, Finset.sum_range_one]
    refine Finset.sum_congr rfl fun ρ _ => ?_
    simp only [Nat.add_zero]
    ring
  unfold measurementError
  rw [e1, e2, s1, s2]
  ring

theorem residuals_zero (hT : ArrOk d d n T) : ∀ {l : List (Meas ℝ)},
    (∀ m ∈ l, MeasDim d m ∧ m.p1 < n ∧ m.p2 < n ∧ Satisfied d T m.p1 m.p2 m) →
    pgoResiduals T l = ok (List.replicate l.length 0)
  | [], _ => rfl
  | m :: l, h => by
    obtain ⟨h1, h2, h3, h4⟩ := h m (by simp)
    unfold pgoResiduals
    rw [residual_zero hT h1 h2 h3 h4, ok_bind, residuals_zero hT fun x hx => h x (by simp [hx])]
    rfl

/-! ### Noise-free data -/

variable {Rs : Nat → Matrix (Fin d) (Fin d) ℝ} {ts : Nat → Fin d → ℝ}

/-- The trajectory is the true one, seen from its first pose. -/
def IsTruth (d n : Nat) (Rs : Nat → Matrix (Fin d) (Fin d) ℝ) (ts : Nat → Fin d → ℝ) (T : PArr ℝ) : Prop :=
  ∀ i < n, rotM d d T i = (Rs 0)ᵀ * Rs i ∧ traV d d T i = (Rs 0)ᵀ *ᵥ (ts i - ts 0)

theorem truth_satisfied (h : NoiseFree d n D Rs ts) (hT : IsTruth d n Rs ts T)
    (hn : ∀ m ∈ D, m.p1 < n ∧ m.p2 < n) : ∀ m ∈ D, Satisfied d T m.p1 m.p2 m := by
  intro m hm
  obtain ⟨a1, a2⟩ := hT m.p1 (hn m hm).1
  obtain ⟨b1, b2⟩ := hT m.p2 (hn m hm).2
  refine ⟨?_, ?_⟩
  · rw [b1, a1, h.R m hm, Matrix.mul_assoc]
  · rw [b2, a2, a1, h.t m hm, ← Matrix.mulVec_mulVec, ← Matrix.mulVec_add]
    congr 1
    abel

/-- Two noise-free measurements of the same edge say the same. -/
theorem satisfied_same (h : NoiseFree d n D Rs ts) (hn : ∀ m ∈ D, m.p1 < n ∧ m.p2 < n) {m m' : Meas ℝ}
    (hm : m ∈ D) (hm' : m' ∈ D) (e1 : m'.p1 = m.p1) (e2 : m'.p2 = m.p2)
    (hs : Satisfied d T m'.p1 m'.p2 m') : Satisfied d T m.p1 m.p2 m := by
  have hr := h.rot m.p1 (hn m hm).1
  have i1 : (Rs m.p1)ᵀ * Rs m.p1 = 1 := hr.1
  have r1 := h.R m hm
  have r2 := h.R m' hm'
  have t1 := h.t m hm
  have t2 := h.t m' hm'
  rw [e1, e2] at r2 t2 hs
  have eR : m'.R.toMat d d = m.R.toMat d d := by
    have := congrArg ((Rs m.p1)ᵀ * ·) (r2.symm.trans r1)
    simpa only [← Matrix.mul_assoc, i1, Matrix.one_mul] using this
  have et : colV d m'.t = colV d m.t := by
    have := congrArg ((Rs m.p1)ᵀ *ᵥ ·) (add_left_cancel (t2.symm.trans t1))
    simpa only [Matrix.mulVec_mulVec, i1, Matrix.one_mulVec] using this
  refine ⟨?_, ?_⟩
  · rw [← eR]; exact hs.1
  · rw [← et]; exact hs.2

theorem satisfied_all (h : NoiseFree d n D Rs ts) (hn : ∀ m ∈ D, m.p1 < n ∧ m.p2 < n)
    (hs : ∀ m ∈ firstWins D, Satisfied d T m.p1 m.p2 m) : ∀ m ∈ D, Satisfied d T m.p1 m.p2 m := by
  intro m hm
  obtain ⟨m', hm', -, e1, -, e2⟩ := exists_firstWins hm
  exact satisfied_same h hn hm (mem_of_firstWins hm') e1 e2 (hs m' hm')

/-- Chaining noise-free odometry gives the true trajectory. -/
theorem chain_truth (h : NoiseFree d n D Rs ts) (h0 : rotM d d T 0 = 1) (h1 : traV d d T 0 = 0)
    (hc : ∀ i, i + 1 < n → ∃ m ∈ D, m.p1 = i ∧ m.p2 = i + 1 ∧ Satisfied d T i (i + 1) m) :
    IsTruth d n Rs ts T := by
  intro i
  induction i with
  | zero =>
    intro hi
    rw [h0, h1, sub_self, Matrix.mulVec_zero]
    exact ⟨(h.rot 0 hi).1.symm, rfl⟩
  | succ i ih =>
    intro hi
    obtain ⟨a, b⟩ := ih (by omega)
    obtain ⟨m, hm, e1, e2, s1, s2⟩ := hc i hi
    have r1 := h.R m hm
    have t1 := h.t m hm
    rw [e1, e2] at r1 t1
    refine ⟨?_, ?_⟩
    · rw [s1, a, r1, Matrix.mul_assoc]
    · rw [s2, b, a, t1, ← Matrix.mulVec_mulVec, ← Matrix.mulVec_add]
      congr 1
      abel

end

end Dpgo.Example
