import Verif.Lemmas.Rest
import Verif.Lemmas.ConvergenceTeam
import Verif.Lemmas.Examples

/-! # Exact estimates have no gradient -/

namespace Dpgo

open Res Spec PoseGraph Finset

/-- The cost is homogeneous of degree two. -/
theorem teamCost_scale {r d : Nat} {E : List (Meas ℝ)} {A B : Joint ℝ} {x : ℝ}
    (h : ∀ i ρ j, (B i).v ρ j = x * (A i).v ρ j) : teamCost r d E B = x ^ 2 * teamCost r d E A := by
  unfold teamCost
  have key : ∀ m : Meas ℝ, edgeCost r d m (B m.r1) m.p1 (B m.r2) m.p2 =
      x ^ 2 * edgeCost r d m (A m.r1) m.p1 (A m.r2) m.p2 := by
    intro m
    have h1 : rotRes r d m (B m.r1) m.p1 (B m.r2) m.p2 = x ^ 2 * rotRes r d m (A m.r1) m.p1 (A m.r2) m.p2 := by
      unfold rotRes rot
      simp only [mul_sum]
      refine sum_congr rfl fun ρ _ => sum_congr rfl fun c _ => ?_
      simp only [h, mul_assoc, ← mul_sum]
      ring
    have h2 : traRes r d m (B m.r1) m.p1 (B m.r2) m.p2 = x ^ 2 * traRes r d m (A m.r1) m.p1 (A m.r2) m.p2 := by
      unfold traRes tra rot
      simp only [mul_sum]
      refine sum_congr rfl fun ρ _ => ?_
      simp only [h, mul_assoc, ← mul_sum]
      ring
    unfold edgeCost
    linear_combination m.weight * m.kappa * h1 + m.weight * m.tau * h2
  induction firstWins E with
  | nil => simp
  | cons m l ih =>
    simp only [List.map_cons, List.sum_cons]
    linear_combination ih + 1 / 2 * key m

/-- A linear function that stays above a quadratic one near zero vanishes. -/
theorem slope_zero {g c : ℝ} (h : ∀ x : ℝ, 0 ≤ x * g + x ^ 2 * c) : g = 0 := by
  by_contra hg
  have hc : 0 < |c| + 1 := by positivity
  have h1 := h (-g / (|c| + 1))
  have h2 : -g / (|c| + 1) * g + (-g / (|c| + 1)) ^ 2 * c = -(g ^ 2 / (|c| + 1) ^ 2) * (|c| + 1 - c) := by
    field_simp
    ring
  rw [h2] at h1
  have h3 : 0 < g ^ 2 / (|c| + 1) ^ 2 := by positivity
  have h4 : 0 < |c| + 1 - c := by linarith [le_abs_self c]
  have := mul_pos h3 h4
  linarith

theorem smul_dot_self (A : DMat ℝ) (x : ℝ) : A.dot (A.smul x) = x * A.normSq := by
  unfold DMat.dot DMat.normSq DMat.smul
  simp only [mul_sum]
  refine sum_congr rfl fun _ _ => sum_congr rfl fun _ _ => ?_
  ring

theorem normSq_zero_entry {A : DMat ℝ} (h : A.normSq = 0) {i j : Nat} (hi : i < A.rows) (hj : j < A.cols) :
    A.v i j = 0 := by
  unfold DMat.normSq at h
  rw [sum_eq_zero_iff_of_nonneg (fun _ _ => sum_nonneg fun _ _ => mul_self_nonneg _)] at h
  have := h i (mem_range.2 hi)
  rw [sum_eq_zero_iff_of_nonneg (fun _ _ => mul_self_nonneg _)] at this
  exact mul_self_eq_zero.1 (this j (mem_range.2 hj))

/-- Where a non-negative cost vanishes, so does its gradient for one robot. -/
theorem blockGradient_zero {r d n i : Nat} {E : List (Meas ℝ)} {X : Joint ℝ} {Gr : DMat ℝ}
    (hpos : ∀ Y, 0 ≤ teamCost r d E Y) (h0 : teamCost r d E X = 0) (h : IsBlockGradient r d n E X i Gr) :
    Gr.normSq = 0 := by
  obtain ⟨h1, h2, h3⟩ := h
  refine slope_zero (c := teamCost r d E (only i Gr)) fun x => ?_
  have e := h3 (Gr.smul x) h1 h2
  have hx : teamCost r d E (only i (Gr.smul x)) = x ^ 2 * teamCost r d E (only i Gr) := by
    refine teamCost_scale fun j ρ c => ?_
    unfold only
    by_cases hj : j = i
    · subst hj
      simp only [Function.update_self]
      rfl
    · simp only [Function.update_of_ne hj]
      simp [DMat.zero]
  rw [h0, smul_dot_self, hx] at e
  have := hpos (Function.update X i ((X i).add (Gr.smul x)))
  linarith

/-- The same for all poses at once. -/
theorem gradient_zero {r d n : Nat} {D : List (Meas ℝ)} {X Gr : DMat ℝ}
    (hpos : ∀ Y, 0 ≤ teamCost r d D Y) (h0 : teamCost r d D (fun _ => X) = 0) (h : IsGradient r d n D X Gr) :
    Gr.normSq = 0 := by
  obtain ⟨h1, h2, h3⟩ := h
  refine slope_zero (c := teamCost r d D (fun _ => Gr)) fun x => ?_
  have e := h3 (Gr.smul x) h1 h2
  have hx : teamCost r d D (fun _ => Gr.smul x) = x ^ 2 * teamCost r d D (fun _ => Gr) :=
    teamCost_scale fun _ _ _ => rfl
  rw [h0, smul_dot_self, hx] at e
  have := hpos (fun _ => X.add (Gr.smul x))
  linarith

/-- The projection of a gradient that vanishes. -/
theorem norm_projected_zero {r d n : Nat} {o : OptOracles} {Y : LVar r d n} {Gr : DMat ℝ} (ho : KeepsZero o)
    (h1 : Gr.rows = r) (h2 : Gr.cols = (d + 1) * n) (h : Gr.normSq = 0) :
    PArr.norm (DMat.ofMat (o.proj r d n Y (Gr.toMat _ _))) = 0 := by
  have hz : Gr.toMat r ((d + 1) * n) = 0 := by
    ext a b
    exact normSq_zero_entry h (by rw [h1]; exact a.2) (by rw [h2]; exact b.2)
  rw [hz, ho, PArr.norm]
  have : (DMat.ofMat (0 : LVar r d n)).normSq = 0 := by
    unfold DMat.normSq DMat.ofMat
    refine sum_eq_zero fun i hi => sum_eq_zero fun j hj => ?_
    simp
  rw [this, Real.sqrt_zero]

/-- Lifting keeps exact trajectories exact. -/
theorem lifted_zero {r d : Nat} {D : List (Meas ℝ)} {T : PArr ℝ} {S : DMat ℝ} (hS : S.cols = d)
    (h : ∀ m ∈ D, Satisfied d T m.p1 m.p2 m) : teamCost r d D (fun _ => S.mul T.X) = 0 := by
  unfold teamCost
  rw [List.sum_eq_zero, mul_zero]
  intro x hx
  obtain ⟨m, hm, rfl⟩ := List.mem_map.1 hx
  obtain ⟨h1, h2⟩ := (Example.res_zero_iff d m T).2 (h m (Example.mem_firstWins hm))
  have k1 : ∀ k < d, ∀ c < d, rot d T.X m.p2 k c - ∑ s ∈ range d, rot d T.X m.p1 k s * m.R.v s c = 0 := by
    unfold rotRes at h1
    rw [sum_eq_zero_iff_of_nonneg (fun _ _ => sum_nonneg fun _ _ => sq_nonneg _)] at h1
    intro k hk c hc
    have := h1 k (mem_range.2 hk)
    rw [sum_eq_zero_iff_of_nonneg (fun _ _ => sq_nonneg _)] at this
    exact (pow_eq_zero_iff two_ne_zero).1 (this c (mem_range.2 hc))
  have k2 : ∀ k < d, tra d T.X m.p2 k - tra d T.X m.p1 k - ∑ s ∈ range d, rot d T.X m.p1 k s * m.t.v s 0 = 0 := by
    unfold traRes at h2
    rw [sum_eq_zero_iff_of_nonneg (fun _ _ => sq_nonneg _)] at h2
    exact fun k hk => (pow_eq_zero_iff two_ne_zero).1 (h2 k (mem_range.2 hk))
  have swap : ∀ (ρ : Nat) (f : Nat → ℝ), ∑ s ∈ range d, rot d (S.mul T.X) m.p1 ρ s * f s =
      ∑ k ∈ range d, S.v ρ k * ∑ s ∈ range d, rot d T.X m.p1 k s * f s := by
    intro ρ f
    unfold rot DMat.mul
    simp only [hS, sum_mul, mul_sum]
    rw [sum_comm]
    exact sum_congr rfl fun _ _ => sum_congr rfl fun _ _ => by ring
  have r1 : rotRes r d m (S.mul T.X) m.p1 (S.mul T.X) m.p2 = 0 := by
    unfold rotRes
    refine sum_eq_zero fun ρ _ => sum_eq_zero fun c hc => ?_
    have : rot d (S.mul T.X) m.p2 ρ c - ∑ s ∈ range d, rot d (S.mul T.X) m.p1 ρ s * m.R.v s c =
        ∑ k ∈ range d, S.v ρ k * (rot d T.X m.p2 k c - ∑ s ∈ range d, rot d T.X m.p1 k s * m.R.v s c) := by
      rw [swap ρ fun s => m.R.v s c]
      simp only [mul_sub, sum_sub_distrib]
      unfold rot DMat.mul
      simp only [hS]
    rw [this, sum_eq_zero fun k hk => by rw [k1 k (mem_range.1 hk) c (mem_range.1 hc), mul_zero]]
    simp
  have r2 : traRes r d m (S.mul T.X) m.p1 (S.mul T.X) m.p2 = 0 := by
    unfold traRes
    refine sum_eq_zero fun ρ _ => ?_
    have : tra d (S.mul T.X) m.p2 ρ - tra d (S.mul T.X) m.p1 ρ -
        ∑ s ∈ range d, rot d (S.mul T.X) m.p1 ρ s * m.t.v s 0 =
        ∑ k ∈ range d, S.v ρ k *
          (tra d T.X m.p2 k - tra d T.X m.p1 k - ∑ s ∈ range d, rot d T.X m.p1 k s * m.t.v s 0) := by
      rw [swap ρ fun s => m.t.v s 0]
      simp only [mul_sub, sum_sub_distrib]
      unfold tra DMat.mul
      simp only [hS]
    rw [this, sum_eq_zero fun k hk => by rw [k2 k (mem_range.1 hk), mul_zero]]
    simp
  simp only [edgeCost, r1, r2]
  simp

end Dpgo
