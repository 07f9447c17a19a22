import Verif.Lemmas.ConvergenceTeam
import Mathlib.Algebra.QuadraticDiscriminant

/-! # The cost of a team as a quadratic form -/

namespace Dpgo

open Res Spec Finset

noncomputable section

/-! ### Norms of matrices of equal size -/

namespace DMat

/-- Same size. -/
def Fits (r c : Nat) (A : DMat ℝ) : Prop := A.rows = r ∧ A.cols = c

variable {r c : Nat} {A B : DMat ℝ}

theorem dot_sq_le (h : Fits r c A) (h' : Fits r c B) : A.dot B ^ 2 ≤ A.normSq * B.normSq := by
  unfold dot normSq
  rw [h.1, h.2, h'.1, h'.2]
  simp only [← sum_product']
  have := sum_mul_sq_le_sq_mul_sq (range r ×ˢ range c) (fun x => A.v x.1 x.2) (fun x => B.v x.1 x.2)
  simpa only [sq] using this

theorem abs_dot_le (h : Fits r c A) (h' : Fits r c B) : |A.dot B| ≤ PArr.norm A * PArr.norm B := by
  unfold PArr.norm
  rw [← Real.sqrt_mul (normSq_nonneg A)]
  exact Real.abs_le_sqrt (dot_sq_le h h')

theorem normSq_add (h : Fits r c A) (h' : Fits r c B) : (A.add B).normSq = A.normSq + 2 * A.dot B + B.normSq := by
  unfold normSq dot add
  simp only
  rw [h.1, h.2, h'.1, h'.2]
  simp only [mul_sum, ← sum_add_distrib]
  refine sum_congr rfl fun _ _ => sum_congr rfl fun _ _ => ?_
  ring

theorem norm_nonneg (A : DMat ℝ) : 0 ≤ PArr.norm A := Real.sqrt_nonneg _

theorem norm_sq (A : DMat ℝ) : PArr.norm A ^ 2 = A.normSq := Real.sq_sqrt (normSq_nonneg A)

theorem norm_add_le (h : Fits r c A) (h' : Fits r c B) : PArr.norm (A.add B) ≤ PArr.norm A + PArr.norm B := by
  refine Real.sqrt_le_iff.2 ⟨add_nonneg (norm_nonneg _) (norm_nonneg _), ?_⟩
  rw [normSq_add h h', add_sq, norm_sq, norm_sq]
  have := (le_abs_self _).trans (abs_dot_le h h')
  linarith

theorem normSq_congr (h : Fits r c A) (h' : Fits r c B) (hv : ∀ ρ < r, ∀ j < c, A.v ρ j = B.v ρ j) :
    A.normSq = B.normSq := by
  unfold normSq
  rw [h.1, h.2, h'.1, h'.2]
  refine sum_congr rfl fun ρ hρ => sum_congr rfl fun j hj => ?_
  rw [hv ρ (mem_range.1 hρ) j (mem_range.1 hj)]

theorem norm_congr (h : Fits r c A) (h' : Fits r c B) (hv : ∀ ρ < r, ∀ j < c, A.v ρ j = B.v ρ j) :
    PArr.norm A = PArr.norm B := by
  unfold PArr.norm
  rw [normSq_congr h h' hv]

theorem norm_sub_le {C : DMat ℝ} (hA : Fits r c A) (hB : Fits r c B) :
    PArr.norm (A.sub C) ≤ PArr.norm (A.sub B) + PArr.norm (B.sub C) := by
  refine le_trans (le_of_eq ?_) (norm_add_le (A := A.sub B) (B := B.sub C) (r := r) (c := c) ⟨hA.1, hA.2⟩ ⟨hB.1, hB.2⟩)
  refine norm_congr (r := r) (c := c) ⟨hA.1, hA.2⟩ ⟨hA.1, hA.2⟩ fun ρ _ j _ => ?_
  simp only [sub, add]
  ring

theorem normSq_smul (s : ℝ) (A : DMat ℝ) : (smul s A).normSq = s ^ 2 * A.normSq := by
  unfold normSq smul
  simp only [mul_sum]
  refine sum_congr rfl fun _ _ => sum_congr rfl fun _ _ => ?_
  ring

theorem norm_smul (s : ℝ) (A : DMat ℝ) : PArr.norm (smul s A) = |s| * PArr.norm A := by
  unfold PArr.norm
  rw [normSq_smul, Real.sqrt_mul (sq_nonneg s), Real.sqrt_sq_eq_abs]

end DMat

/-! ### The bilinear form -/

/-- Rotation residual of an edge, an entry. -/
def rotE (d : Nat) (m : Meas ℝ) (X : Joint ℝ) (ρ c : Nat) : ℝ :=
  rot d (X m.r2) m.p2 ρ c - ∑ s ∈ range d, rot d (X m.r1) m.p1 ρ s * m.R.v s c

/-- Translation residual of an edge, an entry. -/
def traE (d : Nat) (m : Meas ℝ) (X : Joint ℝ) (ρ : Nat) : ℝ :=
  tra d (X m.r2) m.p2 ρ - tra d (X m.r1) m.p1 ρ - ∑ s ∈ range d, rot d (X m.r1) m.p1 ρ s * m.t.v s 0

/-- Weighted product of the residuals of one edge. -/
def residForm (r d : Nat) (m : Meas ℝ) (X V : Joint ℝ) : ℝ :=
  m.weight * (m.kappa * ∑ ρ ∈ range r, ∑ c ∈ range d, rotE d m X ρ c * rotE d m V ρ c +
    m.tau * ∑ ρ ∈ range r, traE d m X ρ * traE d m V ρ)

/-- The bilinear form of the cost. -/
def teamForm (r d : Nat) (E : List (Meas ℝ)) (X V : Joint ℝ) : ℝ :=
  ((firstWins E).map fun m => residForm r d m X V).sum

variable {r d : Nat} {E : List (Meas ℝ)}

theorem teamForm_self (X : Joint ℝ) : teamForm r d E X X = 2 * teamCost r d E X := by
  unfold teamForm teamCost
  rw [← mul_assoc, show (2 : ℝ) * (1 / 2) = 1 by norm_num, one_mul]
  congr 1
  refine List.map_congr_left fun m _ => ?_
  unfold residForm edgeCost rotRes traRes rotE traE
  simp only [sq]

theorem teamForm_comm (X V : Joint ℝ) : teamForm r d E X V = teamForm r d E V X := by
  unfold teamForm residForm
  simp only [mul_comm]

/-- Linearity in the first argument. -/
theorem teamForm_add {X Y Z : Joint ℝ} {s : ℝ} (h : ∀ i ρ j, (Z i).v ρ j = (X i).v ρ j + s * (Y i).v ρ j) (V : Joint ℝ) :
    teamForm r d E Z V = teamForm r d E X V + s * teamForm r d E Y V := by
  have h1 : ∀ m ρ c, rotE d m Z ρ c = rotE d m X ρ c + s * rotE d m Y ρ c := by
    intro m ρ c
    unfold rotE rot
    simp only [h, add_mul, sum_add_distrib, mul_assoc, ← mul_sum]
    ring
  have h2 : ∀ m ρ, traE d m Z ρ = traE d m X ρ + s * traE d m Y ρ := by
    intro m ρ
    unfold traE tra rot
    simp only [h, add_mul, sum_add_distrib, mul_assoc, ← mul_sum]
    ring
  unfold teamForm
  rw [← List.sum_map_mul_left, ← List.sum_map_add]
  congr 1
  refine List.map_congr_left fun m _ => ?_
  unfold residForm
  simp only [h1, h2, add_mul, sum_add_distrib, mul_assoc, ← mul_sum]
  ring

theorem teamCost_add {X Y Z : Joint ℝ} {s : ℝ} (h : ∀ i ρ j, (Z i).v ρ j = (X i).v ρ j + s * (Y i).v ρ j) :
    teamCost r d E Z = teamCost r d E X + s * teamForm r d E X Y + s ^ 2 * teamCost r d E Y := by
  have h1 := teamForm_self (r := r) (d := d) (E := E) Z
  rw [teamForm_add h Z, teamForm_comm X Z, teamForm_comm Y Z, teamForm_add h X, teamForm_add h Y, teamForm_self,
    teamForm_self, teamForm_comm Y X] at h1
  linarith

/-- Cauchy-Schwarz. -/
theorem teamForm_sq_le (hpos : ∀ Y, 0 ≤ teamCost r d E Y) (X Y : Joint ℝ) :
    teamForm r d E X Y ^ 2 ≤ 2 * teamCost r d E X * (2 * teamCost r d E Y) := by
  have := discrim_le_zero (a := teamCost r d E Y) (b := teamForm r d E X Y) (c := teamCost r d E X) fun s => by
    have := hpos fun i => ⟨0, 0, fun ρ j => (X i).v ρ j + s * (Y i).v ρ j⟩
    rw [teamCost_add (X := X) (Y := Y) (s := s) fun _ _ _ => rfl] at this
    linarith
  unfold discrim at this
  linarith

/-- The seminorm of the cost. -/
def costNorm (r d : Nat) (E : List (Meas ℝ)) (X : Joint ℝ) : ℝ := Real.sqrt (2 * teamCost r d E X)

theorem costNorm_nonneg (X : Joint ℝ) : 0 ≤ costNorm r d E X := Real.sqrt_nonneg _

theorem costNorm_sq (hpos : ∀ Y, 0 ≤ teamCost r d E Y) (X : Joint ℝ) :
    costNorm r d E X ^ 2 = 2 * teamCost r d E X := Real.sq_sqrt (by have := hpos X; linarith)

theorem abs_teamForm_le (hpos : ∀ Y, 0 ≤ teamCost r d E Y) (X Y : Joint ℝ) :
    |teamForm r d E X Y| ≤ costNorm r d E X * costNorm r d E Y := by
  unfold costNorm
  rw [← Real.sqrt_mul (by have := hpos X; linarith)]
  exact Real.abs_le_sqrt (teamForm_sq_le hpos X Y)

theorem costNorm_add_le (hpos : ∀ Y, 0 ≤ teamCost r d E Y) {X Y Z : Joint ℝ}
    (h : ∀ i ρ j, (Z i).v ρ j = (X i).v ρ j + (Y i).v ρ j) :
    costNorm r d E Z ≤ costNorm r d E X + costNorm r d E Y := by
  refine Real.sqrt_le_iff.2 ⟨add_nonneg (costNorm_nonneg _) (costNorm_nonneg _), ?_⟩
  rw [teamCost_add (X := X) (Y := Y) (s := 1) fun i ρ j => by rw [h, one_mul], add_sq, costNorm_sq hpos,
    costNorm_sq hpos]
  have := (le_abs_self _).trans (abs_teamForm_le hpos X Y)
  linarith

theorem costNorm_only {n i : Nat} {L : ℝ} (hL : SmoothFor r d n E i L) (hL0 : 0 ≤ L)
    {V : DMat ℝ} (hV : DMat.Fits r ((d + 1) * n) V) : costNorm r d E (only i V) ≤ Real.sqrt L * PArr.norm V := by
  unfold costNorm PArr.norm
  rw [← Real.sqrt_mul hL0]
  exact Real.sqrt_le_sqrt (hL V hV.1 hV.2)

/-- A difference that is a sum of differences of single robots. -/
theorem costNorm_sum_le (hpos : ∀ Y, 0 ≤ teamCost r d E Y) (N : Nat) (W : Nat → DMat ℝ) :
    costNorm r d E (fun j => if j < N then W j else DMat.zero 0 0) ≤ ∑ j ∈ range N, costNorm r d E (only j (W j)) := by
  induction N with
  | zero =>
    simp only [Nat.not_lt_zero, if_false, range_zero, sum_empty]
    unfold costNorm
    rw [Real.sqrt_le_iff]
    refine ⟨le_rfl, ?_⟩
    have := teamCost_add (r := r) (d := d) (E := E) (X := fun _ => DMat.zero 0 0) (Y := fun _ => DMat.zero 0 0)
      (Z := fun _ => DMat.zero 0 0) (s := -1) fun _ _ _ => by simp [DMat.zero]
    rw [teamForm_self] at this
    linarith
  | succ N ih =>
    rw [sum_range_succ]
    refine le_trans (costNorm_add_le hpos (X := fun j => if j < N then W j else DMat.zero 0 0) (Y := only N (W N)) ?_)
      (by linarith)
    intro j ρ c
    unfold only
    rcases lt_trichotomy j N with h | rfl | h
    · rw [if_pos (by omega), if_pos h, Function.update_of_ne h.ne]
      simp [DMat.zero]
    · rw [if_pos (by omega), if_neg (by omega), Function.update_self]
      simp [DMat.zero]
    · rw [if_neg (by omega), if_neg (by omega), Function.update_of_ne h.ne']
      simp [DMat.zero]

/-- Costs only depend on robots that occur in edges. -/
theorem teamCost_congr {X Y : Joint ℝ} (h : ∀ m ∈ E, X m.r1 = Y m.r1 ∧ X m.r2 = Y m.r2) :
    teamCost r d E X = teamCost r d E Y := by
  unfold teamCost
  congr 2
  refine List.map_congr_left fun m hm => ?_
  rw [(h m (Example.mem_firstWins hm)).1, (h m (Example.mem_firstWins hm)).2]

/-- Gradients by the form. -/
theorem blockGradient_form {n i : Nat} {X : Joint ℝ} {Gr V : DMat ℝ} (h : IsBlockGradient r d n E X i Gr)
    (hV : DMat.Fits r ((d + 1) * n) V) : Gr.dot V = teamForm r d E X (only i V) := by
  have h1 := h.2.2 V hV.1 hV.2
  rw [teamCost_add (X := X) (Y := only i V) (s := 1) fun j ρ c => by
    by_cases e : j = i
    · subst e
      rw [Function.update_self, only, Function.update_self]
      simp [DMat.add]
    · rw [Function.update_of_ne e, only, Function.update_of_ne e]
      simp [DMat.zero]] at h1
  linarith

end

end Dpgo
