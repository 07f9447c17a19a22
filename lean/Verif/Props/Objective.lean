import Verif.Lemmas.Caches
import Verif.Props.PoseGraph
import Mathlib.Algebra.Order.Ring.Rat
import Mathlib.Tactic.NormNum
import Mathlib.Tactic.Positivity
import Mathlib.Tactic.IntervalCases

/-!
# The quadratic objective: C11–C14
-/

namespace Dpgo.Props

open Finset Res Spec PoseGraph

/-! ### C11 -/

section
variable {K : Type} [Field K]

/-- **C11.** On a graph without cached matrices, whenever the objective can be evaluated, its value at
`X` is the residual cost (private measurements, used shared measurements with the neighbour pose
fixed, priors) minus the same cost at the zero estimate. -/
theorem C11_objective (h2 : (2 : K) ≠ 0) (id r d : Nat) (g g' : PoseGraph K)
    (hg : Reachable id r d g) (hQ : g.Q = none) (hG : g.G = none) (X : DMat K) (f : K)
    (e : problemF g X = ok (f, g')) :
    f = graphCost g X - graphCost g (zeroEst g) := by
  obtain ⟨⟨log, h⟩, -⟩ := Reachable.inv hg
  obtain ⟨Q, G, h1, h3, h4, h5, h6, h7, -⟩ := problemF_ok e hQ hG
  rw [h4]
  exact h.objective_eq h2 h1 h3 h5 h6 h7

/-- **C11.** Differences of the objective are differences of the residual cost. -/
theorem C11_difference (h2 : (2 : K) ≠ 0) (id r d : Nat) (g g₁ g₂ : PoseGraph K)
    (hg : Reachable id r d g) (hQ : g.Q = none) (hG : g.G = none) (X Y : DMat K) (fX fY : K)
    (eX : problemF g X = ok (fX, g₁)) (eY : problemF g Y = ok (fY, g₂)) :
    fY - fX = graphCost g Y - graphCost g X := by
  rw [C11_objective h2 id r d g g₁ hg hQ hG X fX eX, C11_objective h2 id r d g g₂ hg hQ hG Y fY eY]
  ring

/-! ### C12 -/

/-- **C12.** Second-order expansion with the gradient and Hessian of the code, for whatever matrices
are in use (cached or not). -/
theorem C12_expansion (h2 : (2 : K) ≠ 0) (id r d : Nat) (g g₁ g₂ g₃ g₄ : PoseGraph K)
    (hg : Reachable id r d g) (X V Q G : DMat K) (fX fXV : K)
    (hV : V.rows = X.rows) (hV' : V.cols = X.cols)
    (eQ : g.quadraticMatrix = ok (Q, g₃)) (eG : g.linearMatrix = ok (G, g₄))
    (eX : problemF g X = ok (fX, g₁)) (eXV : problemF g (X.add V) = ok (fXV, g₂)) :
    fXV = fX + (eucGrad Q G X).dot V + 1 / 2 * (eucHess Q V).dot V := by
  obtain ⟨Q1, G1, _, _, q1, l1, rfl, -, -, d1, d2, d3, d4⟩ := problemF_gen eX
  obtain ⟨Q2, G2, _, _, q3, l3, rfl, -, -, -, -, -, -⟩ := problemF_gen eXV
  rw [eQ] at q1 q3
  rw [eG] at l1 l3
  cases q1; cases q3; cases l1; cases l3
  obtain ⟨-, hs⟩ := quadraticMatrix_symm hg eQ
  unfold objective eucGrad eucHess
  simp only [DMat.dot, DMat.add, DMat.mul, d2, hV, hV']
  simp only [Finset.mul_sum]
  rw [← Finset.sum_add_distrib, ← Finset.sum_add_distrib, ← Finset.sum_add_distrib,
    ← Finset.sum_add_distrib]
  refine Finset.sum_congr rfl fun ρ _ => ?_
  -- the cross term, by symmetry of `Q`
  have hx : ∑ j ∈ range X.cols, (∑ k ∈ range X.cols, V.v ρ k * Q.v k j) * X.v ρ j =
      ∑ j ∈ range X.cols, (∑ k ∈ range X.cols, X.v ρ k * Q.v k j) * V.v ρ j := by
    simp only [Finset.sum_mul]
    rw [Finset.sum_comm]
    refine Finset.sum_congr rfl fun k _ => Finset.sum_congr rfl fun j _ => ?_
    rw [hs k j]; ring
  have e1 : ∑ j ∈ range X.cols, 1 / 2 * ((∑ k ∈ range X.cols, (X.v ρ k + V.v ρ k) * Q.v k j) *
      (X.v ρ j + V.v ρ j)) =
      1 / 2 * (∑ j ∈ range X.cols, (∑ k ∈ range X.cols, X.v ρ k * Q.v k j) * X.v ρ j +
        ∑ j ∈ range X.cols, (∑ k ∈ range X.cols, V.v ρ k * Q.v k j) * X.v ρ j +
        ∑ j ∈ range X.cols, (∑ k ∈ range X.cols, X.v ρ k * Q.v k j) * V.v ρ j +
        ∑ j ∈ range X.cols, (∑ k ∈ range X.cols, V.v ρ k * Q.v k j) * V.v ρ j) := by
    rw [← Finset.sum_add_distrib, ← Finset.sum_add_distrib, ← Finset.sum_add_distrib,
      ← Finset.mul_sum]
    congr 1
    refine Finset.sum_congr rfl fun j _ => ?_
    have : ∑ k ∈ range X.cols, (X.v ρ k + V.v ρ k) * Q.v k j =
        ∑ k ∈ range X.cols, X.v ρ k * Q.v k j + ∑ k ∈ range X.cols, V.v ρ k * Q.v k j := by
      rw [← Finset.sum_add_distrib]
      exact Finset.sum_congr rfl fun k _ => by ring
    rw [this]; ring
  have e2 : ∑ j ∈ range X.cols, (X.v ρ j + V.v ρ j) * G.v ρ j =
      ∑ j ∈ range X.cols, X.v ρ j * G.v ρ j + ∑ j ∈ range X.cols, G.v ρ j * V.v ρ j := by
    rw [← Finset.sum_add_distrib]
    exact Finset.sum_congr rfl fun j _ => by ring
  have e3 : ∑ j ∈ range X.cols, (∑ k ∈ range X.cols, X.v ρ k * Q.v k j + G.v ρ j) * V.v ρ j =
      ∑ j ∈ range X.cols, (∑ k ∈ range X.cols, X.v ρ k * Q.v k j) * V.v ρ j +
      ∑ j ∈ range X.cols, G.v ρ j * V.v ρ j := by
    rw [← Finset.sum_add_distrib]
    exact Finset.sum_congr rfl fun j _ => by ring
  rw [e1, e2, e3, hx, ← Finset.mul_sum, ← Finset.mul_sum]
  field_simp
  ring

/-! ### C14 -/

/-- The estimate moved by the orthogonal matrix `O` and the translation `b`: every pose block is
multiplied by `O`, the translation column is shifted by `b`. -/
def moved (r d : Nat) (O : Nat → Nat → K) (b : Nat → K) (X : DMat K) : DMat K :=
  ⟨X.rows, X.cols, fun ρ j =>
    ∑ σ ∈ range r, O ρ σ * X.v σ j + if j % (d + 1) = d then b ρ else 0⟩

theorem edgeCost_moved (r d : Nat) (O : Nat → Nat → K) (b : Nat → K)
    (hO : ∀ σ τ, σ < r → τ < r → ∑ ρ ∈ range r, O ρ σ * O ρ τ = if σ = τ then 1 else 0)
    (m : Meas K) (A B : DMat K) (i j : Nat) :
    edgeCost r d m (moved r d O b A) i (moved r d O b B) j = edgeCost r d m A i B j := by
  have hr : ∀ (A : DMat K) i ρ c, c < d → rot d (moved r d O b A) i ρ c =
      ∑ σ ∈ range r, O ρ σ * rot d A i σ c := by
    intro A i ρ c hc
    unfold rot moved
    simp only
    rw [if_neg, add_zero]
    rw [Nat.mul_comm, Nat.mul_add_mod, Nat.mod_eq_of_lt (by omega)]
    omega
  have ht : ∀ (A : DMat K) i ρ, tra d (moved r d O b A) i ρ =
      ∑ σ ∈ range r, O ρ σ * tra d A i σ + b ρ := by
    intro A i ρ
    unfold tra moved
    simp only
    rw [if_pos]
    rw [Nat.mul_comm, Nat.mul_add_mod, Nat.mod_eq_of_lt (by omega)]
  have hs : ∀ (f : Nat → K) ρ, ∑ s ∈ range d, rot d (moved r d O b A) i ρ s * f s =
      ∑ σ ∈ range r, O ρ σ * ∑ s ∈ range d, rot d A i σ s * f s := by
    intro f ρ
    simp only [Finset.mul_sum]
    rw [Finset.sum_comm]
    refine Finset.sum_congr rfl fun s hs => ?_
    rw [hr A i ρ s (Finset.mem_range.1 hs), Finset.sum_mul]
    exact Finset.sum_congr rfl fun σ _ => by ring
  have e1 : rotRes r d m (moved r d O b A) i (moved r d O b B) j = rotRes r d m A i B j := by
    unfold rotRes
    rw [Finset.sum_comm]
    conv_rhs => rw [Finset.sum_comm]
    refine Finset.sum_congr rfl fun c hc => ?_
    rw [← sum_sq_orth r O hO fun σ => rot d B j σ c - ∑ s ∈ range d, rot d A i σ s * m.R.v s c]
    refine Finset.sum_congr rfl fun ρ _ => ?_
    rw [hr B j ρ c (Finset.mem_range.1 hc), hs, ← Finset.sum_sub_distrib]
    congr 1
    exact Finset.sum_congr rfl fun σ _ => by ring
  have e2 : traRes r d m (moved r d O b A) i (moved r d O b B) j = traRes r d m A i B j := by
    unfold traRes
    rw [← sum_sq_orth r O hO fun σ =>
      tra d B j σ - tra d A i σ - ∑ s ∈ range d, rot d A i σ s * m.t.v s 0]
    refine Finset.sum_congr rfl fun ρ _ => ?_
    rw [ht, ht, hs]
    have : ∑ σ ∈ range r, O ρ σ *
        (tra d B j σ - tra d A i σ - ∑ s ∈ range d, rot d A i σ s * m.t.v s 0) =
        ∑ σ ∈ range r, O ρ σ * tra d B j σ - ∑ σ ∈ range r, O ρ σ * tra d A i σ -
        ∑ σ ∈ range r, O ρ σ * ∑ s ∈ range d, rot d A i σ s * m.t.v s 0 := by
      rw [← Finset.sum_sub_distrib, ← Finset.sum_sub_distrib]
      exact Finset.sum_congr rfl fun σ _ => by ring
    rw [this]
    congr 1
    ring
  unfold edgeCost
  rw [e1, e2]

/-- **C14.** Without priors and shared measurements the objective is invariant under a rigid motion
of the whole trajectory. -/
theorem C14_gauge (h2 : (2 : K) ≠ 0) (id r d : Nat) (g g₁ g₂ : PoseGraph K)
    (hg : Reachable id r d g) (hQ : g.Q = none) (hG : g.G = none)
    (hp : g.priors = []) (hs : g.sharedLcs = [])
    (O : Nat → Nat → K) (b : Nat → K)
    (hO : ∀ σ τ, σ < g.r → τ < g.r → ∑ ρ ∈ range g.r, O ρ σ * O ρ τ = if σ = τ then 1 else 0)
    (X : DMat K) (f f' : K) (e : problemF g X = ok (f, g₁))
    (e' : problemF g (moved g.r g.d O b X) = ok (f', g₂)) : f' = f := by
  have := C11_difference h2 id r d g g₁ g₂ hg hQ hG X _ f f' e e'
  rw [← sub_eq_zero, this]
  unfold graphCost
  rw [hp, hs]
  simp only [edgeCost_moved _ _ _ _ hO, List.map_nil]
  ring

end

/-! ### C13 -/

section
variable {K : Type} [Field K] [LinearOrder K] [IsStrictOrderedRing K]

theorem list_sum_nonneg' {α : Type} (l : List α) (f : α → K) (h : ∀ a ∈ l, 0 ≤ f a) :
    0 ≤ (l.map f).sum := by
  apply List.sum_nonneg
  intro x hx
  rw [List.mem_map] at hx
  obtain ⟨a, ha, rfl⟩ := hx
  exact h a ha

/-- **C13.** With non-negative weights and precisions the assembled matrix is symmetric positive
semidefinite, and the matrix factorised for the preconditioner is positive definite. -/
theorem C13_definite (id r d : Nat) (g : PoseGraph K) (hg : Reachable id r d g)
    (hpos : ∀ m ∈ g.measurements, 0 ≤ m.weight ∧ 0 ≤ m.kappa ∧ 0 ≤ m.tau)
    (Q : DMat K) (e : g.constructQ = ok (some Q)) :
    Q.cols = Q.rows ∧ (∀ a b, Q.v a b = Q.v b a) ∧
    (∀ V : DMat K, V.cols = Q.rows → 0 ≤ (V.mul Q).dot V) ∧
    (∀ V : DMat K, V.cols = Q.rows → (∃ i j, i < V.rows ∧ j < V.cols ∧ V.v i j ≠ 0) →
      0 < (V.mul (precondMatrix Q)).dot V) := by
  obtain ⟨⟨log, h⟩, -⟩ := Reachable.inv hg
  obtain ⟨h1, h2, h3⟩ := h.constructQ_ok e
  have hom : ∀ m ∈ g.measurements, ∀ s, 0 ≤ omM g.d m s := by
    intro m hm s
    obtain ⟨w, k, t⟩ := hpos m hm
    unfold omM om
    split
    · exact mul_nonneg w k
    · exact mul_nonneg w t
  have hpr : ∀ s, 0 ≤ om g.d (priorKappa : K) priorTau s := by
    intro s; unfold om priorKappa priorTau; split <;> norm_num
  have hq : ∀ x, 0 ≤ qform Q.rows Q.v x := by
    intro x
    rw [h3]
    refine add_nonneg (add_nonneg ?_ ?_) ?_
    · refine list_sum_nonneg' _ _ fun m hm => ?_
      have hm : m ∈ g.measurements := List.mem_append_left _ hm
      rw [edgeSq_eq]
      exact Finset.sum_nonneg fun s _ => mul_nonneg (hom m hm s) (sq_nonneg _)
    · refine list_sum_nonneg' _ _ fun m hm => ?_
      have hm : m ∈ g.measurements := List.mem_append_right _ hm
      unfold shQ
      cases usedPose g m with
      | none => exact le_refl _
      | some P =>
        simp only
        split
        · exact Finset.sum_nonneg fun s _ => mul_nonneg (hom m hm s) (sq_nonneg _)
        · exact Finset.sum_nonneg fun s _ => mul_nonneg (hom m hm s) (sq_nonneg _)
    · refine list_sum_nonneg' _ _ fun p _ => ?_
      exact Finset.sum_nonneg fun s _ => mul_nonneg (hpr s) (sq_nonneg _)
  refine ⟨h1, h2, ?_, ?_⟩
  · intro V hV
    rw [dot_mul_qform V Q (h1.trans hV.symm), hV]
    exact Finset.sum_nonneg fun ρ _ => hq _
  · rintro V hV ⟨i, j, hi, hj, hne⟩
    rw [dot_mul_qform V (precondMatrix Q) (h1.trans hV.symm), hV]
    have hP : ∀ x : Nat → K, qform Q.rows (precondMatrix Q).v x =
        qform Q.rows Q.v x + 1 / 10 * ∑ a ∈ range Q.rows, x a ^ 2 := by
      intro x
      unfold qform
      rw [Finset.mul_sum, ← Finset.sum_add_distrib]
      refine Finset.sum_congr rfl fun a ha => ?_
      have e1 : ∀ b ∈ range Q.rows, x a * (precondMatrix Q).v a b * x b =
          x a * Q.v a b * x b + if b = a then 1 / 10 * (x a * x b) else 0 := by
        intro b _
        unfold precondMatrix
        simp only
        by_cases hab : a = b
        · subst hab; simp; ring
        · rw [if_neg hab, if_neg (fun e => hab e.symm), add_zero]
      rw [Finset.sum_congr rfl e1, Finset.sum_add_distrib,
        sum_range_ite_eq _ a (fun b => 1 / 10 * (x a * x b)) (Finset.mem_range.1 ha), sq]
    simp only [hP]
    refine Finset.sum_pos' (fun ρ _ => add_nonneg (hq _)
      (mul_nonneg (by norm_num) (Finset.sum_nonneg fun a _ => sq_nonneg _)))
      ⟨i, Finset.mem_range.2 hi, ?_⟩
    refine add_pos_of_nonneg_of_pos (hq _) (mul_pos (by norm_num) ?_)
    exact Finset.sum_pos' (fun a _ => sq_nonneg _)
      ⟨j, Finset.mem_range.2 (hV ▸ hj), by positivity⟩

end

/-! ### Concrete cases -/

section Examples

/-- A neighbour pose `[I t]` of rank 3 in the plane. -/
def exPose (t : ℚ) : PArr ℚ := ⟨3, 2, 1, ⟨3, 3, fun i j => if i = j ∧ i < 2 then 1 else
  if i = 0 ∧ j = 2 then t else 0⟩⟩

/-- History ending in a graph with private, shared (active and inactive neighbour) measurements and a
prior, whose neighbour poses have been delivered. -/
def exOps2 : List (PGOp ℚ) :=
  exOps ++ [.setNeighborPoses [(⟨1, 4⟩, exPose 1)], .setPrior 0 (exPose 0)]

/-- The graph reached by `exOps2`. -/
def exGraph2 : Res (PoseGraph ℚ) := do let g ← PoseGraph.new 0 3 2; g.run exOps2

theorem exOps2_wf : ∀ op ∈ exOps2, OpWF op := by
  simp [exOps2, exOps, OpWF, ex, Meas.make, MeasWF]

theorem exGraph2_reachable : ∃ g, exGraph2 = ok g ∧ Reachable 0 3 2 g :=
  ⟨_, rfl, _, exOps2, rfl, exOps2_wf, rfl⟩

/-- An estimate with three poses. -/
def exX (s : ℚ) : DMat ℚ := ⟨3, 9, fun i j => if i = j % 3 ∧ i < 2 then 1 else
  if j % 3 = 2 ∧ i = 0 then s * (j / 3 : Nat) else 0⟩

/-- The hypotheses of C11 and C12 hold for `exGraph2` and two different estimates; the graph has
measurements of every kind and a prior. -/
example : ∃ g, exGraph2 = ok g ∧ Reachable 0 3 2 g ∧ g.Q = none ∧ g.G = none ∧
    g.sharedLcs.length = 2 ∧ g.localMeasurements.length = 3 ∧ g.priors.length = 1 ∧
    (problemF g (exX 1)).isOk = true ∧ (problemF g ((exX 1).add (exX 2))).isOk = true ∧
    (g.quadraticMatrix).isOk = true ∧ (g.linearMatrix).isOk = true := by
  obtain ⟨g, e, h⟩ := exGraph2_reachable
  refine ⟨g, e, h, ?_⟩
  cases e
  refine ⟨rfl, rfl, rfl, rfl, rfl, ?_, ?_, ?_, ?_⟩
  · rfl
  · rfl
  · rfl
  · rfl

/-- The hypotheses of C13 hold for `exGraph2`. -/
example : ∃ g Q, exGraph2 = ok g ∧ Reachable 0 3 2 g ∧
    (∀ m ∈ g.measurements, 0 ≤ m.weight ∧ 0 ≤ m.kappa ∧ 0 ≤ m.tau) ∧
    g.constructQ = ok (some Q) ∧ Q.rows = 9 := by
  obtain ⟨g, e, h⟩ := exGraph2_reachable
  cases e
  refine ⟨_, _, rfl, h, ?_, rfl, rfl⟩
  intro m hm
  have : m.weight ∈ [(1 : ℚ), 0] ∧ m.kappa = 1 ∧ m.tau = 1 := by
    change m ∈ [ex 0 0 0 1, ex 0 0 1 2, { ex 0 0 2 0 with weight := 0, fixedWeight := false },
      ex 0 3 2 7, ex 1 0 4 1] at hm
    simp only [List.mem_cons, List.not_mem_nil, or_false] at hm
    rcases hm with rfl | rfl | rfl | rfl | rfl <;> simp [ex, Meas.make]
  obtain ⟨h1, h2, h3⟩ := this
  rw [h2, h3]
  simp only [List.mem_cons, List.not_mem_nil, or_false] at h1
  rcases h1 with h1 | h1 <;> rw [h1] <;> norm_num

/-- A stand-alone robot: three private measurements. -/
def exOps3 : List (PGOp ℚ) :=
  [.addMeasurement (ex 0 0 0 1), .addMeasurement (ex 0 0 1 2), .addMeasurement (ex 0 0 2 0)]

/-- Cyclic permutation of the three coordinates. -/
def exO (i j : Nat) : ℚ := if i = (j + 1) % 3 then 1 else 0

/-- The hypotheses of C14 hold for a stand-alone robot, a rotation of the lifted space and a shift. -/
example : ∃ g₀ g : PoseGraph ℚ, PoseGraph.new 0 3 2 = ok g₀ ∧ g₀.run exOps3 = ok g ∧
    Reachable 0 3 2 g ∧ g.Q = none ∧ g.G = none ∧ g.priors = [] ∧ g.sharedLcs = [] ∧
    (∀ σ τ, σ < g.r → τ < g.r → ∑ ρ ∈ range g.r, exO ρ σ * exO ρ τ = if σ = τ then 1 else 0) ∧
    (problemF g (exX 1)).isOk = true ∧
    (problemF g (moved g.r g.d exO (fun _ => 5) (exX 1))).isOk = true := by
  refine ⟨_, _, rfl, rfl, ⟨_, exOps3, rfl, ?_, rfl⟩, rfl, rfl, rfl, rfl, ?_, rfl, rfl⟩
  · simp [exOps3, OpWF, ex, Meas.make, MeasWF]
  · intro σ τ hσ hτ
    change σ < 3 at hσ
    change τ < 3 at hτ
    change ∑ ρ ∈ range 3, _ = _
    rw [Finset.sum_range_succ, Finset.sum_range_succ, Finset.sum_range_succ, Finset.sum_range_zero]
    unfold exO
    interval_cases σ <;> interval_cases τ <;> norm_num

end Examples

end Dpgo.Props
