import Verif.Lemmas.Quadratic
import Verif.Lemmas.PoseGraphRun
import Verif.Lemmas.DataCongr
import Mathlib.Tactic.Ring
import Mathlib.Tactic.FieldSimp
import Mathlib.Algebra.Order.BigOperators.Group.Finset
import Mathlib.Algebra.Order.BigOperators.Group.List

/-! # The objective in terms of residuals -/

namespace Dpgo

open Finset Res Spec

variable {K : Type} [Field K]

/-- `⟨Y Q, Y⟩` as a sum of row forms. -/
theorem dot_mul_qform (Y Q : DMat K) (hc : Q.cols = Y.cols) :
    (Y.mul Q).dot Y = ∑ ρ ∈ range Y.rows, qform Y.cols Q.v (Y.v ρ) := by
  unfold DMat.dot DMat.mul qform
  rw [hc]
  refine Finset.sum_congr rfl fun ρ _ => ?_
  simp only [Finset.sum_mul]
  rw [Finset.sum_comm]

theorem list_sum_finset {α : Type} (l : List α) (n : Nat) (f : Nat → α → K) :
    ∑ ρ ∈ range n, (l.map (f ρ)).sum = (l.map fun a => ∑ ρ ∈ range n, f ρ a).sum := by
  induction l with
  | nil => simp
  | cons a l ih => simp only [List.map_cons, List.sum_cons, Finset.sum_add_distrib, ih]

theorem list_sum_sub {α : Type} (l : List α) (f g : α → K) :
    (l.map f).sum - (l.map g).sum = (l.map fun a => f a - g a).sum := by
  induction l with
  | nil => simp
  | cons a l ih => simp only [List.map_cons, List.sum_cons, ← ih]; ring

theorem list_mul_sum {α : Type} (l : List α) (c : K) (f : α → K) :
    c * (l.map f).sum = (l.map fun a => c * f a).sum := by
  induction l with
  | nil => simp
  | cons a l ih => simp only [List.map_cons, List.sum_cons, ← ih]; ring

theorem list_sum_add {α : Type} (l : List α) (f g : α → K) :
    (l.map f).sum + (l.map g).sum = (l.map fun a => f a + g a).sum := by
  induction l with
  | nil => simp
  | cons a l ih => simp only [List.map_cons, List.sum_cons, ← ih]; ring

theorem list_sum_congr {α : Type} {l : List α} {f g : α → K} (h : ∀ a ∈ l, f a = g a) :
    (l.map f).sum = (l.map g).sum := by
  rw [List.map_congr_left h]

theorem priorCost_eq (r d : Nat) (X : DMat K) (i : Nat) (P : DMat K) :
    priorCost r d X i P = ∑ ρ ∈ range r, ∑ s ∈ range (d + 1),
      om d priorKappa priorTau s * (blk d (X.v ρ) i s - P.v ρ s) ^ 2 := by
  unfold priorCost
  rw [Finset.mul_sum, Finset.mul_sum, ← Finset.sum_add_distrib]
  refine Finset.sum_congr rfl fun ρ _ => ?_
  rw [Finset.sum_range_succ, Finset.mul_sum]
  congr 1
  · refine Finset.sum_congr rfl fun s hs => ?_
    rw [Finset.mem_range] at hs
    simp only [om, if_pos hs]
    unfold blk rot priorKappa
    simp
  · simp only [om, Nat.lt_irrefl, if_false]
    unfold blk tra priorTau
    simp

theorem edgeSqH_zero (d : Nat) (m : Meas K) : edgeSqH d m (fun _ => 0) (fun _ => 0) = 0 := by
  unfold edgeSqH edgeH
  simp

namespace PoseGraph

theorem shared_row (g : PoseGraph K) (h2 : (2 : K) ≠ 0) (m : Meas K) (X : DMat K) (r' c' : Nat) :
    1 / 2 * (∑ ρ ∈ range g.r, g.shQ m (X.v ρ)) + ∑ ρ ∈ range g.r, g.shG ρ m (X.v ρ) =
      1 / 2 * (sharedCost g m X - sharedCost g m (DMat.zero r' c')) := by
  unfold sharedCost shQ shG
  cases usedPose g m with
  | none => simp
  | some P =>
    by_cases c : m.r1 = g.id
    · simp only [c, if_true, edgeCost_eq]
      rw [← Finset.sum_sub_distrib, Finset.mul_sum, Finset.mul_sum, ← Finset.sum_add_distrib]
      refine Finset.sum_congr rfl fun ρ _ => ?_
      unfold edgeSqH
      rw [← Finset.sum_sub_distrib, Finset.mul_sum, Finset.mul_sum, ← sub_eq_add_neg,
        ← Finset.sum_sub_distrib]
      refine Finset.sum_congr rfl fun s hs => ?_
      rw [Finset.mem_range] at hs
      rw [edgeH_eq _ _ _ _ _ hs, edgeH_eq _ _ _ _ _ hs]
      have e0 : blk g.d (P.X.v ρ) 0 s = P.X.v ρ s := by unfold blk; simp
      have e1 : ∑ r ∈ range (g.d + 1), blk g.d ((DMat.zero r' c' : DMat K).v ρ) m.p1 r *
          (measT g.d m).v r s = 0 := Finset.sum_eq_zero fun r _ => by simp [blk, DMat.zero]
      rw [e0, e1]
      field_simp
      ring
    · simp only [c, if_false, edgeCost_eq]
      rw [← Finset.sum_sub_distrib, Finset.mul_sum, Finset.mul_sum, ← Finset.sum_add_distrib]
      refine Finset.sum_congr rfl fun ρ _ => ?_
      unfold edgeSqH
      rw [← Finset.sum_sub_distrib, Finset.mul_sum, Finset.mul_sum, ← sub_eq_add_neg,
        ← Finset.sum_sub_distrib]
      refine Finset.sum_congr rfl fun s hs => ?_
      rw [Finset.mem_range] at hs
      rw [edgeH_eq _ _ _ _ _ hs, edgeH_eq _ _ _ _ _ hs]
      have e0 : ∀ q, blk g.d (P.X.v ρ) 0 q = P.X.v ρ q := by intro q; unfold blk; simp
      have e1 : blk g.d ((DMat.zero r' c' : DMat K).v ρ) m.p2 s = 0 := by simp [blk, DMat.zero]
      simp only [e0, e1]
      field_simp
      ring

theorem prior_row (r d : Nat) (h2 : (2 : K) ≠ 0) (p : Nat × PArr K) (X : DMat K) (r' c' : Nat) :
    1 / 2 * (∑ ρ ∈ range r, prQ d p (X.v ρ)) + ∑ ρ ∈ range r, prG d ρ p (X.v ρ) =
      1 / 2 * (priorCost r d X p.1 p.2.X - priorCost r d (DMat.zero r' c') p.1 p.2.X) := by
  unfold prQ prG
  rw [priorCost_eq, priorCost_eq, ← Finset.sum_sub_distrib, Finset.mul_sum, Finset.mul_sum,
    ← Finset.sum_add_distrib]
  refine Finset.sum_congr rfl fun ρ _ => ?_
  rw [← Finset.sum_sub_distrib, Finset.mul_sum, Finset.mul_sum, ← sub_eq_add_neg,
    ← Finset.sum_sub_distrib]
  refine Finset.sum_congr rfl fun s _ => ?_
  have e1 : blk d ((DMat.zero r' c' : DMat K).v ρ) p.1 s = 0 := by simp [blk, DMat.zero]
  rw [e1]
  field_simp
  ring

theorem local_row (r d : Nat) (m : Meas K) (X : DMat K) (r' c' : Nat) :
    ∑ ρ ∈ range r, edgeSq d m (X.v ρ) =
      edgeCost r d m X m.p1 X m.p2 -
        edgeCost r d m (DMat.zero r' c') m.p1 (DMat.zero r' c') m.p2 := by
  rw [edgeCost_eq, edgeCost_eq]
  have : ∀ ρ ∈ range r, edgeSqH d m (blk d ((DMat.zero r' c' : DMat K).v ρ) m.p1)
      (blk d ((DMat.zero r' c' : DMat K).v ρ) m.p2) = 0 := fun ρ _ => edgeSqH_zero d m
  rw [Finset.sum_eq_zero this, sub_zero]
  exact Finset.sum_congr rfl fun ρ _ => edgeSq_eq d m _

/-- **Objective = residual cost up to its value at zero**, for freshly assembled matrices. -/
theorem Inv.objective_eq {g : PoseGraph K} {log : List (Meas K)} (h : Inv g log)
    (h2 : (2 : K) ≠ 0) {Q G X : DMat K}
    (hQ : g.constructQ = ok (some Q)) (hG : g.constructG = ok (some G))
    (hXr : X.rows = g.r) (hXc : X.cols = (g.d + 1) * g.n) (hQr : Q.rows = X.cols) :
    objective Q G X = graphCost g X - graphCost g (zeroEst g) := by
  obtain ⟨q1, -, q3⟩ := h.constructQ_ok hQ
  obtain ⟨-, -, g3⟩ := h.constructG_ok hG
  unfold objective
  rw [dot_mul_qform X Q (q1.trans hQr), hXr, ← hQr]
  simp only [q3]
  have hlin : X.dot G = ∑ ρ ∈ range g.r, ((g.sharedLcs.map fun m => g.shG ρ m (X.v ρ)).sum +
      (g.priors.map fun p => prG g.d ρ p (X.v ρ)).sum) := by
    unfold DMat.dot
    rw [hXr, hXc]
    refine Finset.sum_congr rfl fun ρ hρ => ?_
    exact g3 (X.v ρ) ρ (Finset.mem_range.1 hρ)
  rw [hlin]
  simp only [Finset.sum_add_distrib]
  rw [list_sum_finset g.localMeasurements g.r fun ρ m => edgeSq g.d m (X.v ρ),
    list_sum_finset g.sharedLcs g.r fun ρ m => g.shQ m (X.v ρ),
    list_sum_finset g.priors g.r fun ρ p => prQ g.d p (X.v ρ),
    list_sum_finset g.sharedLcs g.r fun ρ m => g.shG ρ m (X.v ρ),
    list_sum_finset g.priors g.r fun ρ p => prG g.d ρ p (X.v ρ)]
  have e1 := list_sum_congr (l := g.sharedLcs) fun m _ =>
    shared_row g h2 m X g.r ((g.d + 1) * g.n)
  have e2 := list_sum_congr (l := g.priors) fun p _ =>
    prior_row g.r g.d h2 p X g.r ((g.d + 1) * g.n)
  have e3 := list_sum_congr (l := g.localMeasurements) fun m _ =>
    local_row g.r g.d m X g.r ((g.d + 1) * g.n)
  rw [← list_sum_add, ← list_mul_sum, ← list_mul_sum, ← list_sum_sub] at e1 e2
  rw [← list_sum_sub] at e3
  rw [e3]
  unfold graphCost zeroEst
  linear_combination e1 + e2

theorem problemF_ok {g g' : PoseGraph K} {X : DMat K} {v : K} (e : problemF g X = ok (v, g'))
    (hQ : g.Q = none) (hG : g.G = none) :
    ∃ Q G, g.constructQ = ok (some Q) ∧ g.constructG = ok (some G) ∧ v = objective Q G X ∧
      X.rows = g.r ∧ X.cols = (g.d + 1) * g.n ∧ Q.rows = X.cols ∧ Q.cols = X.cols ∧
      G.rows = X.rows ∧ G.cols = X.cols := by
  unfold problemF at e
  rw [bind_eq_ok] at e
  obtain ⟨_, h1, e⟩ := e
  rw [bind_eq_ok] at e
  obtain ⟨_, h2, e⟩ := e
  rw [check_eq_ok, beq_iff_eq] at h1 h2
  unfold quadraticMatrix at e
  rw [hQ] at e
  simp only [bind_eq_ok] at e
  obtain ⟨p, ⟨Q, hQ', hp⟩, e⟩ := e
  cases Q with
  | none => cases hp
  | some Q =>
    cases hp
    obtain ⟨p, hp, e⟩ := e
    unfold linearMatrix at hp
    simp only [hG, bind_eq_ok] at hp
    obtain ⟨G, hG'', hp⟩ := hp
    have hG'' := (sameData_caches g (some Q) none g.precon).constructG.symm.trans hG''
    cases G with
    | none => cases hp
    | some G =>
      cases hp
      obtain ⟨_, h3, e⟩ := e
      rw [require_eq_ok] at h3
      simp only [Bool.and_eq_true, beq_iff_eq] at h3
      cases e
      exact ⟨Q, G, hQ', hG'', rfl, h1, h2, h3.1.1.1, h3.1.1.2, h3.1.2, h3.2⟩

end PoseGraph

/-! ### Rigid transformations -/

/-- Sum of squares is invariant under a matrix with orthonormal columns. -/
theorem sum_sq_orth (r : Nat) (O : Nat → Nat → K)
    (hO : ∀ σ τ, σ < r → τ < r → ∑ ρ ∈ range r, O ρ σ * O ρ τ = if σ = τ then 1 else 0)
    (e : Nat → K) :
    ∑ ρ ∈ range r, (∑ σ ∈ range r, O ρ σ * e σ) ^ 2 = ∑ σ ∈ range r, (e σ) ^ 2 := by
  have h1 : ∀ ρ ∈ range r, (∑ σ ∈ range r, O ρ σ * e σ) ^ 2 =
      ∑ σ ∈ range r, ∑ τ ∈ range r, e σ * e τ * (O ρ σ * O ρ τ) := by
    intro ρ _
    rw [sq, Finset.sum_mul_sum]
    exact Finset.sum_congr rfl fun σ _ => Finset.sum_congr rfl fun τ _ => by ring
  rw [Finset.sum_congr rfl h1, Finset.sum_comm]
  refine Finset.sum_congr rfl fun σ hσ => ?_
  rw [Finset.sum_comm]
  rw [Finset.mem_range] at hσ
  have h2 : ∀ τ ∈ range r, ∑ ρ ∈ range r, e σ * e τ * (O ρ σ * O ρ τ) =
      if τ = σ then e σ * e τ else 0 := by
    intro τ hτ
    rw [Finset.mem_range] at hτ
    rw [← Finset.mul_sum, hO σ τ hσ hτ]
    by_cases h : σ = τ
    · subst h; simp
    · rw [if_neg h, if_neg (fun e => h e.symm), mul_zero]
  rw [Finset.sum_congr rfl h2, sum_range_ite_eq r σ (fun τ => e σ * e τ) hσ, sq]

end Dpgo
