import Verif.Lemmas.Poses
import Mathlib.Analysis.InnerProductSpace.PiL2

/-! # Translation distances -/

namespace Dpgo

open Res Spec

namespace Spec

variable {r : Nat} (a b c : Fin r → ℝ)

theorem dist_eq : dist r a b = Dist.dist (WithLp.toLp 2 a) (WithLp.toLp 2 b) := by
  rw [EuclideanSpace.dist_eq]
  unfold dist
  congr 1
  refine Finset.sum_congr rfl fun i _ => ?_
  rw [Real.dist_eq, sq_abs]

theorem dist_nonneg : 0 ≤ dist r a b := Real.sqrt_nonneg _

theorem dist_comm : dist r a b = dist r b a := by rw [dist_eq, dist_eq, _root_.dist_comm]

theorem dist_triangle : dist r a c ≤ dist r a b + dist r b c := by
  rw [dist_eq, dist_eq, dist_eq]; exact _root_.dist_triangle _ _ _

theorem dist_eq_zero : dist r a b = 0 ↔ a = b := by
  rw [dist_eq, _root_.dist_eq_zero]
  exact ⟨fun h => congrArg WithLp.ofLp h, fun h => by rw [h]⟩

end Spec

namespace PArr

variable {r d n : Nat} {A B : PArr ℝ}

theorem transDist_ok (hA : ArrOk r d n A) (hB : ArrOk r d n B) {i : Nat} (hi : i < n) :
    transDist A B i = ok (Spec.dist r (traV r d A i) (traV r d B i)) := by
  unfold transDist
  rw [translationAt_ok hA hi, translationAt_ok hB hi]
  simp only [ok_bind, DMat.block, beq_self_eq_true, require_true]
  congr 1
  unfold norm DMat.normSq DMat.sub Spec.dist
  congr 1
  simp only [Finset.sum_range, Fin.sum_univ_one]
  refine Finset.sum_congr rfl fun a _ => ?_
  simp [traV, sq]

theorem max_loop (f : Nat → Res ℝ) (g : Nat → ℝ) (hg : ∀ i, 0 ≤ g i) (n : Nat)
    (hf : ∀ i < n, f i = ok (g i)) :
    ∃ m, Res.foldl (fun (s : ℝ) i => do let x ← f i; ok (max s x)) 0 (List.range n) = ok m ∧ 0 ≤ m ∧
      (∀ i < n, g i ≤ m) ∧ (0 < n → ∃ i < n, g i = m) := by
  induction n with
  | zero => exact ⟨0, rfl, le_refl _, fun i hi => absurd hi (by omega), fun h => absurd h (by omega)⟩
  | succ n ih =>
    obtain ⟨m, e, h0, h1, h2⟩ := ih fun i hi => hf i (by omega)
    rw [List.range_succ, foldl_append, e]
    refine ⟨max m (g n), ?_, h0.trans (le_max_left _ _), ?_, fun _ => ?_⟩
    · rw [ok_bind', foldl_cons, hf n (by omega)]
      rfl
    · intro i hi
      by_cases c : i = n
      · rw [c]; exact le_max_right _ _
      · exact (h1 i (by omega)).trans (le_max_left _ _)
    · by_cases c : m ≤ g n
      · exact ⟨n, by omega, by rw [max_eq_right c]⟩
      · push Not at c
        rcases Nat.eq_zero_or_pos n with rfl | hn
        · simp only [List.range_zero, foldl_nil] at e
          cases e
          exact absurd (hg 0) (not_le.2 c)
        · obtain ⟨i, hi, e⟩ := h2 hn
          exact ⟨i, by omega, by rw [max_eq_left c.le, e]⟩

theorem max_value (hA : ArrOk r d n A) (hB : ArrOk r d n B) :
    ∃ m, maxTranslationDistance A B = ok m ∧ 0 ≤ m ∧
      (∀ i < n, Spec.dist r (traV r d A i) (traV r d B i) ≤ m) ∧
      (0 < n → ∃ i < n, Spec.dist r (traV r d A i) (traV r d B i) = m) := by
  unfold maxTranslationDistance
  rw [hA.2.1, hB.2.1, hA.2.2.1, hB.2.2.1]
  simp only [beq_self_eq_true, check_true, ok_bind]
  exact max_loop _ _ (fun i => Spec.dist_nonneg _ _) n fun i hi => transDist_ok hA hB hi

theorem sum_loop (f : Nat → Res ℝ) (g : Nat → ℝ) (n : Nat) (hf : ∀ i < n, f i = ok (g i)) :
    Res.foldl (fun (s : ℝ) i => do let x ← f i; ok (s + x)) 0 (List.range n) =
      ok (∑ i ∈ Finset.range n, g i) := by
  induction n with
  | zero => rfl
  | succ n ih =>
    rw [List.range_succ, foldl_append, ih fun i hi => hf i (by omega), Finset.sum_range_succ]
    rw [ok_bind', foldl_cons, hf n (by omega)]
    rfl

theorem average_value (hA : ArrOk r d n A) (hB : ArrOk r d n B) :
    averageTranslationDistance A B = if n = 0 then nonfinite else
      ok ((∑ i ∈ Finset.range n, Spec.dist r (traV r d A i) (traV r d B i)) / n) := by
  unfold averageTranslationDistance
  rw [hA.2.1, hB.2.1, hA.2.2.1, hB.2.2.1]
  simp only [beq_self_eq_true, check_true, ok_bind]
  rw [sum_loop _ _ n fun i hi => transDist_ok hA hB hi]
  rfl

end PArr
end Dpgo
