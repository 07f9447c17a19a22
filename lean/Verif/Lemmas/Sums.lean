import Verif.Model.DataMatrices
import Mathlib.Algebra.BigOperators.Intervals
import Mathlib.Algebra.BigOperators.Ring.List
import Mathlib.Tactic.Ring
import Mathlib.Tactic.LinearCombination

/-! # Sums over ranges, blocks and lists -/

namespace Dpgo

open Finset

variable {K : Type} [Field K]

/-- Sum over a flattened block index. -/
theorem sum_range_blocks (n h : Nat) (f : Nat → K) :
    ∑ a ∈ range (h * n), f a = ∑ i ∈ range n, ∑ c ∈ range h, f (i * h + c) := by
  induction n with
  | zero => simp
  | succ n ih =>
    rw [Nat.mul_succ, Finset.sum_range_add, ih, Finset.sum_range_succ, Nat.mul_comm h n]

/-- A sum over the positions of a list. -/
theorem sum_range_list {α : Type} (l : List α) (F : Nat → K) (φ : α → K)
    (h : ∀ k a, l[k]? = some a → F k = φ a) : ∑ k ∈ range l.length, F k = (l.map φ).sum := by
  induction l generalizing F with
  | nil => simp
  | cons a t ih =>
    rw [List.length_cons, Finset.sum_range_succ', List.map_cons, List.sum_cons,
      ih (fun k => F (k + 1)) (fun k b hb => h (k + 1) b (by simpa using hb)), h 0 a rfl, add_comm]

theorem sum_range_ite_eq (n j : Nat) (f : Nat → K) (hj : j < n) :
    ∑ i ∈ range n, (if i = j then f i else 0) = f j := by
  rw [Finset.sum_ite_eq' (range n) j f, if_pos (Finset.mem_range.2 hj)]

theorem sum_range_ite_eq' (n j : Nat) (f : Nat → K) (hj : j < n) :
    ∑ i ∈ range n, (if j = i then f i else 0) = f j := by
  rw [Finset.sum_ite_eq (range n) j f, if_pos (Finset.mem_range.2 hj)]

/-- Block index arithmetic. -/
theorem block_eq_iff {h i j c e : Nat} (hc : c < h) (he : e < h) :
    i * h + c = j * h + e ↔ i = j ∧ c = e := by
  constructor
  · intro x
    have h1 : (i * h + c) / h = i := by
      rw [Nat.mul_comm, Nat.mul_add_div (by omega), Nat.div_eq_of_lt hc, Nat.add_zero]
    have h2 : (j * h + e) / h = j := by
      rw [Nat.mul_comm, Nat.mul_add_div (by omega), Nat.div_eq_of_lt he, Nat.add_zero]
    have : i = j := by rw [← h1, x, h2]
    subst this
    exact ⟨rfl, by omega⟩
  · rintro ⟨rfl, rfl⟩; rfl

theorem block_lt {h i n c : Nat} (hc : c < h) (hi : i < n) : i * h + c < h * n := by
  calc i * h + c < i * h + h := by omega
    _ = h * (i + 1) := by rw [Nat.mul_succ, Nat.mul_comm]
    _ ≤ h * n := Nat.mul_le_mul_left _ hi

namespace SpMat

/-- Linear functional of one column of a triplet list. -/
def colDot (x : Nat → K) (l : List (Nat × Nat × K)) (c : Nat) : K :=
  (l.map fun t => if t.2.1 = c then x t.1 * t.2.2 else 0).sum

theorem colDot_append (x : Nat → K) (l l' : List (Nat × Nat × K)) (c : Nat) :
    colDot x (l ++ l') c = colDot x l c + colDot x l' c := by
  simp [colDot]

theorem colDot_cons (x : Nat → K) (t : Nat × Nat × K) (l : List (Nat × Nat × K)) (c : Nat) :
    colDot x (t :: l) c = (if t.2.1 = c then x t.1 * t.2.2 else 0) + colDot x l c := rfl

theorem coeff_cons (r c : Nat) (t : Nat × Nat × K) (l : List (Nat × Nat × K)) (a b : Nat) :
    coeff ⟨r, c, t :: l⟩ a b =
      (if t.1 = a ∧ t.2.1 = b then t.2.2 else 0) + coeff ⟨r, c, l⟩ a b := rfl

theorem sum_coeff (N : Nat) (x : Nat → K) (r c : Nat) (l : List (Nat × Nat × K))
    (hl : ∀ t ∈ l, t.1 < N) (j : Nat) :
    ∑ a ∈ range N, x a * coeff ⟨r, c, l⟩ a j = colDot x l j := by
  induction l with
  | nil => simp [coeff, colDot]
  | cons t l ih =>
    rw [colDot_cons, ← ih (fun s hs => hl s (by simp [hs]))]
    simp only [coeff_cons, mul_add]
    rw [Finset.sum_add_distrib]
    congr 1
    by_cases h : t.2.1 = j
    · simp only [h, and_true, if_true, mul_ite, mul_zero]
      exact sum_range_ite_eq' N t.1 (fun a => x a * t.2.2) (hl t (by simp))
    · simp [h]

/-- Double sum against a sparse matrix. -/
theorem sum_sum_coeff (N : Nat) (F : Nat → Nat → K) (r c : Nat) (l : List (Nat × Nat × K))
    (hl : ∀ t ∈ l, t.1 < N ∧ t.2.1 < N) :
    ∑ a ∈ range N, ∑ b ∈ range N, F a b * coeff ⟨r, c, l⟩ a b =
      (l.map fun t => F t.1 t.2.1 * t.2.2).sum := by
  induction l with
  | nil => simp [coeff]
  | cons t l ih =>
    rw [List.map_cons, List.sum_cons, ← ih (fun s hs => hl s (by simp [hs]))]
    simp only [coeff_cons, mul_add, Finset.sum_add_distrib]
    congr 1
    have ht := hl t (by simp)
    have : ∀ a ∈ range N, ∑ b ∈ range N, F a b * (if t.1 = a ∧ t.2.1 = b then t.2.2 else 0) =
        if t.1 = a then F a t.2.1 * t.2.2 else 0 := by
      intro a _
      by_cases h : t.1 = a
      · simp only [h, true_and, if_true, mul_ite, mul_zero]
        exact sum_range_ite_eq' N t.2.1 (fun b => F a b * t.2.2) ht.2
      · simp [h]
    rw [Finset.sum_congr rfl this]
    exact sum_range_ite_eq' N t.1 (fun a => F a t.2.1 * t.2.2) ht.1

end SpMat

/-- A finite sum over `range` written as a sum over a list. -/
theorem list_range_sum (n : Nat) (f : Nat → K) : ((List.range n).map f).sum = ∑ i ∈ range n, f i := by
  induction n with
  | zero => simp
  | succ n ih => rw [List.range_succ, List.map_append, List.sum_append, ih, Finset.sum_range_succ]; simp

theorem list_sum_flatMap {α β : Type} (l : List α) (g : α → List β) (f : β → K) :
    ((l.flatMap g).map f).sum = (l.map fun a => ((g a).map f).sum).sum := by
  induction l with
  | nil => simp
  | cons a t ih => simp [List.flatMap_cons, ih]

end Dpgo
