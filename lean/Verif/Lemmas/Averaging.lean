import Verif.Spec.Averaging
import Verif.Lemmas.ProjModel
import Verif.Lemmas.Robust

/-! # Lemmas on averaging -/

namespace Dpgo

open Res Spec Matrix

theorem DMat.normSq_frob {A : DMat ℝ} {m n : Nat} (hA : A.rows = m ∧ A.cols = n) :
    A.normSq = frob2 (A.toMat m n) := by
  rw [DMat.normSq_eq hA, frob2_eq_trace]

section Weights

theorem weightsOr_length (dflt : ℝ) (n : Nat) (v : List ℝ) : (weightsOr dflt n v).length = n := by
  unfold weightsOr
  split
  · assumption
  · simp

theorem weightsOr_getD (dflt : ℝ) (n : Nat) (v : List ℝ) {i : Nat} (hi : i < n) :
    (weightsOr dflt n v).getD i 0 = weightAt dflt n v i := by
  unfold weightsOr weightAt
  split
  · rfl
  · simp [List.getD_eq_getElem?_getD, hi]

theorem weightsOr_self (dflt : ℝ) {n : Nat} {v : List ℝ} (h : v.length = n) :
    weightsOr dflt n v = v := if_pos h

theorem sum_zip {α : Type} (f : ℝ → α → ℝ) : ∀ (As : List α) (ws : List ℝ), ws.length = As.length →
    ((ws.zip As).map fun p => f p.1 p.2).sum = ∑ i : Fin As.length, f (ws.getD i 0) As[i]
  | [], _, _ => by simp
  | a :: As, [], h => by simp at h
  | a :: As, w :: ws, h => by
    have ih := sum_zip f As ws (by simpa using h)
    rw [List.zip_cons_cons, List.map_cons, List.sum_cons, ih]
    simp only [List.length_cons]
    rw [Fin.sum_univ_succ]
    simp

theorem sum_weights (ws : List ℝ) : ws.sum = ∑ i : Fin ws.length, ws.getD i 0 := by
  have := sum_zip (fun w (_ : ℝ) => w) ws ws rfl
  rw [← this]
  have e : (ws.zip ws).map (fun p => p.1) = ws := by
    rw [List.map_fst_zip (le_refl _)]
  rw [e]

theorem totalWeight_eq (dflt : ℝ) (n : Nat) (v : List ℝ) :
    (weightsOr dflt n v).sum = totalWeight dflt n v := by
  have h : ∀ (ws : List ℝ) (k : Nat), ws.length = k → ws.sum = ∑ i : Fin k, ws.getD i 0 := by
    rintro ws _ rfl
    exact sum_weights ws
  rw [h _ n (weightsOr_length dflt n v)]
  exact Finset.sum_congr rfl fun i _ => weightsOr_getD dflt n v i.2

theorem weightedCost_eq (m n : Nat) (dflt : ℝ) (w : List ℝ) (As : List (DMat ℝ))
    (X : Matrix (Fin m) (Fin n) ℝ) :
    weightedCost m n dflt w As X =
      (((weightsOr dflt As.length w).zip As).map fun p => p.1 * frob2 (X - p.2.toMat m n)).sum := by
  rw [sum_zip (fun w A => w * frob2 (X - A.toMat m n)) As _ (weightsOr_length _ _ _)]
  exact Finset.sum_congr rfl fun i _ => by rw [weightsOr_getD dflt _ w i.2]

end Weights

section Sum

/-- Weighted sum of the samples. -/
noncomputable def wsum (m n : Nat) (l : List (ℝ × DMat ℝ)) : Matrix (Fin m) (Fin n) ℝ :=
  (l.map fun p => p.1 • p.2.toMat m n).sum

theorem weightedSum_acc (m n : Nat) : ∀ (l : List (ℝ × DMat ℝ)) (s : DMat ℝ),
    (∀ p ∈ l, p.2.rows = m ∧ p.2.cols = n) → s.rows = m ∧ s.cols = n →
    ∃ S, Res.foldl (fun s (p : ℝ × DMat ℝ) => do
      require (p.2.rows == s.rows && p.2.cols == s.cols)
      ok (s.add (p.2.smul p.1))) s l = ok S ∧ S.rows = m ∧ S.cols = n ∧
      S.toMat m n = s.toMat m n + wsum m n l
  | [], s, _, hs => ⟨s, rfl, hs.1, hs.2, by simp [wsum]⟩
  | p :: l, s, h, hs => by
    have hp := h p (by simp)
    obtain ⟨S, e, h1, h2, h3⟩ := weightedSum_acc m n l (s.add (p.2.smul p.1))
      (fun q hq => h q (by simp [hq])) hs
    refine ⟨S, ?_, h1, h2, ?_⟩
    · rw [foldl_cons, hp.1, hp.2, hs.1, hs.2]
      simp only [beq_self_eq_true, Bool.and_self, require_true, ok_bind, ok_bind']
      exact e
    · rw [h3, DMat.toMat_add, DMat.toMat_smul]
      simp [wsum, add_assoc]

theorem weightedSum_ok {m n : Nat} {l : List (ℝ × DMat ℝ)}
    (h : ∀ p ∈ l, p.2.rows = m ∧ p.2.cols = n) :
    ∃ S, weightedSum m n l = ok S ∧ S.rows = m ∧ S.cols = n ∧ S.toMat m n = wsum m n l := by
  obtain ⟨S, e, h1, h2, h3⟩ := weightedSum_acc m n l (DMat.zero m n) h ⟨rfl, rfl⟩
  exact ⟨S, e, h1, h2, by rw [h3, DMat.toMat_zero, zero_add]⟩

theorem sized_zip {m n : Nat} {As : List (DMat ℝ)} (h : Sized m n As) (ws : List ℝ) :
    ∀ p ∈ ws.zip As, p.2.rows = m ∧ p.2.cols = n :=
  fun p hp => h p.2 (List.of_mem_zip (a := p.1) (b := p.2) hp).2

/-- Expansion of the weighted cost. -/
theorem cost_expand {m n : Nat} (X : Matrix (Fin m) (Fin n) ℝ) : ∀ l : List (ℝ × DMat ℝ),
    (l.map fun p => p.1 * frob2 (X - p.2.toMat m n)).sum =
      (l.map (·.1)).sum * frob2 X - 2 * (Xᵀ * wsum m n l).trace +
        (l.map fun p => p.1 * frob2 (p.2.toMat m n)).sum
  | [] => by simp [wsum]
  | p :: l => by
    have ih := cost_expand X l
    have e : wsum m n (p :: l) = p.1 • p.2.toMat m n + wsum m n l := by simp [wsum]
    simp only [List.map_cons, List.sum_cons]
    rw [ih, e, frob2_sub, Matrix.mul_add, Matrix.trace_add, Matrix.mul_smul, Matrix.trace_smul,
      smul_eq_mul]
    ring

theorem map_fst_zip {α : Type} {ws : List ℝ} {As : List α} (h : ws.length = As.length) :
    (ws.zip As).map (·.1) = ws := List.map_fst_zip h.le

theorem wsum_const {m n : Nat} {R : Matrix (Fin m) (Fin n) ℝ} : ∀ l : List (ℝ × DMat ℝ),
    (∀ p ∈ l, p.2.toMat m n = R) → wsum m n l = (l.map (·.1)).sum • R
  | [], _ => by simp [wsum]
  | p :: l, h => by
    have e : wsum m n (p :: l) = p.1 • p.2.toMat m n + wsum m n l := by simp [wsum]
    rw [e, wsum_const l (fun q hq => h q (by simp [hq])), h p (by simp), List.map_cons,
      List.sum_cons, add_smul]

end Sum

section Single

theorem translation_avg_ok {d : Nat} {ts : List (DMat ℝ)} (h0 : ts ≠ []) (hs : Sized d 1 ts)
    (tau : List ℝ) (hw : (weightsOr 1 ts.length tau).sum ≠ 0) :
    ∃ t, singleTranslationAveraging ts tau = ok t ∧ t.rows = d ∧ t.cols = 1 ∧
      t.toMat d 1 = (1 / (weightsOr 1 ts.length tau).sum) •
        wsum d 1 ((weightsOr 1 ts.length tau).zip ts) := by
  cases ts with
  | nil => exact absurd rfl h0
  | cons t0 l =>
    have hd := (hs t0 (by simp)).1
    obtain ⟨S, e, h1, h2, h3⟩ := weightedSum_ok (sized_zip hs (weightsOr 1 (t0 :: l).length tau))
    refine ⟨S.smul (1 / (weightsOr 1 (t0 :: l).length tau).sum), ?_, h1, h2, ?_⟩
    · simp only [singleTranslationAveraging]
      rw [hd, e, ok_bind, if_neg hw]
    · rw [DMat.toMat_smul, h3]

theorem rotation_avg_ok (svd : SvdOracle) {d : Nat} {Rs : List (DMat ℝ)} (h0 : Rs ≠ [])
    (hs : Sized d d Rs) (kappa : List ℝ) :
    singleRotationAveraging svd Rs kappa =
      ok (DMat.ofMat (rotProj (svd d d (wsum d d ((weightsOr 1 Rs.length kappa).zip Rs))))) := by
  cases Rs with
  | nil => exact absurd rfl h0
  | cons R0 l =>
    have hd := (hs R0 (by simp)).1
    obtain ⟨S, e, h1, h2, h3⟩ := weightedSum_ok (sized_zip hs (weightsOr 1 (R0 :: l).length kappa))
    simp only [singleRotationAveraging]
    rw [hd, e, ok_bind, rotation_ok ⟨h1, h2⟩, h3]

end Single

end Dpgo
