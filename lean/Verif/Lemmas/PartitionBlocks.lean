import Verif.Lemmas.PartitionCost

/-!
# Cutting a centralised estimate into parts, and putting the parts together
-/

namespace Dpgo.Example

open Res Spec

variable {K : Type} [Field K]

/-- Number of poses of a robot. -/
def share (N n a : Nat) : Nat := if a = N - 1 then n - (N - 1) * (n / N) else n / N

section
variable {N n d : Nat} (hN : 0 < N) (hNn : N ≤ n) (hn : n * (d + 1) < 2 ^ 32)
include hN hNn hn

omit hN hNn in
theorem n_lt : n < 2 ^ 32 := lt_of_le_of_lt (Nat.le_mul_of_pos_right _ (Nat.succ_pos d)) hn

omit [Field K] in
omit hN hNn in
theorem idx_eq {a : Nat} (ha : a < N) :
    startIdx (n / N) a = a * (n / N) ∧ endIdx N n (n / N) a = a * (n / N) + share N n a ∧
      a * (n / N) + share N n a ≤ n := by
  have h1 := startIdx_eq (n_lt hn) (N := N) ha.le
  have h2 := endIdx_eq (n_lt hn) ha
  have h3 := mul_per_le (n := n) (N := N) (show a + 1 ≤ N by omega)
  rw [Nat.succ_mul] at h3
  refine ⟨h1, ?_, ?_⟩
  · rw [h2]
    unfold share
    split_ifs with h
    · subst h
      have := mul_per_le (n := n) (N := N) (show N - 1 ≤ N by omega)
      omega
    · rw [Nat.succ_mul]
  · unfold share
    split_ifs with h
    · subst h
      have := mul_per_le (n := n) (N := N) (show N - 1 ≤ N by omega)
      omega
    · exact h3

omit hN hNn in
theorem cols_eq {a : Nat} (ha : a < N) :
    blockCol d (startIdx (n / N) a) = a * (n / N) * (d + 1) ∧
      blockCols d (startIdx (n / N) a) (endIdx N n (n / N) a) = share N n a * (d + 1) ∧
      a * (n / N) * (d + 1) + share N n a * (d + 1) ≤ n * (d + 1) := by
  obtain ⟨h1, h2, h3⟩ := idx_eq hn ha
  have h4 : a * (n / N) * (d + 1) + share N n a * (d + 1) ≤ n * (d + 1) := by
    rw [← Nat.add_mul]; exact Nat.mul_le_mul_right _ h3
  refine ⟨?_, ?_, h4⟩
  · unfold blockCol
    rw [h1, u32_of_lt (by omega)]
  · unfold blockCols
    rw [h1, h2, Nat.add_sub_cancel_left, u32_of_lt (by omega)]

omit hn in
omit [Field K] in
theorem place_iff_share (i a ℓ : Nat) (hi : i < n) :
    place N (n / N) i = ⟨a, ℓ⟩ ↔ a < N ∧ i = a * (n / N) + ℓ ∧ ℓ < share N n a :=
  place_eq_iff hN hNn i a ℓ hi

omit hN hNn in
/-- Cutting out the part of a robot succeeds. -/
theorem localBlock_ok {r : Nat} {X : DMat K} (hX : X.rows = r ∧ X.cols = n * (d + 1)) {a : Nat}
    (ha : a < N) :
    ∃ B, localBlock r d (startIdx (n / N) a) (endIdx N n (n / N) a) X = ok B ∧ B.rows = r ∧
      B.cols = share N n a * (d + 1) ∧ ∀ i j, B.v i j = X.v i (a * (n / N) * (d + 1) + j) := by
  obtain ⟨h1, h2, h3⟩ := cols_eq hn ha
  unfold localBlock
  rw [h1, h2]
  have : X.inRange 0 (a * (n / N) * (d + 1)) r (share N n a * (d + 1)) = true := by
    simp [DMat.inRange, hX.1, hX.2, h3]
  rw [this]
  exact ⟨_, rfl, rfl, rfl, fun i j => by simp [DMat.block]⟩

theorem joins_blocks {r : Nat} {X : DMat K} (hX : X.rows = r ∧ X.cols = n * (d + 1)) {P : Joint K}
    (hP : ∀ a, a < N → localBlock r d (startIdx (n / N) a) (endIdx N n (n / N) a) X = ok (P a)) :
    Joins r d n (place N (n / N)) P X := by
  intro i hi ρ c _ _
  obtain ⟨h1, h2, h3⟩ := (place_iff_share hN hNn i (place N (n / N) i).robot
    (place N (n / N) i).frame hi).1 rfl
  obtain ⟨B, e, -, -, hB⟩ := localBlock_ok hn hX h1
  rw [hP _ h1] at e
  cases e
  rw [hB]
  congr 1
  conv_lhs => rw [h2]
  rw [Nat.add_mul, Nat.add_assoc]

omit hNn hn hN in
omit [Field K] in
theorem col_mem {d s l i c : Nat} (hc : c < d + 1) :
    (s * (d + 1) ≤ i * (d + 1) + c ∧ i * (d + 1) + c < s * (d + 1) + l * (d + 1)) ↔
      s ≤ i ∧ i < s + l := by
  rw [← Nat.add_mul]
  constructor
  · rintro ⟨h1, h2⟩
    constructor
    · by_contra h
      have : (i + 1) * (d + 1) ≤ s * (d + 1) := Nat.mul_le_mul_right _ (by omega)
      rw [Nat.add_mul] at this
      omega
    · by_contra h
      have : (s + l) * (d + 1) ≤ i * (d + 1) := Nat.mul_le_mul_right _ (by omega)
      omega
  · rintro ⟨h1, h2⟩
    have a1 : s * (d + 1) ≤ i * (d + 1) := Nat.mul_le_mul_right _ h1
    have a2 : (i + 1) * (d + 1) ≤ (s + l) * (d + 1) := Nat.mul_le_mul_right _ (by omega)
    rw [Nat.add_mul] at a2
    omega

omit [Field K] in
theorem assemble_aux {r : Nat} {X : Joint K} (hX : ∀ a, a < N → (X a).rows = r ∧
    (X a).cols = share N n a * (d + 1)) {Y₀ : DMat K} (hY : Y₀.rows = r ∧ Y₀.cols = n * (d + 1)) :
    ∀ j, j ≤ N → ∃ Y, Res.foldl (fun (Y : DMat K) robot => do
        let s := startIdx (n / N) robot
        let e := endIdx N n (n / N) robot
        require (Y.inRange 0 (blockCol d s) r (blockCols d s e) &&
          (X robot).rows == r && (X robot).cols == blockCols d s e)
        ok (Y.setBlock 0 (blockCol d s) (X robot))) Y₀ (List.range j) = ok Y ∧
      Y.rows = r ∧ Y.cols = n * (d + 1) ∧
      ∀ i, i < n → (place N (n / N) i).robot < j → ∀ ρ c, ρ < r → c < d + 1 →
        Y.v ρ (i * (d + 1) + c) =
          (X (place N (n / N) i).robot).v ρ ((place N (n / N) i).frame * (d + 1) + c) := by
  intro j
  induction j with
  | zero => intro _; exact ⟨Y₀, rfl, hY.1, hY.2, fun i _ h => absurd h (by omega)⟩
  | succ j ih =>
    intro hj
    obtain ⟨Y, e, y1, y2, hv⟩ := ih (by omega)
    obtain ⟨h1, h2, h3⟩ := cols_eq hn (show j < N by omega)
    obtain ⟨x1, x2⟩ := hX j (by omega)
    have hreq : (Y.inRange 0 (j * (n / N) * (d + 1)) r (share N n j * (d + 1)) &&
        (X j).rows == r && (X j).cols == share N n j * (d + 1)) = true := by
      simp [DMat.inRange, y1, y2, h3, x1, x2]
    refine ⟨Y.setBlock 0 (j * (n / N) * (d + 1)) (X j), ?_, y1, y2, ?_⟩
    · rw [List.range_succ, foldl_append, e]
      simp only [ok_bind', foldl_cons, h1, h2, hreq, require_true, ok_bind, foldl_nil]
    · intro i hi hr ρ c hρ hc
      obtain ⟨p1, p2, p3⟩ := (place_iff_share hN hNn i (place N (n / N) i).robot
        (place N (n / N) i).frame hi).1 rfl
      have hin : (0 ≤ ρ ∧ ρ < 0 + (X j).rows ∧ j * (n / N) * (d + 1) ≤ i * (d + 1) + c ∧
          i * (d + 1) + c < j * (n / N) * (d + 1) + (X j).cols) ↔
          j * (n / N) ≤ i ∧ i < j * (n / N) + share N n j := by
        rw [x1, x2]
        constructor
        · rintro ⟨-, -, h⟩; exact (col_mem hc).1 h
        · intro h; exact ⟨by omega, by omega, (col_mem hc).2 h⟩
      unfold DMat.setBlock
      by_cases hc' : (place N (n / N) i).robot = j
      · have hb : j * (n / N) ≤ i ∧ i < j * (n / N) + share N n j := by
          rw [hc'] at p2 p3; omega
        simp only
        rw [if_pos (hin.2 hb), hc']
        congr 1
        rw [hc'] at p2
        conv_lhs => rw [p2]
        rw [Nat.add_mul]
        omega
      · have hb : ¬ (j * (n / N) ≤ i ∧ i < j * (n / N) + share N n j) := by
          intro hb
          apply hc'
          have := (place_iff_share hN hNn i j (i - j * (n / N)) hi).2
            ⟨by omega, by omega, by omega⟩
          rw [this]
        simp only
        rw [if_neg (fun h => hb (hin.1 h))]
        exact hv i hi (by omega) ρ c hρ hc

theorem assemble_ok {r : Nat} {X : Joint K} (hX : ∀ a, a < N → (X a).rows = r ∧
    (X a).cols = share N n a * (d + 1)) {Y₀ : DMat K} (hY : Y₀.rows = r ∧ Y₀.cols = n * (d + 1)) :
    ∃ Y, assemble r d N n (n / N) X Y₀ = ok Y ∧ Y.rows = r ∧ Y.cols = n * (d + 1) ∧
      Joins r d n (place N (n / N)) X Y := by
  obtain ⟨Y, e, y1, y2, h⟩ := assemble_aux hN hNn hn hX hY N le_rfl
  exact ⟨Y, e, y1, y2, fun i hi => h i hi (place_robot_lt hN i)⟩

end
end Dpgo.Example
