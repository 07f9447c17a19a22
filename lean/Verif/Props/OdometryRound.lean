import Verif.Props.Odometry
import Verif.Lemmas.Floating
import Verif.Lemmas.OdometryRound

/-!
# Chaining odometry in floating point (C94)

The exact chain is that of C28; the computed one, `ChainR`, is rounded after every operation.
-/

namespace Dpgo.Props

open Res Spec Matrix
open scoped Matrix.Norms.Frobenius

variable {d : Nat} {rnd : ℝ → ℝ} {u s : ℝ} {odo : List (Meas ℝ)}

/-- **C94.** The computed poses drift from the exact ones by a factor per step, whatever the order of the sums: the
rotations in absolute terms, the translations relative to the length of the path travelled.  `u` is the relative error
of one operation, and `s` bounds how far the stored rotations are from orthogonal. -/
theorem C94_drift (h0 : odo ≠ []) (hd : d = 2 ∨ d = 3) (hdim : ∀ m ∈ odo, MeasDim d m) (hcon : Consecutive odo)
    (hlen : odo.length + 1 < 2 ^ 64) (hu : 0 ≤ u) (hr : Accurate u rnd) (hs : 1 ≤ s)
    (hrot : ∀ m ∈ odo, fro (m.R.toMat d d * (m.R.toMat d d)ᵀ - 1) ≤ s ^ 2 - 1)
    {R : Nat → Matrix (Fin d) (Fin d) ℝ} {t : Nat → Fin d → ℝ} (hc : ChainR rnd d odo R t) :
    ∃ T, odometryInitialization odo none = ok T ∧ ArrOk d d (odo.length + 1) T ∧ ∀ k ≤ odo.length,
      fro (R k - rotM d d T k) ≤ √d * s ^ k * ((1 + ((1 + u) ^ (d + 1) - 1) * √d) ^ k - 1) ∧
      len (t k - traV d d T k) ≤ √d * s ^ k * ((1 + ((1 + u) ^ (d + 1) - 1) * √d) ^ k - 1) *
        ((odo.take k).map fun m => len (colV d m.t)).sum := by
  obtain ⟨T, e, hT, hr0, ht0, hsat⟩ := C28_chain h0 hd hdim hcon hlen
  refine ⟨T, e, hT, ?_⟩
  have hi : ∀ i < odo.length, ∃ m ∈ odo, odo[i]? = some m := fun i hi =>
    ⟨odo[i], List.getElem_mem hi, List.getElem?_eq_getElem hi⟩
  set M : Nat → Matrix (Fin d) (Fin d) ℝ := fun i => match odo[i]? with
    | some m => m.R.toMat d d
    | none => 1 with hMdef
  set τ : Nat → Fin d → ℝ := fun i => match odo[i]? with
    | some m => colV d m.t
    | none => 0 with hτdef
  have hM : ∀ {i m}, odo[i]? = some m → M i = m.R.toMat d d := fun h => by simp [hMdef, h]
  have hτ : ∀ {i m}, odo[i]? = some m → τ i = colV d m.t := fun h => by simp [hτdef, h]
  have hp : (1 : ℝ) ≤ (1 + u) ^ (d + 1) := one_le_pow₀ (by linarith)
  have col_add : ∀ v w : Fin d → ℝ, replicateCol (Fin 1) (v + w) = replicateCol (Fin 1) v + replicateCol (Fin 1) w :=
    fun _ _ => rfl
  have col_mul : ∀ (A : Matrix (Fin d) (Fin d) ℝ) (v : Fin d → ℝ),
      replicateCol (Fin 1) (A *ᵥ v) = A * replicateCol (Fin 1) v := fun A v => by
    ext a b
    simp [Matrix.mul_apply, Matrix.mulVec, dotProduct]
  have key := chain_bound (N := odo.length) (d := d) (by omega) (g := (1 + u) ^ (d + 1) - 1) (s := s) (by linarith) hs
    (Rh := R) (R := fun i => rotM d d T i) (M := M) (th := fun i => replicateCol (Fin 1) (t i))
    (t := fun i => replicateCol (Fin 1) (traV d d T i)) (τ := fun i => replicateCol (Fin 1) (τ i))
    hc.rot_zero hr0 (by rw [hc.tra_zero]; rfl) (by rw [ht0]; rfl)
    (fun i h => by
      obtain ⟨m, -, hm⟩ := hi i h
      rw [hM hm]
      exact (hsat i m hm).1)
    (fun i h => by
      obtain ⟨m, -, hm⟩ := hi i h
      rw [hτ hm, (hsat i m hm).2, col_add, col_mul])
    (fun i h => by
      obtain ⟨m, -, hm⟩ := hi i h
      rw [hM hm]
      exact rot_near hu hr (hc.rot_step i m hm))
    (fun i h => by
      obtain ⟨m, -, hm⟩ := hi i h
      rw [hτ hm]
      exact tra_near hu hr (hc.tra_step i m hm))
    (fun i h => by
      obtain ⟨m, hmem, hm⟩ := hi i h
      rw [hM hm, ← fro_eq]
      exact hrot m hmem)
  intro k hk
  obtain ⟨-, k2, -, k4⟩ := key k hk
  have hsum : ((odo.take k).map fun m => len (colV d m.t)).sum =
      ∑ i ∈ Finset.range k, ‖replicateCol (Fin 1) (τ i)‖ := by
    clear k2 k4
    induction k with
    | zero => simp
    | succ k ih =>
      obtain ⟨m, -, hm⟩ := hi k (by omega)
      rw [Finset.sum_range_succ, ← ih (by omega), List.take_add_one, hm, hτ hm, ← len_eq]
      simp
  refine ⟨?_, ?_⟩
  · rw [fro_eq]
    exact k2
  · rw [len_eq, hsum]
    exact k4

/-- **C94.** In double precision, after at most a million steps with rotations orthogonal to about twice machine
precision each, the rotations are off by at most `4e-9` and the translations by at most `4e-9` of the path length. -/
theorem C94_million (h0 : odo ≠ []) (hd : d = 2 ∨ d = 3) (hdim : ∀ m ∈ odo, MeasDim d m) (hcon : Consecutive odo)
    (hlen : odo.length ≤ 10 ^ 6) (hr : Nearest 53 rnd)
    (hrot : ∀ m ∈ odo, fro (m.R.toMat d d * (m.R.toMat d d)ᵀ - 1) ≤ 1 / 2 ^ 49)
    {R : Nat → Matrix (Fin d) (Fin d) ℝ} {t : Nat → Fin d → ℝ} (hc : ChainR rnd d odo R t) :
    ∃ T, odometryInitialization odo none = ok T ∧ ArrOk d d (odo.length + 1) T ∧ ∀ k ≤ odo.length,
      fro (R k - rotM d d T k) ≤ 4 / 10 ^ 9 ∧
      len (t k - traV d d T k) ≤ 4 / 10 ^ 9 * ((odo.take k).map fun m => len (colV d m.t)).sum := by
  have hacc := accurate_of_nearest hr
  obtain ⟨T, e, hT, hb⟩ := C94_drift (s := 1 + 1 / 2 ^ 50) h0 hd hdim hcon (by omega) (by positivity) hacc
    (by norm_num) (fun m hm => (hrot m hm).trans (by norm_num)) hc
  refine ⟨T, e, hT, fun k hk => ?_⟩
  obtain ⟨h1, h2⟩ := hb k hk
  have hw : √(d : ℝ) ≤ 2 := by
    rw [Real.sqrt_le_left (by norm_num)]
    rcases hd with rfl | rfl <;> norm_num
  have hw0 : 0 ≤ √(d : ℝ) := Real.sqrt_nonneg _
  have hg0 : 0 ≤ (1 + (2 : ℝ) ^ (-((53 : Nat) : ℤ))) ^ (d + 1) - 1 := by
    have : (1 : ℝ) ≤ (1 + (2 : ℝ) ^ (-((53 : Nat) : ℤ))) ^ (d + 1) :=
      one_le_pow₀ (by have : (0 : ℝ) < (2 : ℝ) ^ (-((53 : Nat) : ℤ)) := by positivity
                      linarith)
    linarith
  have hg : (1 + (2 : ℝ) ^ (-((53 : Nat) : ℤ))) ^ (d + 1) - 1 ≤ 1 / 2 ^ 50 := by
    have e : (2 : ℝ) ^ (-((53 : Nat) : ℤ)) = 1 / 2 ^ 53 := by
      rw [zpow_neg, zpow_natCast, one_div]
    rw [e]
    rcases hd with rfl | rfl <;> norm_num
  have hkn : (k : ℝ) ≤ 10 ^ 6 := by exact_mod_cast hk.trans hlen
  have hk0 : (0 : ℝ) ≤ k := Nat.cast_nonneg k
  have hx : ((1 + (2 : ℝ) ^ (-((53 : Nat) : ℤ))) ^ (d + 1) - 1) * √d ≤ 1 / 2 ^ 49 := by
    calc _ ≤ 1 / 2 ^ 50 * 2 := mul_le_mul hg hw hw0 (by norm_num)
      _ = 1 / 2 ^ 49 := by norm_num
  have hx0 := mul_nonneg hg0 hw0
  generalize ((1 + (2 : ℝ) ^ (-((53 : Nat) : ℤ))) ^ (d + 1) - 1) * √d = x at hx hx0 h1 h2
  have small : ∀ y : ℝ, 0 ≤ y → y ≤ 1 / 2 ^ 49 → (1 + y) ^ k ≤ 1 / (1 - 10 ^ 6 / 2 ^ 49) := by
    intro y hy hy'
    have hky : k * y ≤ 10 ^ 6 / 2 ^ 49 := by
      calc k * y ≤ 10 ^ 6 * (1 / 2 ^ 49) := mul_le_mul hkn hy' hy (by norm_num)
        _ = _ := by ring
    have hlt : (10 : ℝ) ^ 6 / 2 ^ 49 < 1 := by norm_num
    refine (pow_le_inv hy (by linarith)).trans ?_
    exact one_div_le_one_div_of_le (by linarith) (by linarith)
  have p1 := small x hx0 hx
  have p2 := small (1 / 2 ^ 50) (by norm_num) (by norm_num)
  have hB : √d * (1 + 1 / 2 ^ 50) ^ k * ((1 + x) ^ k - 1) ≤ 4 / 10 ^ 9 := by
    have q0 : 0 ≤ (1 + x) ^ k - 1 := by
      have : (1 : ℝ) ≤ (1 + x) ^ k := one_le_pow₀ (by linarith)
      linarith
    calc √d * (1 + 1 / 2 ^ 50) ^ k * ((1 + x) ^ k - 1)
        ≤ 2 * (1 / (1 - 10 ^ 6 / 2 ^ 49)) * (1 / (1 - 10 ^ 6 / 2 ^ 49) - 1) :=
          mul_le_mul (mul_le_mul hw p2 (by positivity) (by norm_num)) (by linarith) q0 (by norm_num)
      _ ≤ 4 / 10 ^ 9 := by norm_num
  refine ⟨h1.trans hB, h2.trans (mul_le_mul_of_nonneg_right hB ?_)⟩
  refine List.sum_nonneg fun y hy => ?_
  obtain ⟨m, -, rfl⟩ := List.mem_map.1 hy
  exact Real.sqrt_nonneg _

/-- A quarter turn and a step of length `x`, from pose `i` to pose `i + 1`. -/
noncomputable def exTurning (i : Nat) (x : ℝ) : Meas ℝ :=
  Meas.make 0 0 i (i + 1) ⟨2, 2, fun a b => if a = 1 ∧ b = 0 then 1 else if a = 0 ∧ b = 1 then -1 else 0⟩
    ⟨2, 1, fun a _ => if a = 0 then x else 0⟩ 1 1

/-- Non-vacuity: two steps of a third each, which is no double, computed in one of the allowed orders. -/
example : ∃ R t, ChainR (nearest 53) 2 [exTurning 0 (1 / 3), exTurning 1 (1 / 3)] R t ∧
    ∃ T, odometryInitialization [exTurning 0 (1 / 3), exTurning 1 (1 / 3)] none = ok T ∧
      fro (R 2 - rotM 2 2 T 2) ≤ 4 / 10 ^ 9 := by
  refine ⟨_, _, evalChain_chainR (nearest 53) (d := 2) _, ?_⟩
  obtain ⟨T, e, -, h⟩ := C94_million (odo := [exTurning 0 (1 / 3), exTurning 1 (1 / 3)]) (by simp) (Or.inl rfl)
    (by
      simp only [List.forall_mem_cons]
      exact ⟨⟨rfl, rfl, rfl, rfl⟩, ⟨rfl, rfl, rfl, rfl⟩, by simp⟩)
    (by
      intro i m hm
      match i with
      | 0 => cases hm; exact ⟨rfl, rfl⟩
      | 1 => cases hm; exact ⟨rfl, rfl⟩)
    (by norm_num) (nearest_nearest (by norm_num))
    (by
      have hz : ∀ i x, fro ((exTurning i x).R.toMat 2 2 * ((exTurning i x).R.toMat 2 2)ᵀ - 1) = 0 := by
        intro i x
        have : (exTurning i x).R.toMat 2 2 * ((exTurning i x).R.toMat 2 2)ᵀ = 1 := by
          ext a b
          fin_cases a <;> fin_cases b <;> simp [exTurning, Meas.make, DMat.toMat, Matrix.mul_apply, Fin.sum_univ_two]
        rw [this]
        simp [fro]
      intro m hm
      simp only [List.mem_cons, List.not_mem_nil, or_false] at hm
      rcases hm with rfl | rfl
      · rw [hz]; positivity
      · rw [hz]; positivity)
    (evalChain_chainR (nearest 53) (d := 2) _)
  exact ⟨T, e, (h 2 (by simp)).1⟩

end Dpgo.Props
