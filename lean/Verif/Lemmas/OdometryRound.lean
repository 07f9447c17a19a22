import Verif.Model.OdometryRound
import Verif.Spec.OdometryRound
import Mathlib.Analysis.Matrix.Normed

/-! # Helper lemmas for chaining odometry with rounding -/

namespace Dpgo

open Spec Matrix
open scoped Matrix.Norms.Frobenius

theorem le_of_sq_le_sq {a b : ℝ} (h : a ^ 2 ≤ b ^ 2) (hb : 0 ≤ b) : a ≤ b := (abs_le_of_sq_le_sq' h hb).2

/-- The exact sum. -/
def dotV (l : List (ℝ × ℝ)) : ℝ := (l.map fun p => p.1 * p.2).sum

/-- The sum of the absolute values. -/
def dotA (l : List (ℝ × ℝ)) : ℝ := (l.map fun p => |p.1 * p.2|).sum

theorem dotA_nonneg (l : List (ℝ × ℝ)) : 0 ≤ dotA l :=
  List.sum_nonneg (by
    intro x hx
    obtain ⟨p, -, rfl⟩ := List.mem_map.1 hx
    exact abs_nonneg _)

theorem dotV_le (l : List (ℝ × ℝ)) : |dotV l| ≤ dotA l := by
  induction l with
  | nil => simp [dotV, dotA]
  | cons p l ih =>
    simp only [dotV, dotA, List.map_cons, List.sum_cons] at ih ⊢
    exact (abs_add_le _ _).trans (by linarith)

theorem dotV_perm {l m : List (ℝ × ℝ)} (h : l.Perm m) : dotV l = dotV m := (h.map _).sum_eq
theorem dotA_perm {l m : List (ℝ × ℝ)} (h : l.Perm m) : dotA l = dotA m := (h.map _).sum_eq

/-- The evaluated sum has a relative error per summand, measured by the absolute values. -/
theorem dotR_near {rnd : ℝ → ℝ} {u : ℝ} (hu : 0 ≤ u) (hr : Accurate u rnd) {l : List (ℝ × ℝ)} {x : ℝ}
    (h : DotR rnd l x) : 0 < l.length ∧ |x - dotV l| ≤ ((1 + u) ^ l.length - 1) * dotA l := by
  have p1 : ∀ n : Nat, (1 : ℝ) ≤ (1 + u) ^ n := fun n => one_le_pow₀ (by linarith)
  have mono : ∀ {n m : Nat}, n ≤ m → (1 + u) ^ n ≤ (1 + u) ^ m := fun h => pow_le_pow_right₀ (by linarith) h
  have round : ∀ {x s e A : ℝ}, |x - s| ≤ e → |s| ≤ A → |rnd x - s| ≤ (1 + u) * e + u * A := by
    intro x s e A h1 h2
    have h3 := hr x
    have h4 : |x| ≤ e + A := by
      have := abs_add_le (x - s) s
      rw [sub_add_cancel] at this
      linarith
    have h5 : rnd x - s = (rnd x - x) + (x - s) := by ring
    rw [h5]
    have := abs_add_le (rnd x - x) (x - s)
    nlinarith
  induction h with
  | value x =>
    refine ⟨by simp, ?_⟩
    simp only [dotV, dotA, List.map_cons, List.map_nil, List.sum_cons, List.sum_nil, List.length_singleton, mul_one,
      add_zero, sub_self, abs_zero]
    have := p1 1
    exact mul_nonneg (by linarith) (abs_nonneg _)
  | prod x y =>
    refine ⟨by simp, ?_⟩
    have := hr (x * y)
    simpa [dotV, dotA] using this
  | @add l k m a b _ _ hp h1 h2 =>
    obtain ⟨l1, e1⟩ := h1
    obtain ⟨l2, e2⟩ := h2
    have hlen : m.length = l.length + k.length := by rw [← hp.length_eq, List.length_append]
    have hV : dotV m = dotV l + dotV k := by rw [← dotV_perm hp]; simp [dotV]
    have hA : dotA m = dotA l + dotA k := by rw [← dotA_perm hp]; simp [dotA]
    refine ⟨by omega, ?_⟩
    rw [hV, hA, hlen]
    have A1 := dotA_nonneg l
    have A2 := dotA_nonneg k
    have hs : |a + b - (dotV l + dotV k)| ≤
        ((1 + u) ^ l.length - 1) * dotA l + ((1 + u) ^ k.length - 1) * dotA k := by
      have : a + b - (dotV l + dotV k) = (a - dotV l) + (b - dotV k) := by ring
      rw [this]
      exact (abs_add_le _ _).trans (add_le_add e1 e2)
    refine (round hs ((abs_add_le _ _).trans (add_le_add (dotV_le l) (dotV_le k)))).trans ?_
    have m1 : (1 + u) ^ (l.length + 1) ≤ (1 + u) ^ (l.length + k.length) := mono (by omega)
    have m2 : (1 + u) ^ (k.length + 1) ≤ (1 + u) ^ (l.length + k.length) := mono (by omega)
    have q1 := mul_le_mul_of_nonneg_right m1 A1
    have q2 := mul_le_mul_of_nonneg_right m2 A2
    rw [pow_succ] at q1 q2
    nlinarith
  | @fma l m a x y _ hp h1 =>
    obtain ⟨l1, e1⟩ := h1
    have hlen : m.length = l.length + 1 := by rw [← hp.length_eq, List.length_cons]
    have hV : dotV m = x * y + dotV l := by rw [← dotV_perm hp]; simp [dotV]
    have hA : dotA m = |x * y| + dotA l := by rw [← dotA_perm hp]; simp [dotA]
    refine ⟨by omega, ?_⟩
    rw [hV, hA, hlen]
    have A1 := dotA_nonneg l
    have A2 := abs_nonneg (x * y)
    have hs : |x * y + a - (x * y + dotV l)| ≤ ((1 + u) ^ l.length - 1) * dotA l := by
      rw [add_sub_add_left_eq_sub]
      exact e1
    refine (round hs ((abs_add_le _ _).trans (add_le_add le_rfl (dotV_le l)))).trans ?_
    have m2 : (1 + u) ^ 1 ≤ (1 + u) ^ (l.length + 1) := mono (by omega)
    have q2 := mul_le_mul_of_nonneg_right m2 A2
    rw [pow_one] at q2
    have e : (1 + u) ^ (l.length + 1) = (1 + u) ^ l.length * (1 + u) := pow_succ _ _
    rw [e] at q2 ⊢
    nlinarith

theorem fro_eq {m n : Type} [Fintype m] [Fintype n] (A : Matrix m n ℝ) : fro A = ‖A‖ := by
  rw [Matrix.frobenius_norm_def, fro, Real.sqrt_eq_rpow]
  simp

theorem len_eq {d : Nat} (v : Fin d → ℝ) : len v = ‖replicateCol (Fin 1) v‖ := by
  rw [← fro_eq, fro, len]
  simp

theorem norm_mono {m n : Type} [Fintype m] [Fintype n] {A B : Matrix m n ℝ} (h : ∀ a b, |A a b| ≤ B a b) :
    ‖A‖ ≤ ‖B‖ := by
  rw [← fro_eq, ← fro_eq]
  refine Real.sqrt_le_sqrt (Finset.sum_le_sum fun a _ => Finset.sum_le_sum fun b _ => ?_)
  rw [← sq_abs]
  exact pow_le_pow_left₀ (abs_nonneg _) (h a b) 2

theorem norm_abs {m n : Type} [Fintype m] [Fintype n] (A : Matrix m n ℝ) : ‖A.map fun x => |x|‖ = ‖A‖ :=
  Matrix.frobenius_norm_map_eq A _ fun a => by simp

theorem norm_near {m n k : Type} [Fintype m] [Fintype n] [Fintype k] {A : Matrix m k ℝ} {B : Matrix k n ℝ}
    {E : Matrix m n ℝ} {g : ℝ} (hg : 0 ≤ g) (h : ∀ a b, |E a b| ≤ g * ∑ i, |A a i * B i b|) :
    ‖E‖ ≤ g * (‖A‖ * ‖B‖) := by
  have h1 : ‖E‖ ≤ ‖g • (A.map (fun x => |x|) * B.map fun x => |x|)‖ := norm_mono fun a b => by
    simpa [Matrix.mul_apply, abs_mul] using h a b
  refine h1.trans ?_
  rw [norm_smul, Real.norm_of_nonneg hg]
  refine mul_le_mul_of_nonneg_left ((Matrix.frobenius_norm_mul _ _).trans ?_) hg
  rw [norm_abs, norm_abs]

theorem norm_sq {m n : Type} [Fintype m] [Fintype n] (A : Matrix m n ℝ) : ‖A‖ ^ 2 = (A * Aᵀ).trace := by
  rw [← fro_eq, fro, Real.sq_sqrt (by positivity)]
  simp [Matrix.trace, Matrix.mul_apply, sq]

theorem trace_le {m n : Type} [Fintype m] [Fintype n] (A B : Matrix m n ℝ) : (A * Bᵀ).trace ≤ ‖A‖ * ‖B‖ := by
  have e : (A * Bᵀ).trace = ∑ p : m × n, A p.1 p.2 * B p.1 p.2 := by
    simp [Matrix.trace, Matrix.mul_apply, Fintype.sum_prod_type]
  have hn : ∀ C : Matrix m n ℝ, ‖C‖ ^ 2 = ∑ p : m × n, C p.1 p.2 ^ 2 := fun C => by
    rw [← fro_eq, fro, Real.sq_sqrt (by positivity), Fintype.sum_prod_type]
  rw [e]
  refine le_of_sq_le_sq (h := ?_) (hb := mul_nonneg (norm_nonneg A) (norm_nonneg B))
  rw [mul_pow, hn, hn]
  exact Finset.sum_mul_sq_le_sq_mul_sq _ _ _

/-- Multiplying by an almost orthogonal matrix hardly changes the size. -/
theorem norm_mul_rot {m n : Type} [Fintype m] [Fintype n] [DecidableEq n] (A : Matrix m n ℝ) {M : Matrix n n ℝ}
    {s : ℝ} (hs : 0 ≤ s) (h : ‖M * Mᵀ - 1‖ ≤ s ^ 2 - 1) : ‖A * M‖ ≤ s * ‖A‖ := by
  have e : ‖A * M‖ ^ 2 = ‖A‖ ^ 2 + (A * (M * Mᵀ - 1) * Aᵀ).trace := by
    rw [norm_sq, norm_sq, ← Matrix.trace_add]
    congr 1
    rw [Matrix.transpose_mul, Matrix.mul_sub, Matrix.sub_mul, Matrix.mul_one]
    simp [Matrix.mul_assoc]
  have h1 := trace_le (A * (M * Mᵀ - 1)) A
  have h2 := Matrix.frobenius_norm_mul A (M * Mᵀ - 1)
  have hA := norm_nonneg A
  have h3 : ‖A * (M * Mᵀ - 1)‖ * ‖A‖ ≤ (s ^ 2 - 1) * ‖A‖ ^ 2 := by
    have := mul_le_mul_of_nonneg_left h hA
    nlinarith
  refine le_of_sq_le_sq (h := ?_) (hb := mul_nonneg hs hA)
  rw [e, mul_pow]
  linarith

theorem step_real {g w s Q A L τ rh er t e rh' er' t' e' : ℝ} (hg : 0 ≤ g) (hw : 1 ≤ w) (hs : 1 ≤ s) (hQ : 1 ≤ Q)
    (hA : 0 ≤ A) (hL : 0 ≤ L) (hτ : 0 ≤ τ) (i1 : rh ≤ A * Q) (i2 : er ≤ A * (Q - 1))
    (i3 : t ≤ A * Q * L) (i4 : e ≤ A * (Q - 1) * L) (j1 : rh' ≤ (1 + g * w) * (s * rh))
    (j2 : er' ≤ g * w * (s * rh) + s * er) (j3 : t' ≤ (1 + g) * (t + rh * τ))
    (j4 : e' ≤ g * (t + rh * τ) + (e + er * τ)) :
    rh' ≤ A * s * (Q * (1 + g * w)) ∧ er' ≤ A * s * (Q * (1 + g * w) - 1) ∧
    t' ≤ A * s * (Q * (1 + g * w)) * (L + τ) ∧ e' ≤ A * s * (Q * (1 + g * w) - 1) * (L + τ) := by
  have s0 : 0 ≤ s := zero_le_one.trans hs
  have hgw : g ≤ g * w := le_mul_of_one_le_right hg hw
  have hgw0 : 0 ≤ g * w := hg.trans hgw
  have hAs : A ≤ A * s := le_mul_of_one_le_right hA hs
  have hT : 0 ≤ L + τ := add_nonneg hL hτ
  have hsr : s * rh ≤ s * (A * Q) := mul_le_mul_of_nonneg_left i1 s0
  have hb : t + rh * τ ≤ A * Q * (L + τ) := by
    have := mul_le_mul_of_nonneg_right i1 hτ
    linarith
  have hAQ : 0 ≤ A * Q * (L + τ) := mul_nonneg (mul_nonneg hA (zero_le_one.trans hQ)) hT
  refine ⟨?_, ?_, ?_, ?_⟩
  · have := mul_le_mul_of_nonneg_left hsr (add_nonneg zero_le_one hgw0)
    linarith
  · have h1 := mul_le_mul_of_nonneg_left hsr hgw0
    have h2 := mul_le_mul_of_nonneg_left i2 s0
    linarith
  · have h1 := mul_le_mul_of_nonneg_left hb (add_nonneg zero_le_one hg)
    have h2 : (1 + g) * (A * Q * (L + τ)) ≤ (1 + g * w) * (A * Q * (L + τ)) :=
      mul_le_mul_of_nonneg_right (by linarith) hAQ
    have h3 : A * ((1 + g * w) * (Q * (L + τ))) ≤ A * s * ((1 + g * w) * (Q * (L + τ))) :=
      mul_le_mul_of_nonneg_right hAs (mul_nonneg (by linarith) (mul_nonneg (by linarith) hT))
    linarith
  · have h1 := mul_le_mul_of_nonneg_left hb hg
    have h2 := mul_le_mul_of_nonneg_right i2 hτ
    have h3 : g * (A * Q * (L + τ)) ≤ g * w * (A * Q * (L + τ)) := mul_le_mul_of_nonneg_right hgw hAQ
    have hq : 1 ≤ Q * (1 + g * w) := one_le_mul_of_one_le_of_one_le hQ (by linarith)
    have h4 : A * ((Q * (1 + g * w) - 1) * (L + τ)) ≤ A * s * ((Q * (1 + g * w) - 1) * (L + τ)) :=
      mul_le_mul_of_nonneg_right hAs (mul_nonneg (by linarith) hT)
    linarith

/-- Growth of the computed and of the exact chain, and of their distance. -/
theorem chain_bound {d N : Nat} (hd : 0 < d) {g s : ℝ} (hg : 0 ≤ g) (hs : 1 ≤ s)
    {Rh R M : Nat → Matrix (Fin d) (Fin d) ℝ} {th t τ : Nat → Matrix (Fin d) (Fin 1) ℝ}
    (a1 : Rh 0 = 1) (a2 : R 0 = 1) (a3 : th 0 = 0) (a4 : t 0 = 0)
    (hR : ∀ i < N, R (i + 1) = R i * M i) (ht : ∀ i < N, t (i + 1) = t i + R i * τ i)
    (hRh : ∀ i < N, ‖Rh (i + 1) - Rh i * M i‖ ≤ g * (‖Rh i‖ * ‖M i‖))
    (hth : ∀ i < N, ‖th (i + 1) - (th i + Rh i * τ i)‖ ≤ g * (‖th i‖ + ‖Rh i‖ * ‖τ i‖))
    (hM : ∀ i < N, ‖M i * (M i)ᵀ - 1‖ ≤ s ^ 2 - 1) : ∀ k ≤ N,
    ‖Rh k‖ ≤ √d * s ^ k * (1 + g * √d) ^ k ∧ ‖Rh k - R k‖ ≤ √d * s ^ k * ((1 + g * √d) ^ k - 1) ∧
    ‖th k‖ ≤ √d * s ^ k * (1 + g * √d) ^ k * ∑ i ∈ Finset.range k, ‖τ i‖ ∧
    ‖th k - t k‖ ≤ √d * s ^ k * ((1 + g * √d) ^ k - 1) * ∑ i ∈ Finset.range k, ‖τ i‖ := by
  have w1 : (1 : ℝ) ≤ √d := by
    rw [Real.one_le_sqrt]
    exact_mod_cast hd
  have n1 : ‖(1 : Matrix (Fin d) (Fin d) ℝ)‖ = √d := by
    rw [← fro_eq, fro]
    congr 1
    simp [Matrix.one_apply, apply_ite (· ^ 2)]
  have s0 : 0 ≤ s := by linarith
  have hMn : ∀ i < N, ‖M i‖ ≤ s * √d := fun i hi => by
    have := norm_mul_rot (1 : Matrix (Fin d) (Fin d) ℝ) s0 (hM i hi)
    rwa [Matrix.one_mul, n1] at this
  generalize √(d : ℝ) = w at *
  intro k
  induction k with
  | zero =>
    intro _
    simp only [a1, a2, a3, a4, pow_zero, mul_one, sub_self, norm_zero, n1, mul_zero, Finset.range_zero,
      Finset.sum_empty, le_refl, and_self]
  | succ k ih =>
    intro hk
    obtain ⟨i1, i2, i3, i4⟩ := ih (by omega)
    have hk' : k < N := by omega
    have b1 := hRh k hk'
    have b2 := hth k hk'
    have b3 := hMn k hk'
    rw [hR k hk', ht k hk', Finset.sum_range_succ]
    have c1 := norm_mul_rot (Rh k) s0 (hM k hk')
    have c2 := norm_mul_rot (Rh k - R k) s0 (hM k hk')
    have hL : 0 ≤ ∑ i ∈ Finset.range k, ‖τ i‖ := Finset.sum_nonneg fun _ _ => norm_nonneg _
    have hτ := norm_nonneg (τ k)
    have c3 := Matrix.frobenius_norm_mul (Rh k) (τ k)
    have c4 := Matrix.frobenius_norm_mul (Rh k - R k) (τ k)
    have t1 : ‖Rh (k + 1)‖ ≤ ‖Rh (k + 1) - Rh k * M k‖ + ‖Rh k * M k‖ := by
      simpa using norm_add_le (Rh (k + 1) - Rh k * M k) (Rh k * M k)
    have t2 : ‖Rh (k + 1) - R k * M k‖ ≤ ‖Rh (k + 1) - Rh k * M k‖ + ‖(Rh k - R k) * M k‖ := by
      have := norm_add_le (Rh (k + 1) - Rh k * M k) ((Rh k - R k) * M k)
      rwa [Matrix.sub_mul, sub_add_sub_cancel, ← Matrix.sub_mul] at this
    have t3 : ‖th (k + 1)‖ ≤ ‖th (k + 1) - (th k + Rh k * τ k)‖ + (‖th k‖ + ‖Rh k * τ k‖) := by
      have h1 := norm_add_le (th (k + 1) - (th k + Rh k * τ k)) (th k + Rh k * τ k)
      rw [sub_add_cancel] at h1
      exact h1.trans (add_le_add le_rfl (norm_add_le _ _))
    have t4 : ‖th (k + 1) - (t k + R k * τ k)‖ ≤
        ‖th (k + 1) - (th k + Rh k * τ k)‖ + (‖th k - t k‖ + ‖(Rh k - R k) * τ k‖) := by
      have h1 := norm_add_le (th (k + 1) - (th k + Rh k * τ k)) ((th k - t k) + (Rh k - R k) * τ k)
      have e : th (k + 1) - (th k + Rh k * τ k) + ((th k - t k) + (Rh k - R k) * τ k) =
          th (k + 1) - (t k + R k * τ k) := by
        rw [Matrix.sub_mul]
        abel
      rw [e] at h1
      exact h1.trans (add_le_add le_rfl (norm_add_le _ _))
    have hMg : ‖Rh (k + 1) - Rh k * M k‖ ≤ g * w * (s * ‖Rh k‖) := by
      refine b1.trans ?_
      have := mul_le_mul_of_nonneg_left (mul_le_mul_of_nonneg_left b3 (norm_nonneg (Rh k))) hg
      linarith
    have key := step_real hg w1 hs (one_le_pow₀ (n := k) (le_add_of_nonneg_right (mul_nonneg hg (by linarith))))
      (mul_nonneg (zero_le_one.trans w1) (pow_nonneg s0 k)) hL hτ i1 i2 i3 i4
      (rh' := ‖Rh (k + 1)‖) (er' := ‖Rh (k + 1) - R k * M k‖) (t' := ‖th (k + 1)‖)
      (e' := ‖th (k + 1) - (t k + R k * τ k)‖) (by linarith) (by linarith) (by linarith) (by linarith)
    rw [pow_succ, pow_succ, ← mul_assoc w]
    exact key

theorem dotV_ofFn {d : Nat} (f : Fin d → ℝ × ℝ) : dotV (List.ofFn f) = ∑ k, (f k).1 * (f k).2 := by
  simp [dotV, List.map_ofFn, List.sum_ofFn]

theorem dotA_ofFn {d : Nat} (f : Fin d → ℝ × ℝ) : dotA (List.ofFn f) = ∑ k, |(f k).1 * (f k).2| := by
  simp [dotA, List.map_ofFn, List.sum_ofFn]

/-- A computed matrix product. -/
theorem rot_near {rnd : ℝ → ℝ} {u : ℝ} (hu : 0 ≤ u) (hr : Accurate u rnd) {d : Nat}
    {A M B : Matrix (Fin d) (Fin d) ℝ} (h : ∀ a b, DotR rnd (List.ofFn fun k => (A a k, M k b)) (B a b)) :
    ‖B - A * M‖ ≤ ((1 + u) ^ (d + 1) - 1) * (‖A‖ * ‖M‖) := by
  have hp : (1 : ℝ) ≤ (1 + u) ^ (d + 1) := one_le_pow₀ (by linarith)
  refine norm_near (by linarith) fun a b => ?_
  obtain ⟨-, h1⟩ := dotR_near hu hr (h a b)
  rw [dotV_ofFn, dotA_ofFn, List.length_ofFn] at h1
  have h2 : (1 + u) ^ d ≤ (1 + u) ^ (d + 1) := pow_le_pow_right₀ (by linarith) (Nat.le_succ d)
  rw [Matrix.sub_apply, Matrix.mul_apply]
  exact h1.trans (mul_le_mul_of_nonneg_right (by linarith) (Finset.sum_nonneg fun _ _ => abs_nonneg _))

/-- A computed translation. -/
theorem tra_near {rnd : ℝ → ℝ} {u : ℝ} (hu : 0 ≤ u) (hr : Accurate u rnd) {d : Nat} {A : Matrix (Fin d) (Fin d) ℝ}
    {t v w : Fin d → ℝ} (h : ∀ a, DotR rnd ((t a, 1) :: List.ofFn fun k => (A a k, v k)) (w a)) :
    ‖replicateCol (Fin 1) w - (replicateCol (Fin 1) t + A * replicateCol (Fin 1) v)‖ ≤
      ((1 + u) ^ (d + 1) - 1) * (‖replicateCol (Fin 1) t‖ + ‖A‖ * ‖replicateCol (Fin 1) v‖) := by
  have hp : (1 : ℝ) ≤ (1 + u) ^ (d + 1) := one_le_pow₀ (by linarith)
  have hg : 0 ≤ (1 + u) ^ (d + 1) - 1 := by linarith
  have h1 : ‖replicateCol (Fin 1) w - (replicateCol (Fin 1) t + A * replicateCol (Fin 1) v)‖ ≤
      ‖((1 + u) ^ (d + 1) - 1) • ((replicateCol (Fin 1) t).map (fun x => |x|) +
        A.map (fun x => |x|) * (replicateCol (Fin 1) v).map fun x => |x|)‖ := norm_mono fun a b => by
    obtain ⟨-, h1⟩ := dotR_near hu hr (h a)
    have e1 : dotV ((t a, 1) :: List.ofFn fun k => (A a k, v k)) = t a + ∑ k, A a k * v k := by
      rw [← dotV_ofFn fun k => (A a k, v k)]
      simp [dotV]
    have e2 : dotA ((t a, 1) :: List.ofFn fun k => (A a k, v k)) = |t a| + ∑ k, |A a k * v k| := by
      rw [← dotA_ofFn fun k => (A a k, v k)]
      simp [dotA]
    rw [e1, e2, List.length_cons, List.length_ofFn] at h1
    simpa [Matrix.mul_apply, abs_mul] using h1
  refine h1.trans ?_
  rw [norm_smul, Real.norm_of_nonneg hg]
  refine mul_le_mul_of_nonneg_left ((norm_add_le _ _).trans ?_) hg
  rw [norm_abs]
  have := Matrix.frobenius_norm_mul (A.map fun x => |x|) ((replicateCol (Fin 1) v).map fun x => |x|)
  rw [norm_abs, norm_abs] at this
  linarith

theorem pow_le_inv {x : ℝ} (hx : 0 ≤ x) {k : Nat} (hk : k * x < 1) : (1 + x) ^ k ≤ 1 / (1 - k * x) := by
  rw [le_div_iff₀ (by linarith)]
  rcases Nat.eq_zero_or_pos k with rfl | hpos
  · simp
  have hk1 : (1 : ℝ) ≤ k := by exact_mod_cast hpos
  have hx1 : x ≤ 1 := by nlinarith
  have h1 := one_add_mul_le_pow (a := -x) (by linarith) k
  have h2 : 1 - k * x ≤ (1 - x) ^ k := by
    have e : 1 + k * -x = 1 - k * x := by ring
    have e' : 1 + -x = 1 - x := by ring
    rwa [e, e'] at h1
  have h3 : (1 + x) ^ k * (1 - x) ^ k ≤ 1 := by
    rw [← mul_pow]
    exact pow_le_one₀ (by nlinarith) (by nlinarith)
  exact (mul_le_mul_of_nonneg_left h2 (by positivity)).trans h3

/-- One way of evaluating a sum of products. -/
noncomputable def evalDot (rnd : ℝ → ℝ) : List (ℝ × ℝ) → ℝ
  | [] => 0
  | [p] => rnd (p.1 * p.2)
  | p :: l => rnd (p.1 * p.2 + evalDot rnd l)

theorem evalDot_dotR (rnd : ℝ → ℝ) : ∀ {l : List (ℝ × ℝ)}, l ≠ [] → DotR rnd l (evalDot rnd l)
  | [], h => absurd rfl h
  | [p], _ => .prod p.1 p.2
  | p :: q :: l, _ => .fma p.1 p.2 (evalDot_dotR rnd (l := q :: l) (by simp)) (List.Perm.refl _)

/-- One way of computing the chain. -/
noncomputable def evalChain (rnd : ℝ → ℝ) (d : Nat) (odo : List (Meas ℝ)) :
    Nat → Matrix (Fin d) (Fin d) ℝ × (Fin d → ℝ)
  | 0 => (1, 0)
  | i + 1 => match odo[i]? with
    | none => evalChain rnd d odo i
    | some m =>
      (Matrix.of fun a b => evalDot rnd (List.ofFn fun k : Fin d => ((evalChain rnd d odo i).1 a k, m.R.v k b)),
       fun a => evalDot rnd (((evalChain rnd d odo i).2 a, 1) ::
         List.ofFn fun k : Fin d => ((evalChain rnd d odo i).1 a k, m.t.v k 0)))

theorem evalChain_chainR (rnd : ℝ → ℝ) {d : Nat} (odo : List (Meas ℝ)) :
    ChainR rnd d odo (fun i => (evalChain rnd d odo i).1) (fun i => (evalChain rnd d odo i).2) where
  rot_zero := rfl
  tra_zero := rfl
  rot_step i m hm a b := by
    simp only [evalChain, hm]
    exact evalDot_dotR rnd (by
      have := a.pos
      rw [Ne, List.ofFn_eq_nil_iff]
      omega)
  tra_step i m hm a := by
    simp only [evalChain, hm]
    exact evalDot_dotR rnd (by simp)

end Dpgo
