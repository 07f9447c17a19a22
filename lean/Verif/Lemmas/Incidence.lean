import Verif.Lemmas.Sums
import Verif.Spec.Cost

/-! # The connection Laplacian as a sum of squared residuals -/

namespace Dpgo

open Finset Res

variable {K : Type} [Field K]

/-- Linear combination of the rows of the incidence matrix in column `s` of a measurement. -/
def edgeForm (d : Nat) (m : Meas K) (x : Nat → K) (s : Nat) : K :=
  if s < d then x (m.p2 * (d + 1) + s) - ∑ r ∈ range d, x (m.p1 * (d + 1) + r) * m.R.v r s
  else x (m.p2 * (d + 1) + d) - x (m.p1 * (d + 1) + d) -
    ∑ r ∈ range d, x (m.p1 * (d + 1) + r) * m.t.v r 0

theorem colDot_map_range (x : Nat → K) (n : Nat) (f : Nat → Nat × Nat × K) (c : Nat) :
    SpMat.colDot x ((List.range n).map f) c =
      ∑ r ∈ range n, (if (f r).2.1 = c then x (f r).1 * (f r).2.2 else 0) := by
  unfold SpMat.colDot
  rw [List.map_map, list_range_sum]
  rfl

theorem colDot_flatMap_range (x : Nat → K) (n : Nat) (f : Nat → List (Nat × Nat × K)) (c : Nat) :
    SpMat.colDot x ((List.range n).flatMap f) c = ∑ r ∈ range n, SpMat.colDot x (f r) c := by
  unfold SpMat.colDot
  rw [list_sum_flatMap, list_range_sum]

theorem colDot_entries (d k k' s : Nat) (hs : s < d + 1) (m : Meas K) (x : Nat → K) :
    SpMat.colDot x (incidenceEntries d k m) (k' * (d + 1) + s) =
      if k = k' then edgeForm d m x s else 0 := by
  unfold incidenceEntries
  simp only [SpMat.colDot_append, colDot_flatMap_range, colDot_map_range, SpMat.colDot_cons]
  have e1 : ∀ c, c < d + 1 → ((k * (d + 1) + c = k' * (d + 1) + s) ↔ (k = k' ∧ c = s)) :=
    fun c hc => block_eq_iff hc hs
  have e2 : ∀ c ∈ range d, (∑ r ∈ range d, if k * (d + 1) + c = k' * (d + 1) + s then
      x (m.p1 * (d + 1) + r) * -m.R.v r c else 0) =
      if c = s then (if k = k' then - ∑ r ∈ range d, x (m.p1 * (d + 1) + r) * m.R.v r s else 0)
      else 0 := by
    intro c hc
    rw [Finset.mem_range] at hc
    simp only [e1 c (by omega)]
    by_cases h1 : k = k' <;> by_cases h2 : c = s <;> simp [h1, h2]
  have e3 : (∑ r ∈ range d, if k * (d + 1) + d = k' * (d + 1) + s then
      x (m.p1 * (d + 1) + r) * -m.t.v r 0 else 0) =
      if k = k' ∧ d = s then - ∑ r ∈ range d, x (m.p1 * (d + 1) + r) * m.t.v r 0 else 0 := by
    simp only [e1 d (by omega)]
    by_cases h1 : k = k' ∧ d = s <;> simp [h1]
  have e4 : (∑ r ∈ range (d + 1), if k * (d + 1) + r = k' * (d + 1) + s then
      x (m.p2 * (d + 1) + r) * 1 else 0) = if k = k' then x (m.p2 * (d + 1) + s) else 0 := by
    by_cases h1 : k = k'
    · rw [if_pos h1, ← sum_range_ite_eq (d + 1) s (fun r => x (m.p2 * (d + 1) + r)) hs]
      apply Finset.sum_congr rfl
      intro r hr
      rw [Finset.mem_range] at hr
      simp only [e1 r hr]
      simp only [h1, true_and, mul_one]
    · rw [if_neg h1]
      apply Finset.sum_eq_zero
      intro r hr
      rw [Finset.mem_range] at hr
      simp only [e1 r hr, h1, false_and, if_false]
  rw [Finset.sum_congr rfl e2, e3, e4]
  simp only [e1 d (by omega), SpMat.colDot, List.map_nil, List.sum_nil, add_zero]
  unfold edgeForm
  by_cases h1 : k = k'
  · by_cases h2 : s < d
    · rw [sum_range_ite_eq d s _ h2]
      have : ¬ d = s := by omega
      simp only [h1, h2, this, if_true, and_false, if_false]
      ring
    · have : d = s := by omega
      subst this
      have h0 : ∑ i ∈ range d, (if i = d then
          (if k = k' then - ∑ r ∈ range d, x (m.p1 * (d + 1) + r) * m.R.v r d else 0) else 0) = 0 := by
        apply Finset.sum_eq_zero
        intro i hi
        rw [Finset.mem_range] at hi
        rw [if_neg (by omega)]
      rw [h0]
      simp only [h1, and_self, if_true, Nat.lt_irrefl, if_false]
      ring
  · simp [h1]

omit [Field K] in
theorem SpMat.foldl_insert {l : List (Nat × Nat × K)} {A B : SpMat K}
    (e : Res.foldl SpMat.insert A l = ok B) :
    B.rows = A.rows ∧ B.cols = A.cols ∧ B.trips = A.trips ++ l ∧
      ∀ t ∈ l, t.1 < A.rows ∧ t.2.1 < A.cols := by
  induction l generalizing A with
  | nil => simp at e; subst e; simp
  | cons t l ih =>
    rw [foldl_cons, bind_eq_ok'] at e
    obtain ⟨C, hC, e⟩ := e
    unfold SpMat.insert at hC
    split at hC
    · rename_i hc
      cases hC
      obtain ⟨h1, h2, h3, h4⟩ := ih e
      refine ⟨h1, h2, by rw [h3]; simp, ?_⟩
      intro s hs
      rcases List.mem_cons.1 hs with rfl | hs
      · exact ⟨hc.1, hc.2.1⟩
      · exact h4 s hs
    · cases hC

omit [Field K] in
theorem foldl_update_map (f : Nat → K) (l : List (Nat × K)) (a : Nat) (h : ∀ w ∈ l, w.1 ≠ a) :
    (l.foldl (fun f (w : Nat × K) => Function.update f w.1 w.2) f) a = f a := by
  induction l generalizing f with
  | nil => rfl
  | cons w l ih =>
    rw [List.foldl_cons, ih _ (fun v hv => h v (by simp [hv])),
      Function.update_of_ne (h w (by simp)).symm]

omit [Field K] in
theorem foldl_update_const (f : Nat → K) (n b : Nat) (v : K) (a : Nat) (ha : a < n) :
    (((List.range n).map fun r => (b + r, v)).foldl
      (fun f (w : Nat × K) => Function.update f w.1 w.2) f) (b + a) = v := by
  induction n with
  | zero => omega
  | succ n ih =>
    rw [List.range_succ, List.map_append, List.foldl_append]
    simp only [List.map_cons, List.map_nil, List.foldl_cons, List.foldl_nil]
    by_cases h : a = n
    · subst h; simp
    · rw [Function.update_of_ne (by omega)]
      exact ih (by omega)

theorem omegaWrites_apply (d k k' s : Nat) (hs : s < d + 1) (m : Meas K) (f : Nat → K) :
    ((omegaWrites d k m).foldl (fun f (w : Nat × K) => Function.update f w.1 w.2) f)
      (k' * (d + 1) + s) =
    if k = k' then (if s < d then m.weight * m.kappa else m.weight * m.tau)
    else f (k' * (d + 1) + s) := by
  by_cases h : k = k'
  · subst h
    rw [if_pos rfl]
    unfold omegaWrites
    simp only [List.foldl_append, List.foldl_cons, List.foldl_nil]
    by_cases h2 : s < d
    · rw [if_pos h2, Function.update_of_ne (by omega)]
      exact foldl_update_const f d (k * (d + 1)) _ s h2
    · have : s = d := by omega
      subst this
      rw [if_neg h2, Function.update_self]
  · rw [if_neg h]
    apply foldl_update_map
    intro w hw
    unfold omegaWrites at hw
    simp only [List.mem_append, List.mem_map, List.mem_range, List.mem_singleton] at hw
    rcases hw with ⟨r, hr, rfl⟩ | rfl
    · exact fun e => h ((block_eq_iff (by omega) hs).1 e).1
    · exact fun e => h ((block_eq_iff (by omega) hs).1 e).1

/-- What the loop over the measurements leaves behind. -/
theorem incidenceLoop_spec (d : Nat) (ms : List (Meas K)) (k : Nat) (I J : Incidence K)
    (e : incidenceLoop d k ms I = ok J) :
    J.A.rows = I.A.rows ∧ J.A.cols = I.A.cols ∧
    ((∀ t ∈ I.A.trips, t.1 < I.A.rows) → ∀ t ∈ J.A.trips, t.1 < J.A.rows) ∧
    (∀ (x : Nat → K) k' s, k' < k → s < d + 1 →
      SpMat.colDot x J.A.trips (k' * (d + 1) + s) = SpMat.colDot x I.A.trips (k' * (d + 1) + s) ∧
      J.omega (k' * (d + 1) + s) = I.omega (k' * (d + 1) + s)) ∧
    (∀ (x : Nat → K) j m s, ms[j]? = some m → s < d + 1 →
      SpMat.colDot x J.A.trips ((k + j) * (d + 1) + s) =
        SpMat.colDot x I.A.trips ((k + j) * (d + 1) + s) + edgeForm d m x s ∧
      J.omega ((k + j) * (d + 1) + s) = if s < d then m.weight * m.kappa else m.weight * m.tau) := by
  induction ms generalizing k I with
  | nil =>
    simp only [incidenceLoop] at e
    cases e
    exact ⟨rfl, rfl, id, fun _ _ _ _ _ => ⟨rfl, rfl⟩, by simp⟩
  | cons m l ih =>
    simp only [incidenceLoop, bind_eq_ok] at e
    obtain ⟨-, -, A, hA, e⟩ := e
    obtain ⟨a1, a2, a3, a4⟩ := SpMat.foldl_insert hA
    obtain ⟨b1, b2, b3, b4, b5⟩ := ih (k + 1) _ e
    simp only at b1 b2 b3 b4 b5
    refine ⟨b1.trans a1, b2.trans a2, ?_, ?_, ?_⟩
    · intro hI
      apply b3
      intro t ht
      rw [a3, List.mem_append] at ht
      rw [a1]
      rcases ht with ht | ht
      · exact hI t ht
      · exact (a4 t ht).1
    · intro x k' s hk hs
      obtain ⟨c1, c2⟩ := b4 x k' s (by omega) hs
      rw [c1, c2, a3, SpMat.colDot_append, colDot_entries d k k' s hs, if_neg (by omega), add_zero,
        omegaWrites_apply d k k' s hs, if_neg (by omega)]
      exact ⟨rfl, rfl⟩
    · intro x j m' s hj hs
      cases j with
      | zero =>
        simp at hj; subst hj
        obtain ⟨c1, c2⟩ := b4 x k s (by omega) hs
        rw [Nat.add_zero, c1, c2, a3, SpMat.colDot_append, colDot_entries d k k s hs, if_pos rfl,
          omegaWrites_apply d k k s hs, if_pos rfl]
        exact ⟨rfl, rfl⟩
      | succ j =>
        obtain ⟨c1, c2⟩ := b5 x j m' s (by simpa using hj) hs
        have hk : k + 1 + j = k + (j + 1) := by omega
        rw [hk] at c1 c2
        rw [c1, c2, a3, SpMat.colDot_append, colDot_entries d k (k + (j + 1)) s hs,
          if_neg (by omega), add_zero]
        exact ⟨rfl, rfl⟩

/-- Quadratic form of one row vector. -/
def qform (N : Nat) (Q : Nat → Nat → K) (x : Nat → K) : K :=
  ∑ a ∈ range N, ∑ b ∈ range N, x a * Q a b * x b

theorem qform_factor (N C : Nat) (A : Nat → Nat → K) (om : Nat → K) (x : Nat → K) :
    qform N (fun a b => ∑ c ∈ range C, A a c * om c * A b c) x =
      ∑ c ∈ range C, om c * (∑ a ∈ range N, x a * A a c) ^ 2 := by
  unfold qform
  have h1 : ∀ a ∈ range N, ∑ b ∈ range N, x a * (∑ c ∈ range C, A a c * om c * A b c) * x b =
      ∑ c ∈ range C, om c * (x a * A a c) * ∑ b ∈ range N, x b * A b c := by
    intro a _
    simp only [Finset.mul_sum, Finset.sum_mul]
    rw [Finset.sum_comm]
    refine Finset.sum_congr rfl fun c _ => Finset.sum_congr rfl fun b _ => ?_
    ring
  rw [Finset.sum_congr rfl h1, Finset.sum_comm]
  refine Finset.sum_congr rfl fun c _ => ?_
  rw [← Finset.sum_mul, ← Finset.mul_sum]
  ring

/-- Weighted squared form of a measurement for one row vector. -/
def edgeSq (d : Nat) (m : Meas K) (x : Nat → K) : K :=
  ∑ s ∈ range (d + 1), (if s < d then m.weight * m.kappa else m.weight * m.tau) *
    (edgeForm d m x s) ^ 2

/-- The dimension deduced from the first measurement. -/
def measDim (ms : List (Meas K)) : Nat :=
  match ms with
  | [] => 0
  | m :: _ => m.t.rows * m.t.cols

/-- Entry point: the Laplacian's quadratic form. -/
theorem connectionLaplacian_qform (ms : List (Meas K)) (L : DMat K)
    (e : connectionLaplacian ms = ok L) (x : Nat → K) :
    L.rows = (measDim ms + 1) * (maxPoseIndex ms + 1) ∧ L.cols = L.rows ∧
    (∀ a b, L.v a b = L.v b a) ∧
    qform L.rows L.v x = (ms.map fun m => edgeSq (measDim ms) m x).sum := by
  unfold connectionLaplacian at e
  rw [bind_eq_ok] at e
  obtain ⟨I, hI, e⟩ := e
  cases e
  unfold incidence at hI
  change incidenceLoop (measDim ms) 0 ms
    ⟨⟨(measDim ms + 1) * (maxPoseIndex ms + 1), (measDim ms + 1) * ms.length, []⟩, fun _ => 0⟩ =
    _ at hI
  obtain ⟨h1, h2, h3, -, h5⟩ := incidenceLoop_spec _ _ _ _ _ hI
  simp only at h1 h2 h3 h5
  refine ⟨h1, rfl, ?_, ?_⟩
  · intro a b
    change ∑ c ∈ range I.A.cols, I.A.coeff a c * I.omega c * I.A.coeff b c =
      ∑ c ∈ range I.A.cols, I.A.coeff b c * I.omega c * I.A.coeff a c
    exact Finset.sum_congr rfl fun c _ => by ring
  · rw [qform_factor, h2, sum_range_blocks]
    apply sum_range_list
    intro k m hk
    unfold edgeSq
    refine Finset.sum_congr rfl fun s hs => ?_
    rw [Finset.mem_range] at hs
    obtain ⟨c1, c2⟩ := h5 x k m s hk hs
    rw [Nat.zero_add] at c1 c2
    have c3 : SpMat.colDot x I.A.trips (k * (measDim ms + 1) + s) = edgeForm (measDim ms) m x s := by
      rw [c1]; simp [SpMat.colDot]
    rw [c2, ← c3, ← SpMat.sum_coeff I.A.rows x I.A.rows I.A.cols I.A.trips (h3 (by simp))]

end Dpgo
