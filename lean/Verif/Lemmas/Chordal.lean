import Verif.Spec.Chordal
import Verif.Lemmas.Incidence
import Verif.Lemmas.Odometry
import Verif.Lemmas.Assembly

/-! # The matrices of the chordal relaxation -/

namespace Dpgo

open Finset Res Spec Matrix

/-- Linear functional of one row of a triplet list. -/
def rowDot (x : Nat → ℝ) (l : List (Nat × Nat × ℝ)) (a : Nat) : ℝ :=
  (l.map fun t => if t.1 = a then x t.2.1 * t.2.2 else 0).sum

theorem rowDot_append (x : Nat → ℝ) (l l' : List (Nat × Nat × ℝ)) (a : Nat) :
    rowDot x (l ++ l') a = rowDot x l a + rowDot x l' a := by
  simp [rowDot]

theorem rowDot_cons (x : Nat → ℝ) (t : Nat × Nat × ℝ) (l : List (Nat × Nat × ℝ)) (a : Nat) :
    rowDot x (t :: l) a = (if t.1 = a then x t.2.1 * t.2.2 else 0) + rowDot x l a := rfl

theorem rowDot_nil (x : Nat → ℝ) (a : Nat) : rowDot x [] a = 0 := rfl

theorem rowDot_map_range (x : Nat → ℝ) (n : Nat) (f : Nat → Nat × Nat × ℝ) (c : Nat) :
    rowDot x ((List.range n).map f) c =
      ∑ r ∈ range n, (if (f r).1 = c then x (f r).2.1 * (f r).2.2 else 0) := by
  unfold rowDot
  rw [List.map_map, list_range_sum]
  rfl

theorem rowDot_flatMap_range (x : Nat → ℝ) (n : Nat) (f : Nat → List (Nat × Nat × ℝ)) (c : Nat) :
    rowDot x ((List.range n).flatMap f) c = ∑ r ∈ range n, rowDot x (f r) c := by
  unfold rowDot
  rw [list_sum_flatMap, list_range_sum]

theorem ofTriplets_ok {r c : Nat} {l : List (Nat × Nat × ℝ)} {B : SpMat ℝ}
    (h : SpMat.ofTriplets r c l = ok B) :
    B = ⟨r, c, l⟩ ∧ ∀ t ∈ l, t.1 < r ∧ t.2.1 < c := by
  unfold SpMat.ofTriplets at h
  split at h
  · rename_i hl
    cases h
    refine ⟨rfl, ?_⟩
    simpa using hl
  · cases h

theorem mulVec_rowDot {r c : Nat} {l : List (Nat × Nat × ℝ)}
    (hl : ∀ t ∈ l, t.1 < r ∧ t.2.1 < c) (x : Nat → ℝ) (a : Nat) :
    SpMat.mulVec ⟨r, c, l⟩ x a = rowDot x l a := by
  unfold SpMat.mulVec
  simp only
  induction l with
  | nil => simp [SpMat.coeff, rowDot]
  | cons t l ih =>
    rw [rowDot_cons, ← ih (fun s hs => hl s (by simp [hs]))]
    simp only [SpMat.coeff_cons, add_mul]
    rw [Finset.sum_add_distrib]
    congr 1
    · by_cases h : t.1 = a
      · simp only [h, true_and, if_true, ite_mul, zero_mul]
        rw [sum_range_ite_eq' c t.2.1 (fun b => t.2.2 * x b) (hl t (by simp)).2, mul_comm]
      · simp [h]

/-- The rows of measurement `k` only see the entries of measurement `k`. -/
theorem rowDot_zipIdx (ms : List (Meas ℝ)) (f : Nat → Meas ℝ → List (Nat × Nat × ℝ)) (x : Nat → ℝ)
    (a k : Nat) (off : Nat) (hf : ∀ e m, e ≠ k → rowDot x (f e m) a = 0) :
    rowDot x ((ms.zipIdx off).flatMap fun p => f p.2 p.1) a =
      if off ≤ k then (match ms[k - off]? with | some m => rowDot x (f k m) a | none => 0) else 0 := by
  induction ms generalizing off with
  | nil => simp [rowDot]
  | cons m l ih =>
    rw [List.zipIdx_cons, List.flatMap_cons, rowDot_append, ih]
    by_cases h : off = k
    · subst h
      rw [if_neg (by omega), if_pos le_rfl, Nat.sub_self]
      simp
    · rw [hf off m h, zero_add]
      by_cases h1 : off ≤ k
      · rw [if_pos (by omega), if_pos h1]
        obtain ⟨j, hj⟩ : ∃ j, k - off = j + 1 := ⟨k - off - 1, by omega⟩
        rw [hj, show k - (off + 1) = j by omega, List.getElem?_cons_succ]
      · rw [if_neg (by omega), if_neg h1]

theorem b1_row (d e e' s : Nat) (hs : s < d) (m : Meas ℝ) (x : Nat → ℝ) :
    rowDot x (b1Entries d e m) (e' * d + s) =
      if e = e' then Real.sqrt m.tau * (x (m.p2 * d + s) - x (m.p1 * d + s)) else 0 := by
  unfold b1Entries
  simp only [rowDot_flatMap_range, rowDot_cons, rowDot_nil, add_zero]
  have : ∀ l ∈ range d, ((if e * d + l = e' * d + s then x (m.p1 * d + l) * -Real.sqrt m.tau else 0) +
      if e * d + l = e' * d + s then x (m.p2 * d + l) * Real.sqrt m.tau else 0) =
      if l = s then (if e = e' then Real.sqrt m.tau * (x (m.p2 * d + l) - x (m.p1 * d + l)) else 0)
      else 0 := by
    intro l hl
    rw [Finset.mem_range] at hl
    simp only [block_eq_iff hl hs]
    by_cases h1 : e = e' <;> by_cases h2 : l = s <;> simp [h1, h2]
    ring
  rw [Finset.sum_congr rfl this]
  exact sum_range_ite_eq d s _ hs

theorem b2_row (d e e' s : Nat) (hs : s < d) (m : Meas ℝ) (x : Nat → ℝ) :
    rowDot x (b2Entries d e m) (e' * d + s) =
      if e = e' then - (Real.sqrt m.tau *
        ∑ k ∈ range d, x (m.p1 * (d * d) + (k * d + s)) * m.t.v k 0) else 0 := by
  unfold b2Entries
  simp only [rowDot_flatMap_range, rowDot_map_range]
  have : ∀ k ∈ range d, (∑ r ∈ range d, if d * e + r = e' * d + s then
      x (d * d * m.p1 + d * k + r) * (-Real.sqrt m.tau * m.t.v k 0) else 0) =
      if e = e' then x (m.p1 * (d * d) + (k * d + s)) * (-Real.sqrt m.tau * m.t.v k 0) else 0 := by
    intro k _
    have h2 : ∀ r ∈ range d, (if d * e + r = e' * d + s then
        x (d * d * m.p1 + d * k + r) * (-Real.sqrt m.tau * m.t.v k 0) else 0) =
        if r = s then (if e = e' then
          x (m.p1 * (d * d) + (k * d + r)) * (-Real.sqrt m.tau * m.t.v k 0) else 0) else 0 := by
      intro r hr
      rw [Finset.mem_range] at hr
      rw [Nat.mul_comm d e, show d * d * m.p1 + d * k + r = m.p1 * (d * d) + (k * d + r) by ring]
      simp only [block_eq_iff hr hs]
      by_cases h1 : e = e' <;> by_cases h2 : r = s <;> simp [h1, h2]
    rw [Finset.sum_congr rfl h2]
    exact sum_range_ite_eq d s _ hs
  rw [Finset.sum_congr rfl this]
  by_cases h : e = e'
  · simp only [h, if_true]
    rw [Finset.mul_sum, ← Finset.sum_neg_distrib]
    exact Finset.sum_congr rfl fun k _ => by ring
  · simp [h]

theorem b3_row (d e e' c s : Nat) (hc : c < d) (hs : s < d) (m : Meas ℝ) (x : Nat → ℝ) :
    rowDot x (b3Entries d e m) (e' * (d * d) + (c * d + s)) =
      if e = e' then Real.sqrt m.kappa * (x (m.p2 * (d * d) + (c * d + s)) -
        ∑ k ∈ range d, x (m.p1 * (d * d) + (k * d + s)) * m.R.v k c) else 0 := by
  have hcs : c * d + s < d * d := block_lt hs hc
  unfold b3Entries
  simp only [rowDot_append, rowDot_flatMap_range, rowDot_map_range]
  have e1 : ∀ r ∈ range d, (∑ k ∈ range d, ∑ l ∈ range d,
      if e * (d * d) + d * r + l = e' * (d * d) + (c * d + s) then
        x (m.p1 * (d * d) + d * k + l) * (-Real.sqrt m.kappa * m.R.v k r) else 0) =
      if r = c then (if e = e' then - (Real.sqrt m.kappa *
        ∑ k ∈ range d, x (m.p1 * (d * d) + (k * d + s)) * m.R.v k r) else 0) else 0 := by
    intro r hr
    rw [Finset.mem_range] at hr
    have h1 : ∀ k ∈ range d, (∑ l ∈ range d,
        if e * (d * d) + d * r + l = e' * (d * d) + (c * d + s) then
          x (m.p1 * (d * d) + d * k + l) * (-Real.sqrt m.kappa * m.R.v k r) else 0) =
        if e = e' ∧ r = c then
          x (m.p1 * (d * d) + (k * d + s)) * (-Real.sqrt m.kappa * m.R.v k r) else 0 := by
      intro k _
      have h2 : ∀ l ∈ range d, (if e * (d * d) + d * r + l = e' * (d * d) + (c * d + s) then
          x (m.p1 * (d * d) + d * k + l) * (-Real.sqrt m.kappa * m.R.v k r) else 0) =
          if l = s then (if e = e' ∧ r = c then
            x (m.p1 * (d * d) + (k * d + l)) * (-Real.sqrt m.kappa * m.R.v k r) else 0) else 0 := by
        intro l hl
        rw [Finset.mem_range] at hl
        rw [show e * (d * d) + d * r + l = e * (d * d) + (r * d + l) by ring,
          show m.p1 * (d * d) + d * k + l = m.p1 * (d * d) + (k * d + l) by ring]
        simp only [block_eq_iff (block_lt hl hr) hcs, block_eq_iff hl hs]
        by_cases h1 : e = e' <;> by_cases h2 : r = c <;> by_cases h3 : l = s <;> simp [h1, h2, h3]
      rw [Finset.sum_congr rfl h2]
      exact sum_range_ite_eq d s _ hs
    rw [Finset.sum_congr rfl h1]
    by_cases h : e = e' <;> by_cases h' : r = c <;> simp only [h, h', and_self, and_true, and_false,
      if_true, if_false, Finset.sum_const_zero]
    rw [Finset.mul_sum, ← Finset.sum_neg_distrib]
    exact Finset.sum_congr rfl fun k _ => by ring
  have e2 : (∑ l ∈ range (d * d), if e * (d * d) + l = e' * (d * d) + (c * d + s) then
      x (m.p2 * (d * d) + l) * Real.sqrt m.kappa else 0) =
      if e = e' then x (m.p2 * (d * d) + (c * d + s)) * Real.sqrt m.kappa else 0 := by
    have h2 : ∀ l ∈ range (d * d), (if e * (d * d) + l = e' * (d * d) + (c * d + s) then
        x (m.p2 * (d * d) + l) * Real.sqrt m.kappa else 0) =
        if l = c * d + s then (if e = e' then x (m.p2 * (d * d) + l) * Real.sqrt m.kappa else 0)
        else 0 := by
      intro l hl
      rw [Finset.mem_range] at hl
      simp only [block_eq_iff hl hcs]
      by_cases h1 : e = e' <;> by_cases h3 : l = c * d + s <;> simp [h1, h3]
    rw [Finset.sum_congr rfl h2]
    exact sum_range_ite_eq (d * d) (c * d + s) _ hcs
  rw [Finset.sum_congr rfl e1, e2, sum_range_ite_eq d c _ hc]
  by_cases h : e = e'
  · simp only [h, if_true]; ring
  · simp [h]

theorem bmats_unfold (ms : List (Meas ℝ)) :
    constructBMatrices ms = bMatricesOf (measDim ms) (maxPoseIndex ms + 1) ms := by
  cases ms <;> rfl

/-- What `constructBMatrices` returns. -/
theorem bmats_ok {ms : List (Meas ℝ)} {B : BMats} (h : constructBMatrices ms = ok B) :
    let d := measDim ms
    let n := maxPoseIndex ms + 1
    (B.B1.rows = d * ms.length ∧ B.B1.cols = d * n) ∧
    (B.B2.rows = d * ms.length ∧ B.B2.cols = d * d * n) ∧
    (B.B3.rows = d * d * ms.length ∧ B.B3.cols = d * d * n) ∧
    (∀ m ∈ ms, 0 ≤ m.tau ∧ 0 ≤ m.kappa) ∧
    (∀ x k m s, ms[k]? = some m → s < d → B.B1.mulVec x (k * d + s) =
      Real.sqrt m.tau * (x (m.p2 * d + s) - x (m.p1 * d + s))) ∧
    (∀ x k m s, ms[k]? = some m → s < d → B.B2.mulVec x (k * d + s) =
      - (Real.sqrt m.tau * ∑ j ∈ range d, x (m.p1 * (d * d) + (j * d + s)) * m.t.v j 0)) ∧
    (∀ x k m c s, ms[k]? = some m → c < d → s < d →
      B.B3.mulVec x (k * (d * d) + (c * d + s)) =
      Real.sqrt m.kappa * (x (m.p2 * (d * d) + (c * d + s)) -
        ∑ j ∈ range d, x (m.p1 * (d * d) + (j * d + s)) * m.R.v j c)) := by
  intro d n
  rw [bmats_unfold] at h
  change bMatricesOf d n ms = _ at h
  unfold bMatricesOf at h
  rw [bind_eq_ok] at h
  obtain ⟨_, -, h⟩ := h
  split at h
  · cases h
  · rename_i hneg
    simp only [bind_eq_ok] at h
    obtain ⟨B1, h1, B2, h2, B3, h3, h⟩ := h
    cases h
    obtain ⟨rfl, l1⟩ := ofTriplets_ok h1
    obtain ⟨rfl, l2⟩ := ofTriplets_ok h2
    obtain ⟨rfl, l3⟩ := ofTriplets_ok h3
    refine ⟨⟨rfl, rfl⟩, ⟨rfl, rfl⟩, ⟨rfl, rfl⟩, ?_, ?_, ?_, ?_⟩
    · intro m hm
      simp only [not_exists, not_and, not_or, not_lt] at hneg
      exact hneg m hm
    · intro x k m s hk hs
      rw [mulVec_rowDot l1, rowDot_zipIdx ms (b1Entries d) x _ k 0
        (fun e m he => by rw [b1_row d e k s hs, if_neg he])]
      simp only [Nat.zero_le, if_true, Nat.sub_zero, hk]
      rw [b1_row d k k s hs, if_pos rfl]
    · intro x k m s hk hs
      rw [mulVec_rowDot l2, rowDot_zipIdx ms (b2Entries d) x _ k 0
        (fun e m he => by rw [b2_row d e k s hs, if_neg he])]
      simp only [Nat.zero_le, if_true, Nat.sub_zero, hk]
      rw [b2_row d k k s hs, if_pos rfl]
    · intro x k m c s hk hc hs
      rw [mulVec_rowDot l3, rowDot_zipIdx ms (b3Entries d) x _ k 0
        (fun e m he => by rw [b3_row d e k c s hc hs, if_neg he])]
      simp only [Nat.zero_le, if_true, Nat.sub_zero, hk]
      rw [b3_row d k k c s hc hs, if_pos rfl]

theorem bmats_transCost {ms : List (Meas ℝ)} {B : BMats} (h : constructBMatrices ms = ok B)
    (x y : Nat → ℝ) :
    ∑ a ∈ range B.B1.rows, (B.B1.mulVec y a + B.B2.mulVec x a) ^ 2 =
      transCost (measDim ms) ms (unvecR (measDim ms) x) (unvecT (measDim ms) y) := by
  obtain ⟨⟨r1, -⟩, -, -, hnn, m1, m2, -⟩ := bmats_ok h
  rw [r1, sum_range_blocks]
  unfold transCost
  apply sum_range_list
  intro k m hk
  unfold norm2
  rw [Finset.sum_range, Finset.mul_sum]
  refine Finset.sum_congr rfl fun s _ => ?_
  rw [m1 y k m s hk s.2, m2 x k m s hk s.2]
  have e : (unvecT (measDim ms) y m.p2 - unvecT (measDim ms) y m.p1 -
      unvecR (measDim ms) x m.p1 *ᵥ colV (measDim ms) m.t) s =
      y (m.p2 * measDim ms + s) - y (m.p1 * measDim ms + s) -
      ∑ j ∈ range (measDim ms), x (m.p1 * (measDim ms * measDim ms) + (j * measDim ms + s)) *
        m.t.v j 0 := by
    simp only [Pi.sub_apply, unvecT, mulVec, dotProduct, unvecR, Matrix.of_apply, colV]
    rw [Finset.sum_range]
  rw [e, ← mul_neg, ← mul_add, mul_pow, Real.sq_sqrt (hnn m (List.mem_of_getElem? hk)).1]
  ring

theorem bmats_rotCost {ms : List (Meas ℝ)} {B : BMats} (h : constructBMatrices ms = ok B)
    (x : Nat → ℝ) :
    ∑ a ∈ range B.B3.rows, (B.B3.mulVec x a) ^ 2 =
      rotCost (measDim ms) ms (unvecR (measDim ms) x) := by
  obtain ⟨-, -, ⟨r3, -⟩, hnn, -, -, m3⟩ := bmats_ok h
  rw [r3, sum_range_blocks]
  unfold rotCost
  apply sum_range_list
  intro k m hk
  rw [sum_range_blocks]
  unfold frob2
  rw [Finset.sum_comm, Finset.sum_range, Finset.mul_sum]
  refine Finset.sum_congr rfl fun s _ => ?_
  rw [Finset.sum_range, Finset.mul_sum]
  refine Finset.sum_congr rfl fun c _ => ?_
  rw [m3 x k m c s hk c.2 s.2]
  have e : (unvecR (measDim ms) x m.p2 - unvecR (measDim ms) x m.p1 *
      m.R.toMat (measDim ms) (measDim ms)) s c =
      x (m.p2 * (measDim ms * measDim ms) + (c * measDim ms + s)) -
      ∑ j ∈ range (measDim ms), x (m.p1 * (measDim ms * measDim ms) + (j * measDim ms + s)) *
        m.R.v j c := by
    simp only [Matrix.sub_apply, unvecR, Matrix.mul_apply, Matrix.of_apply, DMat.toMat]
    rw [Finset.sum_range]
  rw [e, mul_pow, Real.sq_sqrt (hnn m (List.mem_of_getElem? hk)).2]

/-! ## Sizes -/

theorem maxPoseIndex_eq {ms : List (Meas ℝ)} {n : Nat} (h : NumPoses ms n) :
    maxPoseIndex ms + 1 = n := by
  obtain ⟨hall, m, hm, he⟩ := h
  have a1 := le_maxPoseIndex hm
  have a3 := hall m hm
  have a2 := maxPoseIndex_lt (ms := ms) (b := n) (by omega) hall
  omega

theorem numPoses_eq {ms : List (Meas ℝ)} {n : Nat} (h : NumPoses ms n)
    (hr : ∀ m ∈ ms, m.p1 + 1 < 2 ^ 64 ∧ m.p2 + 1 < 2 ^ 64) :
    ms.foldl (fun n m => max (max n (u64 (m.p1 + 1))) (u64 (m.p2 + 1))) 0 = n := by
  obtain ⟨-, h2, h3⟩ := foldl_numPoses ms 0
  obtain ⟨hall, m, hm, he⟩ := h
  have e : ∀ m ∈ ms, u64 (m.p1 + 1) = m.p1 + 1 ∧ u64 (m.p2 + 1) = m.p2 + 1 := fun m hm =>
    ⟨Nat.mod_eq_of_lt (hr m hm).1, Nat.mod_eq_of_lt (hr m hm).2⟩
  have a1 := h2 m hm
  rw [(e m hm).1, (e m hm).2] at a1
  have a2 := h3 n (Nat.zero_le _) fun x hx => by
    rw [(e x hx).1, (e x hx).2]
    have := hall x hx; omega
  have a3 := hall m hm
  omega

theorem measDim_eq {d : Nat} {ms : List (Meas ℝ)} (h : ChordalWF d ms) : measDim ms = d := by
  cases ms with
  | nil => exact absurd rfl h.1
  | cons m l =>
    have := (h.2 m (by simp)).1
    unfold measDim
    simp only
    rw [this.2.2.1, this.2.2.2, Nat.mul_one]

theorem ofTriplets_total {r c : Nat} {l : List (Nat × Nat × ℝ)}
    (h : ∀ t ∈ l, t.1 < r ∧ t.2.1 < c) : SpMat.ofTriplets r c l = ok ⟨r, c, l⟩ := by
  unfold SpMat.ofTriplets
  rw [if_pos]
  simpa using h

theorem bmats_total {d n : Nat} {ms : List (Meas ℝ)} (h : ChordalWF d ms) (hn : NumPoses ms n) :
    ∃ B, constructBMatrices ms = ok B := by
  rw [bmats_unfold, measDim_eq h, maxPoseIndex_eq hn]
  unfold bMatricesOf
  have hz : ∀ p : Meas ℝ × Nat, p ∈ ms.zipIdx → p.1 ∈ ms ∧ p.2 < ms.length := by
    rintro ⟨m, k⟩ hp
    have := List.mem_zipIdx hp
    exact ⟨by rw [this.2.2]; exact List.getElem_mem _, by simpa using this.2.1⟩
  rw [show ms.all (measReadable d) = true from by
    rw [List.all_eq_true]
    intro m hm
    obtain ⟨⟨a, b, c, e⟩, -⟩ := h.2 m hm
    simp [measReadable, a, b, c, e], require_true, ok_bind, if_neg]
  · rw [ofTriplets_total (r := d * ms.length) (c := d * n), ok_bind,
      ofTriplets_total (r := d * ms.length) (c := d * d * n), ok_bind,
      ofTriplets_total (r := d * d * ms.length) (c := d * d * n), ok_bind]
    · exact ⟨_, rfl⟩
    · intro t ht
      rw [List.mem_flatMap] at ht
      obtain ⟨p, hp, ht⟩ := ht
      obtain ⟨hm, hk⟩ := hz p hp
      obtain ⟨q1, q2⟩ := hn.1 p.1 hm
      unfold b3Entries at ht
      simp only [List.mem_append, List.mem_flatMap, List.mem_map, List.mem_range] at ht
      rcases ht with ⟨r, hr, c, hc, l, hl, rfl⟩ | ⟨l, hl, rfl⟩
      · rw [show p.2 * (d * d) + d * r + l = p.2 * (d * d) + (r * d + l) by ring,
          show p.1.p1 * (d * d) + d * c + l = p.1.p1 * (d * d) + (c * d + l) by ring]
        exact ⟨block_lt (block_lt hl hr) hk, block_lt (block_lt hl hc) q1⟩
      · exact ⟨block_lt hl hk, block_lt hl q2⟩
    · intro t ht
      rw [List.mem_flatMap] at ht
      obtain ⟨p, hp, ht⟩ := ht
      obtain ⟨hm, hk⟩ := hz p hp
      obtain ⟨q1, q2⟩ := hn.1 p.1 hm
      unfold b2Entries at ht
      simp only [List.mem_flatMap, List.mem_map, List.mem_range] at ht
      obtain ⟨k, hk', r, hr, rfl⟩ := ht
      rw [Nat.mul_comm d p.2,
        show d * d * p.1.p1 + d * k + r = p.1.p1 * (d * d) + (k * d + r) by ring]
      exact ⟨block_lt hr hk, block_lt (block_lt hr hk') q1⟩
    · intro t ht
      rw [List.mem_flatMap] at ht
      obtain ⟨p, hp, ht⟩ := ht
      obtain ⟨hm, hk⟩ := hz p hp
      obtain ⟨q1, q2⟩ := hn.1 p.1 hm
      unfold b1Entries at ht
      simp only [List.mem_flatMap, List.mem_cons, List.not_mem_nil, or_false, List.mem_range] at ht
      obtain ⟨l, hl, rfl | rfl⟩ := ht
      · exact ⟨block_lt hl hk, block_lt hl q1⟩
      · exact ⟨block_lt hl hk, block_lt hl q2⟩
  · rintro ⟨m, hm, hh⟩
    have := (h.2 m hm).2
    rcases hh with hh | hh <;> linarith [this.1, this.2.1]

/-! ## Least squares -/

theorem SpMat.mulVec_congr (B : SpMat ℝ) {x y : Nat → ℝ} (h : ∀ b < B.cols, x b = y b) (a : Nat) :
    B.mulVec x a = B.mulVec y a :=
  Finset.sum_congr rfl fun b hb => by rw [h b (Finset.mem_range.1 hb)]

theorem SpMat.mulVec_split (B : SpMat ℝ) {k0 k : Nat} (hk : B.cols = k0 + k) (x : Nat → ℝ) (a : Nat) :
    B.mulVec x a = ∑ b ∈ range k0, B.coeff a b * x b +
      ∑ j ∈ range k, B.coeff a (k0 + j) * x (k0 + j) := by
  unfold SpMat.mulVec
  rw [hk, Finset.sum_range_add]

theorem solveRight_opt {qr : LsqOracle} (hq : LawfulLsq qr) (B : SpMat ℝ) {k0 k : Nat}
    (hk : B.cols = k0 + k) (c : Nat → ℝ) (z : Nat → ℝ) :
    ∑ a ∈ range B.rows, (c a + ∑ j ∈ range k, B.coeff a (k0 + j) * solveRight qr B k c j) ^ 2 ≤
    ∑ a ∈ range B.rows, (c a + ∑ j ∈ range k, B.coeff a (k0 + j) * z j) ^ 2 := by
  have h := hq B.rows k (Matrix.of fun i j => B.coeff i (B.cols - k + j)) (fun i => c i)
    (fun j => - z j)
  have e0 : B.cols - k = k0 := by omega
  unfold norm2 at h
  rw [Finset.sum_range, Finset.sum_range]
  refine le_trans (le_of_eq ?_) (h.trans (le_of_eq ?_))
  · refine Finset.sum_congr rfl fun a _ => ?_
    rw [← neg_sq]
    congr 1
    simp only [Pi.sub_apply, mulVec, dotProduct, Matrix.of_apply, e0]
    rw [Finset.sum_range, neg_add, ← Finset.sum_neg_distrib, add_comm, sub_eq_add_neg]
    congr 1
    refine Finset.sum_congr rfl fun j _ => ?_
    unfold solveRight
    rw [dif_pos j.2]
    simp only [e0, Fin.eta]
    ring
  · refine Finset.sum_congr rfl fun a _ => ?_
    rw [← neg_sq]
    congr 1
    simp only [Pi.sub_apply, mulVec, dotProduct, Matrix.of_apply, e0]
    rw [Finset.sum_range, neg_sub, sub_eq_add_neg, ← Finset.sum_neg_distrib]
    congr 1
    exact Finset.sum_congr rfl fun j _ => by ring

end Dpgo
