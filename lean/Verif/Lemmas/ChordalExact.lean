import Verif.Lemmas.ChordalInit

/-! # Chordal initialisation of noise-free measurements -/

namespace Dpgo

open Res Spec Matrix

variable {d n : Nat}

theorem frob2_nonneg {a b : Nat} (A : Matrix (Fin a) (Fin b) ℝ) : 0 ≤ frob2 A :=
  Finset.sum_nonneg fun _ _ => Finset.sum_nonneg fun _ _ => sq_nonneg _

theorem frob2_zero {a b : Nat} {A : Matrix (Fin a) (Fin b) ℝ} (h : frob2 A = 0) : A = 0 := by
  ext i j
  have h1 := (Finset.sum_eq_zero_iff_of_nonneg
    (fun i _ => Finset.sum_nonneg fun j _ => sq_nonneg (A i j))).1 h i (Finset.mem_univ i)
  have h2 := (Finset.sum_eq_zero_iff_of_nonneg (fun j _ => sq_nonneg (A i j))).1 h1 j
    (Finset.mem_univ j)
  exact pow_eq_zero_iff (two_ne_zero) |>.1 h2

theorem norm2_nonneg (v : Fin d → ℝ) : 0 ≤ norm2 v := Finset.sum_nonneg fun _ _ => sq_nonneg _

theorem norm2_zero {v : Fin d → ℝ} (h : norm2 v = 0) : v = 0 := by
  funext i
  have h2 := (Finset.sum_eq_zero_iff_of_nonneg (fun j _ => sq_nonneg (v j))).1 h i (Finset.mem_univ i)
  exact pow_eq_zero_iff (two_ne_zero) |>.1 h2

theorem list_sum_zero {α : Type} {l : List α} {f : α → ℝ} (h0 : ∀ a ∈ l, 0 ≤ f a)
    (h : (l.map f).sum ≤ 0) : ∀ a ∈ l, f a = 0 := by
  induction l with
  | nil => simp
  | cons b l ih =>
    rw [List.map_cons, List.sum_cons] at h
    have hs : 0 ≤ (l.map f).sum := List.sum_nonneg fun x hx => by
      obtain ⟨a, ha, rfl⟩ := List.mem_map.1 hx
      exact h0 a (by simp [ha])
    have hb := h0 b (by simp)
    intro a ha
    rcases List.mem_cons.1 ha with rfl | ha
    · linarith
    · exact ih (fun a ha => h0 a (by simp [ha])) (by linarith) a ha

/-- Zero rotation cost: the measurements hold exactly. -/
theorem rotCost_zero {ms : List (Meas ℝ)} {R : Nat → Matrix (Fin d) (Fin d) ℝ}
    (hk : ∀ m ∈ ms, 0 < m.kappa) (h : rotCost d ms R ≤ 0) :
    ∀ m ∈ ms, R m.p2 = R m.p1 * m.R.toMat d d := by
  intro m hm
  have := list_sum_zero (fun m hm => mul_nonneg (hk m hm).le (frob2_nonneg _)) h m hm
  rcases mul_eq_zero.1 this with h0 | h0
  · exact absurd h0 (hk m hm).ne'
  · exact sub_eq_zero.1 (frob2_zero h0)

theorem transCost_zero {ms : List (Meas ℝ)} {R : Nat → Matrix (Fin d) (Fin d) ℝ}
    {t : Nat → Fin d → ℝ} (hk : ∀ m ∈ ms, 0 < m.tau) (h : transCost d ms R t ≤ 0) :
    ∀ m ∈ ms, t m.p2 = t m.p1 + R m.p1 *ᵥ colV d m.t := by
  intro m hm
  have := list_sum_zero (fun m hm => mul_nonneg (hk m hm).le (norm2_nonneg _)) h m hm
  rcases mul_eq_zero.1 this with h0 | h0
  · exact absurd h0 (hk m hm).ne'
  · have := norm2_zero h0
    rw [sub_sub, sub_eq_zero] at this
    exact this

theorem rotCost_of_exact {ms : List (Meas ℝ)} {R : Nat → Matrix (Fin d) (Fin d) ℝ}
    (h : ∀ m ∈ ms, R m.p2 = R m.p1 * m.R.toMat d d) : rotCost d ms R = 0 := by
  unfold rotCost
  apply List.sum_eq_zero
  intro x hx
  obtain ⟨m, hm, rfl⟩ := List.mem_map.1 hx
  rw [h m hm, sub_self]
  simp [frob2]

theorem transCost_of_exact {ms : List (Meas ℝ)} {R : Nat → Matrix (Fin d) (Fin d) ℝ}
    {t : Nat → Fin d → ℝ} (h : ∀ m ∈ ms, t m.p2 = t m.p1 + R m.p1 *ᵥ colV d m.t) :
    transCost d ms R t = 0 := by
  unfold transCost
  apply List.sum_eq_zero
  intro x hx
  obtain ⟨m, hm, rfl⟩ := List.mem_map.1 hx
  rw [h m hm]
  simp [norm2]

theorem chordal_exact {svd : SvdOracle} {qr : LsqOracle} (hs : LawfulSvd svd) (hq : LawfulLsq qr)
    {ms : List (Meas ℝ)} (hd : d = 2 ∨ d = 3) (hwf : ChordalWF d ms) (hn : NumPoses ms n)
    (hkt : ∀ m ∈ ms, 0 < m.kappa ∧ 0 < m.tau) (hlink : ∀ i < n, Linked ms i)
    (Rs : Nat → Matrix (Fin d) (Fin d) ℝ) (ts : Nat → Fin d → ℝ) (hrot : ∀ i < n, IsRot (Rs i))
    (hR : ∀ m ∈ ms, Rs m.p2 = Rs m.p1 * m.R.toMat d d)
    (ht : ∀ m ∈ ms, ts m.p2 = ts m.p1 + Rs m.p1 *ᵥ colV d m.t) :
    ∃ T, chordalInitialization svd qr ms = ok T ∧ ArrOk d d n T ∧
      ∀ i < n, rotM d d T i = (Rs 0)ᵀ * Rs i ∧ traV d d T i = (Rs 0)ᵀ *ᵥ (ts i - ts 0) := by
  have hpos : 0 < n := by obtain ⟨-, m, -, h⟩ := hn; omega
  obtain ⟨T, Rc, e, hT, hRc0, hRopt, hT0, hTp, ht0, htopt⟩ := chordal_spec svd hq hd hwf hn
  refine ⟨T, e, hT, ?_⟩
  have h00 : (Rs 0)ᵀ * Rs 0 = 1 := (hrot 0 hpos).1
  -- the measured rotations are invertible
  have hinv : ∀ m ∈ ms, m.R.toMat d d * (m.R.toMat d d)ᵀ = 1 := by
    intro m hm
    obtain ⟨a, b⟩ := hn.1 m hm
    have e1 : m.R.toMat d d = (Rs m.p1)ᵀ * Rs m.p2 := by
      rw [hR m hm, ← Matrix.mul_assoc, (hrot _ a).1, Matrix.one_mul]
    have e2 : Rs m.p2 * (Rs m.p2)ᵀ = 1 := mul_eq_one_comm.1 (hrot _ b).1
    rw [e1, Matrix.transpose_mul, Matrix.transpose_transpose]
    calc (Rs m.p1)ᵀ * Rs m.p2 * ((Rs m.p2)ᵀ * Rs m.p1)
        = (Rs m.p1)ᵀ * (Rs m.p2 * (Rs m.p2)ᵀ) * Rs m.p1 := by simp only [Matrix.mul_assoc]
      _ = 1 := by rw [e2, Matrix.mul_one, (hrot _ a).1]
  set R' : Nat → Matrix (Fin d) (Fin d) ℝ := fun i => (Rs 0)ᵀ * Rs i with hR'
  have hR'e : ∀ m ∈ ms, R' m.p2 = R' m.p1 * m.R.toMat d d := by
    intro m hm
    simp only [hR']
    rw [hR m hm, Matrix.mul_assoc]
  have hRc := rotCost_zero (fun m hm => (hkt m hm).1)
    ((hRopt R' h00).trans (le_of_eq (rotCost_of_exact hR'e)))
  have hRceq : ∀ i, Linked ms i → Rc i = R' i := by
    intro i hi
    induction hi with
    | zero => rw [hRc0]; exact h00.symm
    | @fwd m hm _ ih => rw [hRc m hm, ih, hR'e m hm]
    | @bwd m hm _ ih =>
      have h1 : Rc m.p1 * m.R.toMat d d = R' m.p1 * m.R.toMat d d := by
        rw [← hRc m hm, ← hR'e m hm, ih]
      have := congrArg (· * (m.R.toMat d d)ᵀ) h1
      simpa [Matrix.mul_assoc, hinv m hm] using this
  have hisrot : ∀ i < n, IsRot (R' i) := by
    intro i hi
    have h0 : Rs 0 * (Rs 0)ᵀ = 1 := mul_eq_one_comm.1 h00
    refine ⟨?_, ?_⟩
    · simp only [hR', Matrix.transpose_mul, Matrix.transpose_transpose]
      calc (Rs i)ᵀ * Rs 0 * ((Rs 0)ᵀ * Rs i) = (Rs i)ᵀ * (Rs 0 * (Rs 0)ᵀ) * Rs i := by
            simp only [Matrix.mul_assoc]
        _ = 1 := by rw [h0, Matrix.mul_one, (hrot i hi).1]
    · simp only [hR']
      rw [Matrix.det_mul, Matrix.det_transpose, (hrot 0 hpos).2, (hrot i hi).2, one_mul]
  have hTR : ∀ i < n, rotM d d T i = R' i := by
    intro i hi
    rcases Nat.eq_zero_or_pos i with rfl | h0
    · rw [hT0]; exact h00.symm
    · rw [hTp i h0 hi, hRceq i (hlink i hi)]
      exact rotProj_scaled (hisrot i hi) zero_lt_one (by rw [one_smul]; exact hs d d _ le_rfl)
  set t' : Nat → Fin d → ℝ := fun i => (Rs 0)ᵀ *ᵥ (ts i - ts 0) with ht'
  have ht'e : ∀ m ∈ ms, t' m.p2 = t' m.p1 + rotM d d T m.p1 *ᵥ colV d m.t := by
    intro m hm
    rw [hTR _ (hn.1 m hm).1]
    simp only [ht', hR']
    rw [ht m hm, ← Matrix.mulVec_mulVec, ← Matrix.mulVec_add]
    congr 1
    abel
  have htc := transCost_zero (fun m hm => (hkt m hm).2)
    ((htopt t' (by simp [ht'])).trans (le_of_eq (transCost_of_exact ht'e)))
  have hteq : ∀ i, Linked ms i → traV d d T i = t' i := by
    intro i hi
    induction hi with
    | zero => rw [ht0]; simp [ht']
    | @fwd m hm _ ih => rw [htc m hm, ih, ht'e m hm]
    | @bwd m hm _ ih =>
      rw [htc m hm, ht'e m hm] at ih
      exact add_right_cancel ih
  exact fun i hi => ⟨hTR i hi, hteq i (hlink i hi)⟩

end Dpgo
