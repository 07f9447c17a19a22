import Verif.Lemmas.ChordalExact
import Verif.Lemmas.LeastSquares
import Verif.Lemmas.Svd
import Mathlib.Data.Matrix.Reflection

/-! # C29, C30, C64: chordal initialisation -/

namespace Dpgo.Props

open Res Spec Matrix Finset

variable {d n : Nat}

/-- `B1`, `B2` encode the translation residuals: for every estimate. -/
theorem C29_translation {ms : List (Meas ℝ)} (hwf : ChordalWF d ms) (hn : NumPoses ms n) :
    ∃ B, constructBMatrices ms = ok B ∧
      B.B1.rows = d * ms.length ∧ B.B1.cols = d * n ∧
      B.B2.rows = d * ms.length ∧ B.B2.cols = d * d * n ∧
      ∀ x y : Nat → ℝ, ∑ a ∈ range (d * ms.length), (B.B1.mulVec y a + B.B2.mulVec x a) ^ 2 =
        transCost d ms (unvecR d x) (unvecT d y) := by
  obtain ⟨B, hB⟩ := bmats_total hwf hn
  obtain ⟨⟨r1, c1⟩, ⟨r2, c2⟩, -⟩ := bmats_ok hB
  have h := bmats_transCost hB
  simp only [measDim_eq hwf, maxPoseIndex_eq hn] at r1 c1 r2 c2
  rw [measDim_eq hwf, r1] at h
  exact ⟨B, hB, r1, c1, r2, c2, h⟩

/-- `B3` encodes the rotation residuals: for every estimate. -/
theorem C29_rotation {ms : List (Meas ℝ)} (hwf : ChordalWF d ms) (hn : NumPoses ms n) :
    ∃ B, constructBMatrices ms = ok B ∧ B.B3.rows = d * d * ms.length ∧ B.B3.cols = d * d * n ∧
      ∀ x : Nat → ℝ, ∑ a ∈ range (d * d * ms.length), (B.B3.mulVec x a) ^ 2 =
        rotCost d ms (unvecR d x) := by
  obtain ⟨B, hB⟩ := bmats_total hwf hn
  obtain ⟨-, -, ⟨r3, c3⟩, -⟩ := bmats_ok hB
  have h := bmats_rotCost hB
  simp only [measDim_eq hwf, maxPoseIndex_eq hn] at r3 c3
  rw [measDim_eq hwf, r3] at h
  exact ⟨B, hB, r3, c3, h⟩

/-- The robust weights play no role. -/
theorem C29_weights (ms : List (Meas ℝ)) (w : Meas ℝ → ℝ) :
    constructBMatrices (ms.map fun m => { m with weight := w m }) = constructBMatrices ms := by
  have h1 : maxPoseIndex (ms.map fun m => { m with weight := w m }) = maxPoseIndex ms := by
    unfold maxPoseIndex
    rw [List.foldl_map]
  have h2 : measDim (ms.map fun m => { m with weight := w m }) = measDim ms := by
    cases ms <;> rfl
  have h3 : ∀ f : Nat → Meas ℝ → List (Nat × Nat × ℝ), (∀ e m, f e { m with weight := w m } = f e m) →
      ((ms.map fun m => { m with weight := w m }).zipIdx.flatMap fun p => f p.2 p.1) =
        ms.zipIdx.flatMap fun p => f p.2 p.1 := by
    intro f hf
    rw [List.zipIdx_map, List.flatMap_map]
    congr 1
    funext p
    exact hf _ _
  rw [bmats_unfold, bmats_unfold, h1, h2]
  unfold bMatricesOf
  rw [List.all_map, List.length_map, h3 (b1Entries (measDim ms)) (fun _ _ => rfl),
    h3 (b2Entries (measDim ms)) (fun _ _ => rfl), h3 (b3Entries (measDim ms)) (fun _ _ => rfl)]
  simp only [List.mem_map, exists_exists_and_eq_and]
  rfl

/-- Translation recovery: anchored at the origin and optimal for the given rotations. -/
theorem C30_recover {qr : LsqOracle} (hq : LawfulLsq qr) {ms : List (Meas ℝ)} (hd : 0 < d)
    (hwf : ChordalWF d ms) (hn : NumPoses ms n) {R : DMat ℝ} (hR : R.rows = d ∧ R.cols = d * n) :
    ∃ B t, constructBMatrices ms = ok B ∧ recoverTranslations qr B.B1 B.B2 R = ok t ∧
      t.rows = d ∧ t.cols = n ∧ (∀ a, t.v a 0 = 0) ∧
      ∀ t' : Nat → Fin d → ℝ, t' 0 = 0 →
        transCost d ms (fun i => (R.block 0 (i * d) d d).toMat d d) (fun i a => t.v a i) ≤
        transCost d ms (fun i => (R.block 0 (i * d) d d).toMat d d) t' := by
  obtain ⟨B, hB⟩ := bmats_total hwf hn
  obtain ⟨t, h⟩ := recover_spec hq hd (measDim_eq hwf) hn hB hR
  exact ⟨B, t, hB, h⟩

/-- Chordal initialisation always succeeds on well-formed measurements and returns rigid poses, the first
one being the identity, with translations that are optimal for the rotations returned. -/
theorem C64_valid {svd : SvdOracle} {qr : LsqOracle} (hs : LawfulSvd svd) (hq : LawfulLsq qr)
    {ms : List (Meas ℝ)} (hd : d = 2 ∨ d = 3) (hwf : ChordalWF d ms) (hn : NumPoses ms n) :
    ∃ T, chordalInitialization svd qr ms = ok T ∧ ArrOk d d n T ∧
      rotM d d T 0 = 1 ∧ traV d d T 0 = 0 ∧ (∀ i < n, IsRot (rotM d d T i)) ∧
      ∀ t', t' 0 = 0 → transCost d ms (rotM d d T) (traV d d T) ≤ transCost d ms (rotM d d T) t' := by
  obtain ⟨T, Rc, e, hT, -, -, hT0, hTp, ht0, htopt⟩ := chordal_spec svd hq hd hwf hn
  refine ⟨T, e, hT, hT0, ht0, fun i hi => ?_, htopt⟩
  rcases Nat.eq_zero_or_pos i with rfl | h0
  · rw [hT0]
    exact ⟨by simp, by simp⟩
  · rw [hTp i h0 hi]
    exact (rotProj_spec (hs d d (Rc i) le_rfl)).1

/-- Noise-free measurements of a connected graph: the true trajectory is recovered exactly, expressed in
the frame of the first pose. -/
theorem C64_exact {svd : SvdOracle} {qr : LsqOracle} (hs : LawfulSvd svd) (hq : LawfulLsq qr)
    {ms : List (Meas ℝ)} (hd : d = 2 ∨ d = 3) (hwf : ChordalWF d ms) (hn : NumPoses ms n)
    (hkt : ∀ m ∈ ms, 0 < m.kappa ∧ 0 < m.tau) (hlink : ∀ i < n, Linked ms i)
    (Rs : Nat → Matrix (Fin d) (Fin d) ℝ) (ts : Nat → Fin d → ℝ) (hrot : ∀ i < n, IsRot (Rs i))
    (hR : ∀ m ∈ ms, Rs m.p2 = Rs m.p1 * m.R.toMat d d)
    (ht : ∀ m ∈ ms, ts m.p2 = ts m.p1 + Rs m.p1 *ᵥ colV d m.t) :
    ∃ T, chordalInitialization svd qr ms = ok T ∧ ArrOk d d n T ∧
      ∀ i < n, rotM d d T i = (Rs 0)ᵀ * Rs i ∧ traV d d T i = (Rs 0)ᵀ *ᵥ (ts i - ts 0) :=
  chordal_exact hs hq hd hwf hn hkt hlink Rs ts hrot hR ht

/-! ## A square of four quarter turns -/

/-- Edge of a unit square: quarter turn after moving ahead by one. -/
noncomputable def exSq (p1 p2 : Nat) : Meas ℝ :=
  ⟨0, 0, p1, p2, ⟨2, 2, fun i j => if i = 1 ∧ j = 0 then 1 else if i = 0 ∧ j = 1 then -1 else 0⟩,
    ⟨2, 1, fun i _ => if i = 0 then 1 else 0⟩, 10, 1 / 2, false, 1⟩

/-- The four sides. -/
noncomputable def exSquare : List (Meas ℝ) := [exSq 0 1, exSq 1 2, exSq 2 3, exSq 3 0]

/-- True rotations and translations of the corners. -/
noncomputable def exSqR (i : Nat) : Matrix (Fin 2) (Fin 2) ℝ := (!![0, -1; 1, 0]) ^ i

/-- True corners. -/
noncomputable def exSqT (i : Nat) : Fin 2 → ℝ :=
  if i = 0 then ![0, 0] else if i = 1 then ![1, 0] else if i = 2 then ![1, 1] else ![0, 1]

theorem exSquare_mem {m : Meas ℝ} (h : m ∈ exSquare) :
    m = exSq 0 1 ∨ m = exSq 1 2 ∨ m = exSq 2 3 ∨ m = exSq 3 0 := by simpa [exSquare] using h

theorem exSquare_wf : ChordalWF 2 exSquare := by
  refine ⟨by simp [exSquare], fun m hm => ?_⟩
  rcases exSquare_mem hm with rfl | rfl | rfl | rfl <;>
    exact ⟨⟨rfl, rfl, rfl, rfl⟩, by norm_num [exSq], by norm_num [exSq], by norm_num [exSq],
      by norm_num [exSq]⟩

theorem exSquare_n : NumPoses exSquare 4 := by
  refine ⟨fun m hm => ?_, exSq 2 3, by simp [exSquare], Or.inr rfl⟩
  rcases exSquare_mem hm with rfl | rfl | rfl | rfl <;> simp [exSq]

theorem exSq_mat (a b : Nat) : (exSq a b).R.toMat 2 2 = !![0, -1; 1, 0] := by
  ext i j; fin_cases i <;> fin_cases j <;> simp [exSq, DMat.toMat]

theorem exSq_vec (a b : Nat) : colV 2 (exSq a b).t = ![1, 0] := by
  ext i; fin_cases i <;> simp [exSq, colV]

theorem exSquare_linked : ∀ i < 4, Linked exSquare i := by
  have h1 : Linked exSquare 1 := Linked.fwd (m := exSq 0 1) (by simp [exSquare]) .zero
  have h2 : Linked exSquare 2 := Linked.fwd (m := exSq 1 2) (by simp [exSquare]) h1
  have h3 : Linked exSquare 3 := Linked.bwd (m := exSq 3 0) (by simp [exSquare]) .zero
  intro i hi
  interval_cases i
  · exact .zero
  · exact h1
  · exact h2
  · exact h3

/-- Non-vacuity of `C64_exact` (and with it of `C64_valid`, `C30_recover`, `C29_*`): the square is
recovered. -/
example : ∃ svd qr T, chordalInitialization svd qr exSquare = ok T ∧
    traV 2 2 T 1 = ![1, 0] ∧ traV 2 2 T 2 = ![1, 1] ∧ traV 2 2 T 3 = ![0, 1] ∧
    rotM 2 2 T 2 = !![-1, 0; 0, -1] := by
  obtain ⟨svd, hs⟩ := exists_lawfulSvd
  obtain ⟨qr, hq⟩ := exists_lawfulLsq
  have e2 : exSqR 2 = !![-1, 0; 0, -1] := by
    unfold exSqR
    rw [pow_two]
    simp
  have e3 : exSqR 3 = !![0, 1; -1, 0] := by
    change (!![0, -1; 1, 0] : Matrix (Fin 2) (Fin 2) ℝ) ^ (2 + 1) = _
    rw [pow_succ]
    change exSqR 2 * _ = _
    rw [e2]
    simp
  have e1 : exSqR 1 = !![0, -1; 1, 0] := pow_one _
  have e0 : exSqR 0 = 1 := pow_zero _
  obtain ⟨T, h1, -, h2⟩ := C64_exact hs hq (Or.inl rfl) exSquare_wf exSquare_n
    (fun m hm => by rcases exSquare_mem hm with rfl | rfl | rfl | rfl <;> norm_num [exSq])
    exSquare_linked exSqR exSqT
    (fun i hi => by
      have hJ : ((!![0, -1; 1, 0] : Matrix (Fin 2) (Fin 2) ℝ))ᵀ * !![0, -1; 1, 0] = 1 := by
        ext i j; fin_cases i <;> fin_cases j <;> simp [Matrix.mul_apply, Fin.sum_univ_two]
      refine ⟨?_, ?_⟩
      · interval_cases i
        · rw [e0]; simp
        · rw [e1]; exact hJ
        · rw [e2]; ext i j; fin_cases i <;> fin_cases j <;> simp [Matrix.mul_apply, Fin.sum_univ_two]
        · rw [e3]; ext i j; fin_cases i <;> fin_cases j <;> simp [Matrix.mul_apply, Fin.sum_univ_two]
      · unfold exSqR
        rw [Matrix.det_pow]
        simp [Matrix.det_fin_two])
    (fun m hm => by
      rcases exSquare_mem hm with rfl | rfl | rfl | rfl <;> rw [exSq_mat]
      · exact pow_succ _ 0
      · exact pow_succ _ 1
      · exact pow_succ _ 2
      · change exSqR 0 = exSqR 3 * _
        rw [e0, e3]
        ext i j; fin_cases i <;> fin_cases j <;> simp [Matrix.mul_apply, Fin.sum_univ_two])
    (fun m hm => by
      rcases exSquare_mem hm with rfl | rfl | rfl | rfl <;> rw [exSq_vec]
      · change exSqT 1 = exSqT 0 + exSqR 0 *ᵥ _
        rw [e0]; ext i; fin_cases i <;> simp [exSqT]
      · change exSqT 2 = exSqT 1 + exSqR 1 *ᵥ _
        rw [e1]; ext i; fin_cases i <;> simp [exSqT]
      · change exSqT 3 = exSqT 2 + exSqR 2 *ᵥ _
        rw [e2]; ext i; fin_cases i <;> simp [exSqT]
      · change exSqT 0 = exSqT 3 + exSqR 3 *ᵥ _
        rw [e3]; ext i; fin_cases i <;> simp [exSqT])
  refine ⟨svd, qr, T, h1, ?_, ?_, ?_, ?_⟩
  · rw [(h2 1 (by norm_num)).2, e0]; ext i; fin_cases i <;> simp [exSqT]
  · rw [(h2 2 (by norm_num)).2, e0]; ext i; fin_cases i <;> simp [exSqT]
  · rw [(h2 3 (by norm_num)).2, e0]; ext i; fin_cases i <;> simp [exSqT]
  · rw [(h2 2 (by norm_num)).1, e0, e2]; simp

example : ∃ B, constructBMatrices exSquare = ok B ∧ B.B3.cols = 16 := by
  obtain ⟨B, h, -, hc, -⟩ := C29_rotation exSquare_wf exSquare_n
  exact ⟨B, h, hc⟩

end Dpgo.Props
