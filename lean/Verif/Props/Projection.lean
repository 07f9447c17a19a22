import Verif.Lemmas.LiftedProject
import Verif.Lemmas.Svd

/-!
# Projections: C20, C21

`SvdAt svd M` says that the oracle returns a singular value decomposition of `M`; such a decomposition
exists for every tall matrix (`C20_svd_exists`), so the hypothesis can always be met.
-/

namespace Dpgo.Props

open Res Spec Matrix

/-- The hypothesis on the SVD routine used below can be satisfied. -/
theorem C20_svd_exists : ∃ svd, LawfulSvd svd := exists_lawfulSvd

/-- **C20.** The result has orthonormal columns and is nearest to the input. -/
theorem C20_nearest (svd : SvdOracle) (r d : Nat) (hrd : d ≤ r) (M : DMat ℝ)
    (hM : M.rows = r ∧ M.cols = d) (h : SvdAt svd (M.toMat r d)) :
    ∃ P, projectToStiefelManifold svd M = ok P ∧ (P.rows = r ∧ P.cols = d) ∧
      OrthoCols (P.toMat r d) ∧ ∀ Q : Matrix (Fin r) (Fin d) ℝ, OrthoCols Q →
        frob2 (P.toMat r d - M.toMat r d) ≤ frob2 (Q - M.toMat r d) := by
  refine ⟨_, stiefel_ok hM hrd, ⟨rfl, rfl⟩, ?_, fun Q hQ => ?_⟩
  · rw [DMat.toMat_ofMat]
    exact h.orthoU.mul h.orthoV.transpose
  · rw [DMat.toMat_ofMat]
    refine nearest_of_inner (h.orthoU.mul h.orthoV.transpose) hQ ?_
    rw [h.inner_proj]
    exact h.inner_le hQ

/-- **C20.** For full column rank the nearest point is unique: whatever decompositions two SVD
routines return, the projection is the same, and no other orthonormal matrix is as near. -/
theorem C20_unique (svd svd' : SvdOracle) (r d : Nat) (hrd : d ≤ r) (M : DMat ℝ)
    (hM : M.rows = r ∧ M.cols = d) (h : SvdAt svd (M.toMat r d)) (h' : SvdAt svd' (M.toMat r d))
    (hrank : ((M.toMat r d)ᵀ * M.toMat r d).det ≠ 0) :
    ∃ P P', projectToStiefelManifold svd M = ok P ∧ projectToStiefelManifold svd' M = ok P' ∧
      DMat.Same P P' ∧ ∀ Q : Matrix (Fin r) (Fin d) ℝ, OrthoCols Q →
        frob2 (Q - M.toMat r d) ≤ frob2 (P.toMat r d - M.toMat r d) → Q = P.toMat r d := by
  refine ⟨_, _, stiefel_ok hM hrd, stiefel_ok hM hrd, ?_, fun Q hQ hle => ?_⟩
  · rw [DMat.same_iff (m := r) (n := d) ⟨rfl, rfl⟩]
    refine ⟨rfl, rfl, ?_⟩
    rw [DMat.toMat_ofMat, DMat.toMat_ofMat]
    have hP : OrthoCols ((svd r d (M.toMat r d)).U * (svd r d (M.toMat r d)).Vᵀ) :=
      h.orthoU.mul h.orthoV.transpose
    refine h'.unique (h'.pos hrank) hP ?_
    refine nearest_of_inner hP (h'.orthoU.mul h'.orthoV.transpose) ?_
    rw [h.inner_proj]
    exact h.inner_le (h'.orthoU.mul h'.orthoV.transpose)
  · rw [DMat.toMat_ofMat] at hle ⊢
    exact h.unique (h.pos hrank) hQ hle

/-- **C20.** Matrices with orthonormal columns are fixed points. -/
theorem C20_fixed (svd : SvdOracle) (r d : Nat) (hrd : d ≤ r) (M : DMat ℝ)
    (hM : M.rows = r ∧ M.cols = d) (h : SvdAt svd (M.toMat r d)) (ho : OrthoCols (M.toMat r d)) :
    ∃ P, projectToStiefelManifold svd M = ok P ∧ DMat.Same P M := by
  refine ⟨_, stiefel_ok hM hrd, ?_⟩
  rw [DMat.same_iff (m := r) (n := d) ⟨rfl, rfl⟩]
  refine ⟨hM.1, hM.2, ?_⟩
  rw [DMat.toMat_ofMat]
  exact stieProj_scaled ho one_pos (by rw [one_smul]; exact h)

/-- **C20.** Wide matrices abort. -/
theorem C20_wide (svd : SvdOracle) (M : DMat ℝ) (h : M.rows < M.cols) :
    projectToStiefelManifold svd M = abort := by
  unfold projectToStiefelManifold
  rw [decide_eq_false (by omega)]
  rfl

/-- **C20.** `LiftedSEManifold::project`: whatever order the loop runs in, the result has every
rotation block orthonormal and nearest to the input block, and all translations unchanged. -/
theorem C20_project (svd : SvdOracle) (r d n : Nat) (hrd : d ≤ r) (M : DMat ℝ)
    (hM : M.rows = r ∧ M.cols = (d + 1) * n)
    (h : ∀ i < n, SvdAt svd (rotM r d ⟨r, d, n, M⟩ i)) (order : List Nat)
    (ho : order.Perm (List.range n)) :
    ∃ X, liftedProject svd r d n order M = ok X ∧ ArrOk r d n ⟨r, d, n, X⟩ ∧
      ∀ i < n, traV r d ⟨r, d, n, X⟩ i = traV r d ⟨r, d, n, M⟩ i ∧
        OrthoCols (rotM r d ⟨r, d, n, X⟩ i) ∧ ∀ Q : Matrix (Fin r) (Fin d) ℝ, OrthoCols Q →
          frob2 (rotM r d ⟨r, d, n, X⟩ i - rotM r d ⟨r, d, n, M⟩ i) ≤
            frob2 (Q - rotM r d ⟨r, d, n, M⟩ i) := by
  have hmem : ∀ i, i ∈ order ↔ i < n := fun i => by rw [ho.mem_iff, List.mem_range]
  obtain ⟨X, e, hX, h1, h2⟩ := project_loop (svd := svd) hrd order (ho.nodup_iff.2 List.nodup_range)
    (fun i hi => (hmem i).1 hi) M hM
  refine ⟨X, ?_, ⟨rfl, rfl, rfl, hX.1, hX.2⟩, fun i hi => ⟨?_, ?_⟩⟩
  · unfold liftedProject
    rw [hM.1, hM.2, e]
    simp
  · ext a
    exact h2 i a a.2
  · have hi' := h i hi
    have e1 : rotM r d ⟨r, d, n, X⟩ i = stieProj svd (rotM r d ⟨r, d, n, M⟩ i) := by
      have := h1 i
      rw [if_pos ((hmem i).2 hi)] at this
      exact this
    rw [e1]
    have hP : OrthoCols (stieProj svd (rotM r d ⟨r, d, n, M⟩ i)) :=
      hi'.orthoU.mul hi'.orthoV.transpose
    refine ⟨hP, fun Q hQ => nearest_of_inner hP hQ ?_⟩
    unfold stieProj
    rw [hi'.inner_proj]
    exact hi'.inner_le hQ

/-- **C20.** Two execution orders give the same result, for every oracle. -/
theorem C20_order (svd : SvdOracle) (r d n : Nat) (hrd : d ≤ r) (M : DMat ℝ)
    (hM : M.rows = r ∧ M.cols = (d + 1) * n) (o o' : List Nat) (ho : o.Perm (List.range n))
    (ho' : o'.Perm (List.range n)) :
    ∃ X X', liftedProject svd r d n o M = ok X ∧ liftedProject svd r d n o' M = ok X' ∧
      ∀ i < n, rotM r d ⟨r, d, n, X⟩ i = rotM r d ⟨r, d, n, X'⟩ i ∧
        traV r d ⟨r, d, n, X⟩ i = traV r d ⟨r, d, n, X'⟩ i := by
  have key : ∀ o : List Nat, o.Perm (List.range n) → ∃ X, liftedProject svd r d n o M = ok X ∧
      ∀ i < n, rotM r d ⟨r, d, n, X⟩ i = stieProj svd (rotM r d ⟨r, d, n, M⟩ i) ∧
        traV r d ⟨r, d, n, X⟩ i = traV r d ⟨r, d, n, M⟩ i := by
    intro o ho
    obtain ⟨X, e, hX, h1, h2⟩ := project_loop (svd := svd) hrd o (ho.nodup_iff.2 List.nodup_range)
      (fun i hi => by rw [ho.mem_iff, List.mem_range] at hi; exact hi) M hM
    refine ⟨X, ?_, fun i hi => ⟨?_, ?_⟩⟩
    · unfold liftedProject
      rw [hM.1, hM.2, e]
      simp
    · have := h1 i
      rw [if_pos (by rw [ho.mem_iff, List.mem_range]; exact hi)] at this
      exact this
    · ext a; exact h2 i a a.2
  obtain ⟨X, e, h⟩ := key o ho
  obtain ⟨X', e', h'⟩ := key o' ho'
  exact ⟨X, X', e, e', fun i hi => ⟨by rw [(h i hi).1, (h' i hi).1], by rw [(h i hi).2, (h' i hi).2]⟩⟩

/-- **C20.** Every parallel execution — loads and single-entry stores of all iterations interleaved
arbitrarily — gives the result of the sequential loop. -/
theorem C20_parallel (svd : SvdOracle) (r d n : Nat) (hrd : d ≤ r) (M : DMat ℝ)
    (hM : M.rows = r ∧ M.cols = (d + 1) * n) (ev : List ProjEvent) (hev : IsExecution r d n ev) :
    ∃ s X, Res.foldl (projEvent svd r d) ⟨M, fun _ => none⟩ ev = ok s ∧
      liftedProject svd r d n (List.range n) M = ok X ∧
      ∀ i < n, rotM r d ⟨r, d, n, s.X⟩ i = rotM r d ⟨r, d, n, X⟩ i ∧
        traV r d ⟨r, d, n, s.X⟩ i = traV r d ⟨r, d, n, X⟩ i := by
  obtain ⟨X, e, hX, h1, h2⟩ := project_loop (svd := svd) hrd (List.range n) List.nodup_range
    (fun i hi => List.mem_range.1 hi) M hM
  obtain ⟨s, es, -, hs1, hs2, -⟩ := exec_all (svd := svd) hrd (M := M) hev ev [] ⟨M, fun _ => none⟩ rfl
    ⟨hM, fun i a c _ _ _ => ⟨fun h => absurd h (by simp), fun _ => rfl⟩, fun _ _ _ _ => rfl,
      fun i _ h => absurd h (by simp)⟩
  refine ⟨s, X, es, ?_, fun i hi => ⟨?_, ?_⟩⟩
  · unfold liftedProject
    rw [hM.1, hM.2, e]
    simp
  · have := h1 i
    rw [if_pos (List.mem_range.2 hi)] at this
    change _ = blkM r d X i
    rw [this]
    ext a c
    exact (hs1 i a c hi a.2 c.2).1 ((hev.2.1 _).2 ⟨hi, a.2, c.2⟩) a.2 c.2
  · ext a
    exact (hs2 i a hi a.2).trans (h2 i a a.2).symm

/-- **C20.** Data of the wrong size aborts. -/
theorem C20_size (svd : SvdOracle) (r d n : Nat) (M : DMat ℝ)
    (hM : ¬ (M.rows = r ∧ M.cols = (d + 1) * n)) (o : List Nat) :
    liftedProject svd r d n o M = abort := by
  unfold liftedProject
  by_cases c : M.rows = r
  · have : (M.cols == (d + 1) * n) = false := beq_eq_false_iff_ne.2 fun e => hM ⟨c, e⟩
    rw [c, this]
    simp
  · have : (M.rows == r) = false := beq_eq_false_iff_ne.2 c
    rw [this]
    rfl

/-! ### C21 -/

/-- **C21.** The result is a rotation and no rotation is closer to the input. -/
theorem C21_nearest (svd : SvdOracle) (d : Nat) (M : DMat ℝ) (hM : M.rows = d ∧ M.cols = d)
    (h : SvdAt svd (M.toMat d d)) :
    ∃ P, projectToRotationGroup svd M = ok P ∧ (P.rows = d ∧ P.cols = d) ∧ IsRot (P.toMat d d) ∧
      ∀ Q : Matrix (Fin d) (Fin d) ℝ, IsRot Q →
        frob2 (P.toMat d d - M.toMat d d) ≤ frob2 (Q - M.toMat d d) := by
  obtain ⟨h1, h2⟩ := rotProj_spec h
  refine ⟨_, rotation_ok hM, ⟨rfl, rfl⟩, ?_, ?_⟩
  · rw [DMat.toMat_ofMat]; exact h1
  · rw [DMat.toMat_ofMat]; exact h2

/-- **C21.** Rotations, and all their positive multiples, are projected to the rotation. -/
theorem C21_fixed (svd : SvdOracle) (d : Nat) (M : DMat ℝ) (hM : M.rows = d ∧ M.cols = d)
    (h : SvdAt svd (M.toMat d d)) (c : ℝ) (hc : 0 < c) (R : Matrix (Fin d) (Fin d) ℝ) (hR : IsRot R)
    (e : M.toMat d d = c • R) :
    ∃ P, projectToRotationGroup svd M = ok P ∧ (P.rows = d ∧ P.cols = d) ∧ P.toMat d d = R := by
  refine ⟨_, rotation_ok hM, ⟨rfl, rfl⟩, ?_⟩
  rw [DMat.toMat_ofMat]
  refine rotProj_scaled hR hc ?_
  have h' : SvdAt svd (M.toMat d d) := h
  unfold SvdAt at h'
  rw [e] at h' ⊢
  exact h'

/-! ### Concrete cases -/

section Examples

/-- A reflection with scaling: its nearest rotation needs the sign flip of the last column. -/
def exRefl : Matrix (Fin 2) (Fin 2) ℝ := Matrix.diagonal ![3, -1]

/-- The oracle answering with `U = diag(1,-1)`, `s = (3,1)`, `V = 1` satisfies the hypothesis of C21 for
this matrix, and the determinants have different signs. -/
example : IsSvd exRefl (Matrix.diagonal ![1, -1]) ![3, 1] 1 ∧
    (Matrix.diagonal ![(1 : ℝ), -1]).det * (1 : Matrix (Fin 2) (Fin 2) ℝ).det < 0 := by
  refine ⟨⟨?_, ?_, ?_, ?_, ?_⟩, ?_⟩
  · unfold OrthoCols
    ext i j
    fin_cases i <;> fin_cases j <;> simp [Matrix.mul_apply, Matrix.diagonal]
  · unfold OrthoCols; simp
  · intro i; fin_cases i <;> simp
  · intro i j hij
    fin_cases i <;> fin_cases j <;> simp at hij ⊢
  · unfold exRefl
    ext i j
    fin_cases i <;> fin_cases j <;> simp [Matrix.mul_apply, Matrix.diagonal]
  · simp [Matrix.det_diagonal]

/-- An interleaved execution of two iterations with one stored entry each. -/
example : IsExecution 1 1 2 [.load 1, .load 0, .store 1 0 0, .store 0 0 0] := by
  refine ⟨by decide, ?_, ?_⟩
  · intro e
    cases e with
    | load i =>
      simp only [isEvent, List.mem_cons, ProjEvent.load.injEq, List.not_mem_nil, or_false,
        reduceCtorEq]
      omega
    | store i a c =>
      simp only [isEvent, List.mem_cons, ProjEvent.store.injEq, List.not_mem_nil, or_false,
        reduceCtorEq, false_or]
      omega
  · intro pre i a c post h
    match pre, h with
    | [], h => simp at h
    | [x], h => simp at h
    | [x, y], h => simp at h; obtain ⟨rfl, rfl, ⟨rfl, -, -⟩, -⟩ := h; simp
    | [x, y, z], h => simp at h; obtain ⟨rfl, rfl, rfl, ⟨rfl, -, -⟩, -⟩ := h; simp
    | x :: y :: z :: w :: t, h => simp at h

end Examples

end Dpgo.Props
