import Verif.Lemmas.ProjModel

/-! # `LiftedSEManifold::project`: sequential orders and parallel executions -/

namespace Dpgo

open Res Spec Matrix

variable {svd : SvdOracle} {r d n : Nat}

/-- Orthonormal factor the oracle gives for a matrix. -/
def stieProj (svd : SvdOracle) {r d : Nat} (M : Matrix (Fin r) (Fin d) ℝ) :
    Matrix (Fin r) (Fin d) ℝ := (svd r d M).U * (svd r d M).Vᵀ

/-- Rotation block `i` of raw data. -/
def blkM (r d : Nat) (X : DMat ℝ) (i : Nat) : Matrix (Fin r) (Fin d) ℝ :=
  Matrix.of fun a c => X.v a (i * (d + 1) + c)

theorem block_toMat (X : DMat ℝ) (i : Nat) :
    (X.block 0 (i * (d + 1)) r d).toMat r d = blkM r d X i := by
  ext a c
  simp [DMat.block, blkM]

theorem blk_inRange {X : DMat ℝ} (hX : X.rows = r ∧ X.cols = (d + 1) * n) {i : Nat} (hi : i < n) :
    X.inRange 0 (i * (d + 1)) r d = true := by
  unfold DMat.inRange
  have := blk_le (d := d) hi
  simp only [hX.1, hX.2, Nat.zero_add, le_refl, decide_true, Bool.true_and, decide_eq_true_eq]
  omega

theorem projectBlock_ok (hrd : d ≤ r) {X : DMat ℝ} (hX : X.rows = r ∧ X.cols = (d + 1) * n) {i : Nat}
    (hi : i < n) : projectBlock svd r d X i =
      ok (X.setBlock 0 (i * (d + 1)) (DMat.ofMat (stieProj svd (blkM r d X i)))) := by
  unfold projectBlock
  rw [blk_inRange hX hi, stiefel_ok (r := r) (d := d) ⟨rfl, rfl⟩ hrd, block_toMat]
  simp only [require_true, ok_bind, DMat.ofMat, beq_self_eq_true, Bool.and_self]
  rfl

/-- Any order without repetition: the visited blocks are projected, everything else is kept. -/
theorem project_loop (hrd : d ≤ r) (l : List Nat) (hl : l.Nodup) (hln : ∀ i ∈ l, i < n) :
    ∀ X : DMat ℝ, X.rows = r ∧ X.cols = (d + 1) * n →
      ∃ Y, Res.foldl (projectBlock svd r d) X l = ok Y ∧ (Y.rows = r ∧ Y.cols = (d + 1) * n) ∧
        (∀ j, blkM r d Y j = if j ∈ l then stieProj svd (blkM r d X j) else blkM r d X j) ∧
        (∀ j a, a < r → Y.v a (j * (d + 1) + d) = X.v a (j * (d + 1) + d)) := by
  induction l with
  | nil =>
    intro X hX
    exact ⟨X, rfl, hX, fun j => by simp, fun _ _ _ => rfl⟩
  | cons i l ih =>
    intro X hX
    rw [foldl_cons, projectBlock_ok hrd hX (hln i (by simp)), ok_bind']
    set B := DMat.ofMat (stieProj svd (blkM r d X i))
    have hB : B.rows = r ∧ B.cols = d := ⟨rfl, rfl⟩
    obtain ⟨Y, e, s, h1, h2⟩ := ih (List.nodup_cons.1 hl).2 (fun j hj => hln j (by simp [hj]))
      (X.setBlock 0 (i * (d + 1)) B) hX
    have hblk : ∀ j, blkM r d (X.setBlock 0 (i * (d + 1)) B) j =
        if j = i then stieProj svd (blkM r d X i) else blkM r d X j := by
      intro j
      have := PArr.rotM_setRotation (r := r) (d := d) (⟨r, d, n, X⟩ : PArr ℝ) i j hB
      rw [DMat.toMat_ofMat] at this
      exact this
    refine ⟨Y, e, s, fun j => ?_, fun j a ha => ?_⟩
    · rw [h1, hblk]
      by_cases c : j = i
      · subst c
        simp [(List.nodup_cons.1 hl).1]
      · simp [c]
    · rw [h2 j a ha]
      exact congrFun (PArr.traV_setRotation (r := r) (d := d) (⟨r, d, n, X⟩ : PArr ℝ) i j hB) ⟨a, ha⟩

/-- Invariant of a parallel execution after the events `pre`. -/
def ExecInv (svd : SvdOracle) (r d n : Nat) (M : DMat ℝ) (pre : List ProjEvent) (s : ProjState) :
    Prop :=
  (s.X.rows = r ∧ s.X.cols = (d + 1) * n) ∧
  (∀ i a c, i < n → (a : Nat) < r → c < d →
    (ProjEvent.store i a c ∈ pre → ∀ (ha : a < r) (hc : c < d), s.X.v a (i * (d + 1) + c) =
      stieProj svd (blkM r d M i) ⟨a, ha⟩ ⟨c, hc⟩) ∧
    (ProjEvent.store i a c ∉ pre → s.X.v a (i * (d + 1) + c) = M.v a (i * (d + 1) + c))) ∧
  (∀ i a, i < n → a < r → s.X.v a (i * (d + 1) + d) = M.v a (i * (d + 1) + d)) ∧
  (∀ i < n, ProjEvent.load i ∈ pre → s.tmp i = some (DMat.ofMat (stieProj svd (blkM r d M i))))

theorem exec_step (hrd : d ≤ r) {M : DMat ℝ} {ev : List ProjEvent} (hev : IsExecution r d n ev)
    {pre : List ProjEvent} {e : ProjEvent} {post : List ProjEvent} (hsplit : ev = pre ++ e :: post)
    {s : ProjState} (h : ExecInv svd r d n M pre s) :
    ∃ s', projEvent svd r d s e = ok s' ∧ ExecInv svd r d n M (pre ++ [e]) s' := by
  obtain ⟨hX, hst, htr, hld⟩ := h
  obtain ⟨hnd, hmem, hord⟩ := hev
  cases e with
  | load i =>
    have hi : i < n := (hmem (.load i)).1 (by rw [hsplit]; simp)
    have hno : ∀ a c, ProjEvent.store i a c ∉ pre := by
      intro a c hin
      obtain ⟨p1, p2, rfl⟩ := List.append_of_mem hin
      have := hord p1 i a c (p2 ++ .load i :: post) (by rw [hsplit]; simp)
      obtain ⟨q1, q2, rfl⟩ := List.append_of_mem this
      rw [hsplit] at hnd
      have := List.nodup_append.1 hnd
      exact this.2.2 (.load i) (by simp) (.load i) (by simp) rfl
    have hblk : blkM r d s.X i = blkM r d M i := by
      ext a c
      exact (hst i a c hi a.2 c.2).2 (hno a c)
    refine ⟨{ s with
      tmp := fun j => if j = i then some (DMat.ofMat (stieProj svd (blkM r d M i))) else s.tmp j }, ?_, hX, ?_, htr, ?_⟩
    · simp only [projEvent]
      rw [blk_inRange hX hi, stiefel_ok (r := r) (d := d) ⟨rfl, rfl⟩ hrd, block_toMat, hblk]
      rfl
    · intro j a c hj ha hc
      have := hst j a c hj ha hc
      simpa using this
    · intro j hj hin
      by_cases c : j = i
      · simp [c]
      · have : ProjEvent.load j ∈ pre := by simpa [c] using hin
        simp [c, hld j hj this]
  | store i a c =>
    obtain ⟨hi, ha, hc⟩ := (hmem (.store i a c)).1 (by rw [hsplit]; simp)
    have hl := hld i hi (hord pre i a c post hsplit)
    refine ⟨{ s with X := ⟨s.X.rows, s.X.cols, fun x y =>
        if x = a ∧ y = i * (d + 1) + c then
          (DMat.ofMat (stieProj svd (blkM r d M i))).v a c else s.X.v x y⟩ }, ?_, hX, ?_, ?_, ?_⟩
    · simp only [projEvent, hl]
    · intro j a' c' hj ha' hc'
      by_cases e : j = i ∧ a' = a ∧ c' = c
      · obtain ⟨rfl, rfl, rfl⟩ := e
        refine ⟨fun _ _ _ => ?_, fun hn => absurd (by simp) hn⟩
        simp [DMat.ofMat, ha, hc]
      · have hne : ¬ (a' = a ∧ j * (d + 1) + c' = i * (d + 1) + c) := by
          rintro ⟨h1, h2⟩
          obtain ⟨h3, h4⟩ := blk_inj (by omega) (by omega) h2
          exact e ⟨h3, h1, h4⟩
        have hne' : ProjEvent.store j a' c' ≠ .store i a c := by
          intro h
          injection h with h1 h2 h3
          exact e ⟨h1, h2, h3⟩
        have := hst j a' c' hj ha' hc'
        simp only [if_neg hne]
        simpa [hne'] using this
    · intro j a' hj ha'
      have hne : ¬ (a' = a ∧ j * (d + 1) + d = i * (d + 1) + c) := by
        rintro ⟨-, h2⟩
        obtain ⟨-, h4⟩ := blk_inj (by omega) (by omega) h2
        omega
      simp only [if_neg hne]
      exact htr j a' hj ha'
    · intro j hj hin
      exact hld j hj (by simpa using hin)

theorem exec_all (hrd : d ≤ r) {M : DMat ℝ} {ev : List ProjEvent} (hev : IsExecution r d n ev) :
    ∀ (post pre : List ProjEvent) (s : ProjState), ev = pre ++ post → ExecInv svd r d n M pre s →
      ∃ s', Res.foldl (projEvent svd r d) s post = ok s' ∧ ExecInv svd r d n M ev s' := by
  intro post
  induction post with
  | nil =>
    intro pre s e h
    rw [List.append_nil] at e
    subst e
    exact ⟨s, rfl, h⟩
  | cons x post ih =>
    intro pre s e h
    obtain ⟨s', e', h'⟩ := exec_step hrd hev e h
    obtain ⟨s2, e2, h2⟩ := ih (pre ++ [x]) s' (by rw [e]; simp) h'
    exact ⟨s2, by rw [foldl_cons, e', ok_bind', e2], h2⟩

end Dpgo
