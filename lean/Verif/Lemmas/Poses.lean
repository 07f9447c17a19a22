import Verif.Spec.Poses
import Mathlib.Algebra.BigOperators.Fin
import Mathlib.Tactic.Ring
import Mathlib.Tactic.Linarith

/-! # Lemmas on pose arrays -/

namespace Dpgo

open Res Spec Matrix

section Arith

theorem blk_inj {d i j a b : Nat} (ha : a < d + 1) (hb : b < d + 1)
    (h : i * (d + 1) + a = j * (d + 1) + b) : i = j ∧ a = b := by
  have h1 : (i * (d + 1) + a) / (d + 1) = i := by
    rw [Nat.add_comm, Nat.add_mul_div_right _ _ (Nat.succ_pos d), Nat.div_eq_of_lt ha, Nat.zero_add]
  have h2 : (j * (d + 1) + b) / (d + 1) = j := by
    rw [Nat.add_comm, Nat.add_mul_div_right _ _ (Nat.succ_pos d), Nat.div_eq_of_lt hb, Nat.zero_add]
  have : i = j := by rw [← h1, h, h2]
  subst this
  exact ⟨rfl, by omega⟩

/-- Column `j*(d+1)+c` lies in the block starting at `i*(d+1)+o` of width `w` iff `j = i` and
`o ≤ c < o + w`. -/
theorem blk_mem {d i j c o w : Nat} (hc : c < d + 1) (how : o + w ≤ d + 1) :
    (i * (d + 1) + o ≤ j * (d + 1) + c ∧ j * (d + 1) + c < i * (d + 1) + o + w) ↔
      j = i ∧ o ≤ c ∧ c < o + w := by
  constructor
  · rintro ⟨h1, h2⟩
    have e : j * (d + 1) + c = i * (d + 1) + (j * (d + 1) + c - i * (d + 1)) := by omega
    have hb : j * (d + 1) + c - i * (d + 1) < d + 1 := by omega
    obtain ⟨rfl, e2⟩ := blk_inj hc hb e
    refine ⟨rfl, ?_, ?_⟩ <;> omega
  · rintro ⟨rfl, h1, h2⟩
    constructor <;> omega

theorem blk_le {d i n : Nat} (hi : i < n) : i * (d + 1) + (d + 1) ≤ (d + 1) * n := by
  have : i + 1 ≤ n := hi
  calc i * (d + 1) + (d + 1) = (d + 1) * (i + 1) := by ring
    _ ≤ (d + 1) * n := Nat.mul_le_mul_left _ this

end Arith

namespace PArr

section
variable {K : Type} [Field K]

variable {r d n : Nat} {P : PArr K}

omit [Field K] in
theorem inRange_ok (h : ArrOk r d n P) {i : Nat} (hi : i < n) :
    P.X.inRange 0 (i * (P.d + 1)) P.r (P.d + 1) = true := by
  obtain ⟨h1, h2, h3, h4, h5⟩ := h
  unfold DMat.inRange
  rw [h1, h2, h4, h5]
  have := blk_le (d := d) hi
  simp [this]

omit [Field K] in
theorem poseAt_ok (h : ArrOk r d n P) {i : Nat} (hi : i < n) :
    P.poseAt i = ok (P.X.block 0 (i * (d + 1)) r (d + 1)) := by
  unfold poseAt
  rw [inRange_ok h hi, h.1, h.2.1, h.2.2.1]
  simp [hi]

omit [Field K] in
theorem rotationAt_ok (h : ArrOk r d n P) {i : Nat} (hi : i < n) :
    P.rotationAt i = ok ((P.X.block 0 (i * (d + 1)) r (d + 1)).block 0 0 r d) := by
  unfold rotationAt
  rw [inRange_ok h hi, h.1, h.2.1, h.2.2.1]
  simp [hi]

omit [Field K] in
theorem translationAt_ok (h : ArrOk r d n P) {i : Nat} (hi : i < n) :
    P.translationAt i = ok ((P.X.block 0 (i * (d + 1)) r (d + 1)).block 0 d r 1) := by
  unfold translationAt
  rw [inRange_ok h hi, h.1, h.2.1, h.2.2.1]
  simp [hi]

omit [Field K] in
theorem rotationAt_val (P : PArr K) (i : Nat) :
    ((P.X.block 0 (i * (d + 1)) r (d + 1)).block 0 0 r d).toMat r d = rotM r d P i := by
  ext a c
  simp [DMat.block, rotM]

omit [Field K] in
theorem translationAt_val (P : PArr K) (i : Nat) :
    colV r ((P.X.block 0 (i * (d + 1)) r (d + 1)).block 0 d r 1) = traV r d P i := by
  ext a
  simp [DMat.block, traV, colV]

omit [Field K] in
theorem setRotation_ok (h : ArrOk r d n P) {i : Nat} (hi : i < n) {B : DMat K}
    (hB : B.rows = r ∧ B.cols = d) :
    P.setRotation i B = ok { P with X := P.X.setBlock 0 (i * (d + 1)) B } := by
  unfold setRotation
  rw [inRange_ok h hi, h.1, h.2.1, h.2.2.1, hB.1, hB.2]
  simp [hi]

omit [Field K] in
theorem setTranslation_ok (h : ArrOk r d n P) {i : Nat} (hi : i < n) {B : DMat K}
    (hB : B.rows = r ∧ B.cols = 1) :
    P.setTranslation i B = ok { P with X := P.X.setBlock 0 (i * (d + 1) + d) B } := by
  unfold setTranslation
  rw [inRange_ok h hi, h.1, h.2.1, h.2.2.1, hB.1, hB.2]
  simp [hi]

omit [Field K] in
theorem setPose_ok (h : ArrOk r d n P) {i : Nat} (hi : i < n) {B : DMat K}
    (hB : B.rows = r ∧ B.cols = d + 1) :
    P.setPose i B = ok { P with X := P.X.setBlock 0 (i * (d + 1)) B } := by
  unfold setPose
  rw [inRange_ok h hi, h.1, h.2.1, h.2.2.1, hB.1, hB.2]
  simp [hi]

omit [Field K] in
theorem arrOk_setBlock (h : ArrOk r d n P) (a b : Nat) (B : DMat K) :
    ArrOk r d n { P with X := P.X.setBlock a b B } := h

omit [Field K] in
/-- Effect of a block write on the entries of all poses. -/
theorem setBlock_entry (X B : DMat K) (i o : Nat) (hr : B.rows = r) (how : o + B.cols ≤ d + 1)
    (j c a : Nat) (hc : c < d + 1) (ha : a < r) :
    (X.setBlock 0 (i * (d + 1) + o) B).v a (j * (d + 1) + c) =
      if j = i ∧ o ≤ c ∧ c < o + B.cols then B.v a (c - o) else X.v a (j * (d + 1) + c) := by
  unfold DMat.setBlock
  simp only
  have hm := blk_mem (i := i) (j := j) hc how
  by_cases h : j = i ∧ o ≤ c ∧ c < o + B.cols
  · rw [if_pos h, if_pos ⟨Nat.zero_le _, by omega, (hm.2 h).1, (hm.2 h).2⟩]
    obtain ⟨rfl, h1, h2⟩ := h
    congr 1
    omega
  · rw [if_neg h, if_neg]
    rintro ⟨-, -, h1, h2⟩
    exact h (hm.1 ⟨h1, h2⟩)

omit [Field K] in
theorem rotM_setRotation (P : PArr K) (i j : Nat) {B : DMat K} (hB : B.rows = r ∧ B.cols = d) :
    rotM r d { P with X := P.X.setBlock 0 (i * (d + 1)) B } j =
      if j = i then B.toMat r d else rotM r d P j := by
  ext a c
  have := setBlock_entry (d := d) P.X B i 0 hB.1 (by omega) j c a (by omega) a.2
  simp only [Nat.add_zero] at this
  simp only [rotM, Matrix.of_apply, this, hB.2]
  by_cases h : j = i
  · simp [h]
  · simp [h]

omit [Field K] in
theorem traV_setRotation (P : PArr K) (i j : Nat) {B : DMat K} (hB : B.rows = r ∧ B.cols = d) :
    traV r d { P with X := P.X.setBlock 0 (i * (d + 1)) B } j = traV r d P j := by
  ext a
  have := setBlock_entry (d := d) P.X B i 0 hB.1 (by omega) j d a (by omega) a.2
  simp only [Nat.add_zero] at this
  simp only [traV, this, hB.2]
  rw [if_neg (by omega)]

omit [Field K] in
theorem rotM_setTranslation (P : PArr K) (i j : Nat) {B : DMat K} (hB : B.rows = r ∧ B.cols = 1) :
    rotM r d { P with X := P.X.setBlock 0 (i * (d + 1) + d) B } j = rotM r d P j := by
  ext a c
  have := setBlock_entry (d := d) P.X B i d hB.1 (by omega) j c a (by omega) a.2
  simp only [rotM, Matrix.of_apply, this, hB.2]
  rw [if_neg (by omega)]

omit [Field K] in
theorem traV_setTranslation (P : PArr K) (i j : Nat) {B : DMat K} (hB : B.rows = r ∧ B.cols = 1) :
    traV r d { P with X := P.X.setBlock 0 (i * (d + 1) + d) B } j =
      if j = i then colV r B else traV r d P j := by
  ext a
  have := setBlock_entry (d := d) P.X B i d hB.1 (by omega) j d a (by omega) a.2
  simp only [traV, this, hB.2]
  by_cases h : j = i
  · simp [h, colV]
  · simp [h, traV]

omit [Field K] in
theorem rotM_setPose (P : PArr K) (i j : Nat) {B : DMat K} (hB : B.rows = r ∧ B.cols = d + 1) :
    rotM r d { P with X := P.X.setBlock 0 (i * (d + 1)) B } j =
      if j = i then B.toMat r d else rotM r d P j := by
  ext a c
  have := setBlock_entry (d := d) P.X B i 0 hB.1 (by omega) j c a (by omega) a.2
  simp only [Nat.add_zero] at this
  simp only [rotM, Matrix.of_apply, this, hB.2]
  by_cases h : j = i
  · have hc := c.2
    rw [if_pos ⟨h, Nat.zero_le _, by omega⟩]
    simp [h]
  · simp [h]

omit [Field K] in
theorem traV_setPose (P : PArr K) (i j : Nat) {B : DMat K} (hB : B.rows = r ∧ B.cols = d + 1) :
    traV r d { P with X := P.X.setBlock 0 (i * (d + 1)) B } j =
      if j = i then (fun a : Fin r => B.v a d) else traV r d P j := by
  ext a
  have := setBlock_entry (d := d) P.X B i 0 hB.1 (by omega) j d a (by omega) a.2
  simp only [Nat.add_zero] at this
  simp only [traV, this, hB.2]
  by_cases h : j = i
  · rw [if_pos ⟨h, Nat.zero_le _, by omega⟩]
    simp [h]
  · simp [h, traV]

/-- The constructor. -/
theorem make_ok (hrd : d ≤ r) : ∃ P : PArr K, make r d n = ok P ∧ ArrOk r d n P ∧
    ∀ j < n, (∀ a c, a < r → c < d → P.X.v a (j * (d + 1) + c) = if a = c then 1 else 0) ∧
      (∀ a, a < r → P.X.v a (j * (d + 1) + d) = 0) := by
  unfold make
  have hin : (DMat.zero r d : DMat K).inRange 0 0 d d = true := by
    unfold DMat.inRange DMat.zero; simp [hrd]
  simp only [hin, require_true, ok_bind]
  set Y := (DMat.zero r d : DMat K).setBlock 0 0 (DMat.one d d) with hY
  have hYs : Y.rows = r ∧ Y.cols = d := ⟨rfl, rfl⟩
  have hYv : ∀ a c, a < r → c < d → Y.v a c = if a = c then 1 else 0 := by
    intro a c ha hc
    simp only [hY, DMat.setBlock, DMat.one, DMat.zero, Nat.zero_le, Nat.zero_add, true_and,
      Nat.sub_zero]
    by_cases h : a < d
    · rw [if_pos ⟨h, hc⟩]
    · rw [if_neg (fun c => h c.1), if_neg (by omega)]
  suffices H : ∀ (k : Nat) (P : PArr K), k ≤ n → ArrOk r d n P →
      ∃ P', Res.foldl (makeStep r Y) P (List.range k) = ok P' ∧ ArrOk r d n P' ∧
        ∀ j, (j < k → (∀ a c, a < r → c < d → P'.X.v a (j * (d + 1) + c) = if a = c then 1 else 0) ∧
          (∀ a, a < r → P'.X.v a (j * (d + 1) + d) = 0)) by
    obtain ⟨P', h1, h2, h3⟩ := H n ⟨r, d, n, DMat.zero r ((d + 1) * n)⟩ (le_refl _)
      ⟨rfl, rfl, rfl, rfl, rfl⟩
    exact ⟨P', h1, h2, fun j hj => h3 j hj⟩
  intro k
  induction k with
  | zero => intro P _ h; exact ⟨P, rfl, h, fun j hj => absurd hj (by omega)⟩
  | succ k ih =>
    intro P hk h
    obtain ⟨P1, e1, o1, v1⟩ := ih P (by omega) h
    rw [List.range_succ, foldl_append, e1]
    have hkn : k < n := by omega
    have o2 := arrOk_setBlock o1 0 (k * (d + 1)) Y
    have hZ : (DMat.zero r 1 : DMat K).rows = r ∧ (DMat.zero r 1 : DMat K).cols = 1 := ⟨rfl, rfl⟩
    have e2 : makeStep r Y P1 k = ok { P1 with X :=
        (P1.X.setBlock 0 (k * (d + 1)) Y).setBlock 0 (k * (d + 1) + d) (DMat.zero r 1) } := by
      unfold makeStep
      rw [setRotation_ok o1 hkn hYs, ok_bind, setTranslation_ok o2 hkn hZ]
    refine ⟨{ P1 with X :=
        (P1.X.setBlock 0 (k * (d + 1)) Y).setBlock 0 (k * (d + 1) + d) (DMat.zero r 1) }, ?_, o1, ?_⟩
    · change Res.foldl (makeStep r Y) P1 [k] = _
      rw [foldl_cons, e2]
      rfl
    intro j hj
    have s1 := fun c a (hc : c < d + 1) (ha : a < r) =>
      setBlock_entry (d := d) (P1.X.setBlock 0 (k * (d + 1)) Y) (DMat.zero r 1) k d hZ.1
        (by simp [DMat.zero]) j c a hc ha
    have s2 := fun c a (hc : c < d + 1) (ha : a < r) =>
      setBlock_entry (d := d) P1.X Y k 0 hYs.1 (by rw [hYs.2]; omega) j c a hc ha
    simp only [Nat.add_zero, Nat.zero_le, true_and, Nat.zero_add, Nat.sub_zero, hYs.2] at s2
    simp only [hZ.2] at s1
    by_cases c : j = k
    · subst c
      refine ⟨fun a c ha hc => ?_, fun a ha => ?_⟩
      · simp only
        rw [s1 c a (by omega) ha, if_neg (by omega), s2 c a (by omega) ha, if_pos ⟨rfl, hc⟩, hYv a c ha hc]
      · simp only
        rw [s1 d a (by omega) ha, if_pos (by omega)]
        rfl
    · obtain ⟨w1, w2⟩ := v1 j (by omega)
      refine ⟨fun a c ha hc => ?_, fun a ha => ?_⟩
      · simp only
        rw [s1 c a (by omega) ha, if_neg (by omega), s2 c a (by omega) ha, if_neg (by omega), w1 a c ha hc]
      · simp only
        rw [s1 d a (by omega) ha, if_neg (by omega), s2 d a (by omega) ha, if_neg (by omega), w2 a ha]

omit [Field K] in
theorem setData_ok {P : PArr K} {X : DMat K} (h : ArrOk r d n P) (hX : X.rows = r ∧ X.cols = (d + 1) * n) :
    P.setData X = ok { P with X := X } := by
  unfold setData
  rw [h.1, h.2.1, h.2.2.1, hX.1, hX.2]
  simp

theorem ofMatrix_ok {T : DMat K} (h : T.rows = d ∧ T.cols = d + 1) :
    ofMatrix T = ok ⟨d, d, 1, T⟩ := by
  unfold ofMatrix
  obtain ⟨P, e, o, -⟩ := make_ok (K := K) (n := 1) (le_refl d)
  rw [h.1, e, ok_bind, o.2.1, h.2]
  simp only [beq_self_eq_true, check_true, ok_bind]
  rw [setData_ok o ⟨h.1, by rw [h.2]; ring⟩]
  obtain ⟨a, b, c, -⟩ := o
  rw [a, b, c]

theorem ofLifted_ok {X : DMat K} (h : X.rows = r ∧ X.cols = d + 1) (hrd : d ≤ r) :
    ofLifted X = ok ⟨r, d, 1, X⟩ := by
  unfold ofLifted
  obtain ⟨P, e, o, -⟩ := make_ok (K := K) (n := 1) hrd
  rw [h.1, h.2]
  simp only [Nat.le_add_left, decide_true, require_true, ok_bind, Nat.add_sub_cancel, e]
  rw [setData_ok o ⟨h.1, by rw [h.2]; ring⟩]
  obtain ⟨a, b, c, -⟩ := o
  rw [a, b, c]

/-! ### Homogeneous matrices -/

theorem homog_mul (R S : Matrix (Fin d) (Fin d) K) (t s : Fin d → K) :
    homog R t * homog S s = homog (R * S) (R *ᵥ s + t) := by
  ext i j
  rw [Matrix.mul_apply, Fin.sum_univ_castSucc]
  refine Fin.lastCases ?_ (fun i => ?_) i <;> refine Fin.lastCases ?_ (fun j => ?_) j
  · simp [homog]
  · simp [homog]
  · simp [homog, Matrix.mulVec, dotProduct]
  · simp [homog, Matrix.mul_apply]

theorem homog_one : homog (1 : Matrix (Fin d) (Fin d) K) 0 = 1 := by
  ext i j
  refine Fin.lastCases ?_ (fun i => ?_) i <;> refine Fin.lastCases ?_ (fun j => ?_) j
  · simp [homog]
  · have := j.2
    simp [homog, Matrix.one_apply, Fin.ext_iff]
    omega
  · have := i.2
    simp [homog, Matrix.one_apply, Fin.ext_iff]
    omega
  · simp [homog, Matrix.one_apply, Fin.ext_iff]

theorem homog_inj {R S : Matrix (Fin d) (Fin d) K} {t s : Fin d → K} (h : homog R t = homog S s) :
    R = S ∧ t = s := by
  constructor
  · ext i j
    have := congrFun (congrFun h i.castSucc) j.castSucc
    simpa [homog] using this
  · ext i
    have := congrFun (congrFun h i.castSucc) (Fin.last d)
    simpa [homog] using this

theorem matrix_ok (h : ArrOk d d 1 P) : ∃ M, P.matrix = ok M ∧ M.rows = d + 1 ∧ M.cols = d + 1 ∧
    M.toMat (d + 1) (d + 1) = homog (rotM d d P 0) (traV d d P 0) := by
  unfold matrix
  rw [rotationAt_ok h zero_lt_one, translationAt_ok h zero_lt_one, h.2.1]
  simp only [ok_bind, DMat.block, beq_self_eq_true, Bool.and_self, require_true]
  refine ⟨_, rfl, rfl, rfl, ?_⟩
  ext i j
  refine Fin.lastCases ?_ (fun i => ?_) i <;> refine Fin.lastCases ?_ (fun j => ?_) j
  · simp [DMat.setBlock, DMat.one, homog]
  · have := j.2
    simp [DMat.setBlock, DMat.one, homog]
    omega
  · simp [DMat.setBlock, DMat.one, homog, traV]
  · have := j.2
    simp [DMat.setBlock, DMat.one, homog, rotM]

/-- A pose made from the top rows of a homogeneous matrix. -/
theorem ofMatrix_homog {M : DMat K} {R : Matrix (Fin d) (Fin d) K} {t : Fin d → K}
    (hM : M.toMat (d + 1) (d + 1) = homog R t) :
    ∃ C, ofMatrix (M.block 0 0 d (d + 1)) = ok C ∧ ArrOk d d 1 C ∧ rotM d d C 0 = R ∧
      traV d d C 0 = t := by
  refine ⟨_, ofMatrix_ok ⟨rfl, rfl⟩, ⟨rfl, rfl, rfl, rfl, by simp [DMat.block]⟩, ?_, ?_⟩
  · ext i j
    have := congrFun (congrFun hM i.castSucc) j.castSucc
    simpa [homog, rotM, DMat.block] using this
  · ext i
    have := congrFun (congrFun hM i.castSucc) (Fin.last d)
    simpa [homog, traV, DMat.block] using this

end

end PArr
end Dpgo
