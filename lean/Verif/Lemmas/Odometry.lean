import Verif.Spec.Init
import Verif.Lemmas.Poses

/-! # Lemmas on odometry initialisation -/

namespace Dpgo

open Res Spec Matrix PArr

variable {K : Type} [Field K] {d n : Nat}

theorem odometryStep_ok {odo : List (Meas K)} {T : PArr K} (hT : ArrOk d d n T) {dst : Nat}
    {m : Meas K} (hm : odo[dst - 1]? = some m) (h1 : m.p1 = dst - 1) (h2 : m.p2 = dst)
    (hd : MeasDim d m) (hdst : dst < n) :
    ∃ T', odometryStep odo T dst = ok T' ∧ ArrOk d d n T' ∧
      (∀ j, rotM d d T' j = if j = dst then rotM d d T (dst - 1) * m.R.toMat d d
        else rotM d d T j) ∧
      (∀ j, traV d d T' j = if j = dst then traV d d T (dst - 1) +
        rotM d d T (dst - 1) *ᵥ colV d m.t else traV d d T j) := by
  obtain ⟨r1, r2, r3, r4⟩ := hd
  have hsrc : dst - 1 < n := by omega
  set R := (T.X.block 0 ((dst - 1) * (d + 1)) d (d + 1)).block 0 0 d d with hR
  set t := (T.X.block 0 ((dst - 1) * (d + 1)) d (d + 1)).block 0 d d 1 with ht
  have eR : R.toMat d d = rotM d d T (dst - 1) := rotationAt_val T _
  have et : colV d t = traV d d T (dst - 1) := translationAt_val T _
  have hRm : (R.mul m.R).rows = d ∧ (R.mul m.R).cols = d := ⟨rfl, r2⟩
  set T1 : PArr K := { T with X := T.X.setBlock 0 (dst * (d + 1)) (R.mul m.R) } with hT1
  have hT1ok : ArrOk d d n T1 := arrOk_setBlock hT _ _ _
  set b := t.add (R.mul m.t) with hb
  have hbs : b.rows = d ∧ b.cols = 1 := ⟨rfl, rfl⟩
  refine ⟨{ T1 with X := T1.X.setBlock 0 (dst * (d + 1) + d) b }, ?_, arrOk_setBlock hT1ok _ _ _,
    fun j => ?_, fun j => ?_⟩
  · simp only [odometryStep, hm]
    rw [h1, h2, rotationAt_ok hT hsrc, translationAt_ok hT hsrc]
    simp only [beq_self_eq_true, check_true, ok_bind, ← hR, ← ht]
    rw [show R.cols = d from rfl, r1, r3, r4]
    simp only [beq_self_eq_true, Bool.and_self, require_true, ok_bind]
    rw [setRotation_ok hT hdst hRm, ok_bind, setTranslation_ok hT1ok hdst hbs]
  · rw [rotM_setTranslation T1 dst j hbs, rotM_setRotation T dst j hRm]
    split
    · rw [DMat.toMat_mul (k := d) rfl, eR]
    · rfl
  · rw [traV_setTranslation T1 dst j hbs]
    split
    · ext a
      have e1 := congrFun et a
      simp only [colV] at e1
      simp only [hb, colV, DMat.add, Pi.add_apply, e1, DMat.mul, Matrix.mulVec, dotProduct]
      rw [show R.cols = d from rfl, Finset.sum_range, ← eR]
      rfl
    · exact traV_setRotation T dst j hRm

theorem odometryStep_inv {odo : List (Meas K)} {T T' : PArr K} (hT : ArrOk d d n T) {dst : Nat}
    (h : odometryStep odo T dst = ok T') :
    dst < n ∧ ∃ m, odo[dst - 1]? = some m ∧ m.p1 = dst - 1 ∧ m.p2 = dst ∧ MeasDim d m := by
  simp only [odometryStep] at h
  cases hm : odo[dst - 1]? with
  | none => rw [hm] at h; simp at h
  | some m =>
    rw [hm] at h
    simp only [bind_eq_ok, check_eq_ok, require_eq_ok, beq_iff_eq, Bool.and_eq_true] at h
    obtain ⟨_, h1, _, h2, R, hR, t, ht, _, ⟨h3, h4⟩, T1, hT1, _, h5, -⟩ := h
    have hs : dst - 1 < n := by
      unfold PArr.rotationAt at hR
      rw [bind_eq_ok] at hR
      obtain ⟨_, hc, -⟩ := hR
      rw [check_eq_ok, decide_eq_true_eq, hT.2.2.1] at hc
      exact hc
    rw [rotationAt_ok hT hs, ok.injEq] at hR
    have hRc : R.cols = d := by rw [← hR]; rfl
    unfold PArr.setRotation at hT1
    simp only [bind_eq_ok, check_eq_ok, require_eq_ok, Bool.and_eq_true, beq_iff_eq,
      decide_eq_true_eq] at hT1
    obtain ⟨_, hdst, _, -, _, ⟨-, hc⟩, -⟩ := hT1
    rw [hT.2.2.1] at hdst
    rw [hT.2.1] at hc
    exact ⟨hdst, m, rfl, h1, h2, h3.symm.trans hRc, hc, h4.symm.trans hRc, h5⟩

/-- What the chaining loop establishes. -/
theorem odometryLoop_inv {odo : List (Meas K)} : ∀ (k next : Nat) (T T' : PArr K),
    1 ≤ next → ArrOk d d n T →
    Res.foldl (odometryStep odo) T (List.range' next k) = ok T' →
    ArrOk d d n T' ∧
    (∀ j < next, rotM d d T' j = rotM d d T j ∧ traV d d T' j = traV d d T j) ∧
    ∀ j, next ≤ j → j < next + k → j < n ∧ ∃ m, odo[j - 1]? = some m ∧ m.p1 = j - 1 ∧ m.p2 = j ∧
      MeasDim d m ∧ Satisfied d T' (j - 1) j m
  | 0, next, T, T', _, hT, h => by
    simp at h
    subst h
    exact ⟨hT, fun j _ => ⟨rfl, rfl⟩, fun j h1 h2 => by omega⟩
  | k + 1, next, T, T', hn, hT, h => by
    rw [List.range'_succ, foldl_cons, bind_eq_ok'] at h
    obtain ⟨T1, hT1, h⟩ := h
    obtain ⟨hlt, m, hm, h1, h2, hd⟩ := odometryStep_inv hT hT1
    obtain ⟨T1', e, ok1, hr, ht⟩ := odometryStep_ok hT hm h1 h2 hd hlt
    rw [hT1, ok.injEq] at e
    subst e
    obtain ⟨okT', hpre, hch⟩ := odometryLoop_inv k (next + 1) T1 T' (by omega) ok1 h
    refine ⟨okT', fun j hj => ?_, fun j hj1 hj2 => ?_⟩
    · obtain ⟨a, b⟩ := hpre j (by omega)
      rw [a, b, hr, ht, if_neg (by omega), if_neg (by omega)]
      exact ⟨rfl, rfl⟩
    · rcases Nat.eq_or_lt_of_le hj1 with rfl | hj
      · refine ⟨hlt, m, hm, h1, h2, hd, ?_⟩
        obtain ⟨a, b⟩ := hpre next (by omega)
        obtain ⟨a', b'⟩ := hpre (next - 1) (by omega)
        unfold Satisfied
        rw [a, b, a', b', hr, ht, hr (next - 1), ht (next - 1), if_pos rfl, if_pos rfl,
          if_neg (by omega), if_neg (by omega)]
        exact ⟨rfl, rfl⟩
      · exact hch j hj (by omega)

theorem odometryLoop_total {odo : List (Meas K)} (hdim : ∀ m ∈ odo, MeasDim d m)
    (hcon : ∀ j, 1 ≤ j → j < n → ∃ m, odo[j - 1]? = some m ∧ m.p1 = j - 1 ∧ m.p2 = j) :
    ∀ (k next : Nat) (T : PArr K), 1 ≤ next → next + k ≤ n → ArrOk d d n T →
      ∃ T', Res.foldl (odometryStep odo) T (List.range' next k) = ok T'
  | 0, next, T, _, _, hT => ⟨T, rfl⟩
  | k + 1, next, T, hn, hk, hT => by
    obtain ⟨m, hm, h1, h2⟩ := hcon next hn (by omega)
    obtain ⟨T1, e, hT1, -⟩ := odometryStep_ok hT hm h1 h2 (hdim m (List.mem_of_getElem? hm))
      (by omega)
    obtain ⟨T', e'⟩ := odometryLoop_total hdim hcon k (next + 1) T1 (by omega) (by omega) hT1
    exact ⟨T', by rw [List.range'_succ, foldl_cons, e, ok_bind', e']⟩

omit [Field K] in
/-- The copy loop. -/
theorem copy_loop {P : PArr K} {nP : Nat} (hP : ArrOk d d nP P) : ∀ (k : Nat) (T : PArr K),
    k ≤ nP → k ≤ n → ArrOk d d n T →
    ∃ T', Res.foldl (copyPose P) T (List.range k) = ok T' ∧ ArrOk d d n T' ∧
      ∀ j, rotM d d T' j = (if j < k then rotM d d P j else rotM d d T j) ∧
        traV d d T' j = (if j < k then traV d d P j else traV d d T j)
  | 0, T, _, _, hT => ⟨T, rfl, hT, fun j => by simp⟩
  | k + 1, T, h1, h2, hT => by
    obtain ⟨T1, e, hT1, hv⟩ := copy_loop hP k T (by omega) (by omega) hT
    have hB : (P.X.block 0 (k * (d + 1)) d (d + 1)).rows = d ∧
      (P.X.block 0 (k * (d + 1)) d (d + 1)).cols = d + 1 := ⟨rfl, rfl⟩
    refine ⟨_, ?_, arrOk_setBlock hT1 0 (k * (d + 1)) (P.X.block 0 (k * (d + 1)) d (d + 1)),
      fun j => ?_⟩
    · rw [List.range_succ, foldl_append, e, ok_bind', foldl_cons, copyPose,
        poseAt_ok hP (by omega), ok_bind, setPose_ok hT1 (by omega) hB]
      rfl
    · rw [rotM_setPose T1 k j hB, traV_setPose T1 k j hB, (hv j).1, (hv j).2]
      by_cases hj : j = k
      · subst hj
        rw [if_pos rfl, if_pos rfl, if_pos (by omega), if_pos (by omega)]
        refine ⟨?_, ?_⟩
        · ext a c; simp [DMat.block, rotM]
        · ext a; simp [DMat.block, traV]
      · rw [if_neg hj, if_neg hj]
        by_cases hk : j < k
        · rw [if_pos hk, if_pos hk, if_pos (by omega), if_pos (by omega)]; exact ⟨rfl, rfl⟩
        · rw [if_neg hk, if_neg hk, if_neg (by omega), if_neg (by omega)]; exact ⟨rfl, rfl⟩

theorem start_none (hn : 0 < n) (P : Option (PArr K)) (hP : ∀ Q, P = some Q → Q.n = 0) :
    ∃ T : PArr K, odometryStart d n P = ok (T, 1) ∧ ArrOk d d n T ∧
      rotM d d T 0 = 1 ∧ traV d d T 0 = 0 := by
  obtain ⟨T, e, hT, -⟩ := make_ok (K := K) (n := n) (le_refl d)
  obtain ⟨I, e', hI, hv⟩ := make_ok (K := K) (n := 1) (le_refl d)
  have hB : I.X.rows = d ∧ I.X.cols = d + 1 := ⟨hI.2.2.2.1, by rw [hI.2.2.2.2]; ring⟩
  have hv0 := hv 0 zero_lt_one
  have key : (do
      let I ← PArr.identity d
      let T ← T.setPose 0 I.X
      ok (T, 1) : Res (PArr K × Nat)) =
      ok ({ T with X := T.X.setBlock 0 (0 * (d + 1)) I.X }, 1) := by
    unfold PArr.identity
    rw [e', ok_bind, setPose_ok hT hn hB, ok_bind]
  refine ⟨{ T with X := T.X.setBlock 0 (0 * (d + 1)) I.X }, ?_, arrOk_setBlock hT _ _ _, ?_, ?_⟩
  · unfold odometryStart
    rw [e, ok_bind]
    cases P with
    | none => exact key
    | some Q =>
      simp only
      rw [if_neg (by rw [hP Q rfl]; omega)]
      exact key
  · rw [rotM_setPose T 0 0 hB, if_pos rfl]
    ext a c
    have := hv0.1 a c a.2 c.2
    simp only [Nat.zero_mul, Nat.zero_add] at this
    simp [this, Matrix.one_apply, Fin.ext_iff]
  · rw [traV_setPose T 0 0 hB, if_pos rfl]
    ext a
    have := hv0.2 a a.2
    simp only [Nat.zero_mul, Nat.zero_add] at this
    simp [this]

theorem start_some {P : PArr K} {nP : Nat} (hP : ArrOk d d nP P) (h0 : 0 < nP) :
    ∃ T : PArr K, odometryStart d n (some P) = ok (T, min nP n) ∧ ArrOk d d n T ∧
      ∀ j < min nP n, rotM d d T j = rotM d d P j ∧ traV d d T j = traV d d P j := by
  obtain ⟨T, e, hT, -⟩ := make_ok (K := K) (n := n) (le_refl d)
  obtain ⟨T', e', hT', hv⟩ := copy_loop hP (min nP n) T (min_le_left _ _) (min_le_right _ _) hT
  refine ⟨T', ?_, hT', fun j hj => ?_⟩
  · unfold odometryStart
    rw [e, ok_bind]
    simp only
    rw [if_pos (by rw [hP.2.2.1]; exact h0), hP.2.1, hP.2.2.1, e']
    simp
  · obtain ⟨a, b⟩ := hv j
    rw [a, b, if_pos hj, if_pos hj]
    exact ⟨rfl, rfl⟩

omit [Field K] in
theorem foldl_numPoses (ms : List (Meas K)) : ∀ a : Nat,
    a ≤ ms.foldl (fun n m => max (max n (u64 (m.p1 + 1))) (u64 (m.p2 + 1))) a ∧
    (∀ m ∈ ms, u64 (m.p1 + 1) ≤ ms.foldl (fun n m => max (max n (u64 (m.p1 + 1))) (u64 (m.p2 + 1))) a ∧
      u64 (m.p2 + 1) ≤ ms.foldl (fun n m => max (max n (u64 (m.p1 + 1))) (u64 (m.p2 + 1))) a) ∧
    ∀ b, a ≤ b → (∀ m ∈ ms, u64 (m.p1 + 1) ≤ b ∧ u64 (m.p2 + 1) ≤ b) →
      ms.foldl (fun n m => max (max n (u64 (m.p1 + 1))) (u64 (m.p2 + 1))) a ≤ b := by
  induction ms with
  | nil => intro a; simp
  | cons m l ih =>
    intro a
    obtain ⟨h1, h2, h3⟩ := ih (max (max a (u64 (m.p1 + 1))) (u64 (m.p2 + 1)))
    simp only [List.foldl_cons]
    refine ⟨by omega, ?_, ?_⟩
    · intro x hx
      rcases List.mem_cons.1 hx with rfl | hx
      · exact ⟨by omega, by omega⟩
      · exact h2 x hx
    · intro b hb hall
      have := hall m (by simp)
      exact h3 b (by omega) fun x hx => hall x (by simp [hx])

omit [Field K] in
theorem getDim_inv {ms : List (Meas K)} {d n : Nat} (h : getDimensionAndNumPoses ms = ok (d, n)) :
    ms ≠ [] ∧ (d = 2 ∨ d = 3) ∧ (∀ m0, ms.head? = some m0 → d = m0.t.rows * m0.t.cols) ∧
    n = ms.foldl (fun n m => max (max n (u64 (m.p1 + 1))) (u64 (m.p2 + 1))) 0 := by
  cases ms with
  | nil => simp [getDimensionAndNumPoses] at h
  | cons m l =>
    simp only [getDimensionAndNumPoses, bind_eq_ok, check_eq_ok, ok.injEq, Prod.mk.injEq,
      Bool.or_eq_true, beq_iff_eq] at h
    obtain ⟨_, h1, h2, h3⟩ := h
    refine ⟨by simp, h2 ▸ h1, ?_, h3.symm⟩
    intro m0 h0
    simp only [List.head?_cons, Option.some.injEq] at h0
    rw [← h0]; exact h2.symm

omit [Field K] in
theorem getDim_ok {ms : List (Meas K)} (h0 : ms ≠ []) (hd : d = 2 ∨ d = 3)
    (hdim : ∀ m ∈ ms, MeasDim d m) : getDimensionAndNumPoses ms = ok (d,
      ms.foldl (fun n m => max (max n (u64 (m.p1 + 1))) (u64 (m.p2 + 1))) 0) := by
  cases ms with
  | nil => exact absurd rfl h0
  | cons m l =>
    have hm := hdim m (by simp)
    simp only [getDimensionAndNumPoses]
    rw [hm.2.2.1, hm.2.2.2, Nat.mul_one]
    rcases hd with rfl | rfl <;> rfl

omit [Field K] in
theorem consecutive_numPoses {ms : List (Meas K)} (h : Consecutive ms) (h0 : ms ≠ [])
    (hlen : ms.length + 1 < 2 ^ 64) :
    ms.foldl (fun n m => max (max n (u64 (m.p1 + 1))) (u64 (m.p2 + 1))) 0 = ms.length + 1 := by
  obtain ⟨-, h2, h3⟩ := foldl_numPoses ms 0
  have hpos := List.length_pos_iff.2 h0
  apply le_antisymm
  · refine h3 _ (by omega) fun m hm => ?_
    obtain ⟨i, hi, rfl⟩ := List.getElem_of_mem hm
    obtain ⟨a, b⟩ := h i ms[i] (by simp [hi])
    rw [a, b]
    unfold u64
    constructor <;> rw [Nat.mod_eq_of_lt (by omega)] <;> omega
  · have hl : ms.length - 1 < ms.length := by omega
    have := (h2 ms[ms.length - 1] (List.getElem_mem hl)).2
    rw [(h (ms.length - 1) ms[ms.length - 1] (by simp [hl])).2] at this
    have e : u64 (ms.length - 1 + 1 + 1) = ms.length + 1 := by
      unfold u64
      rw [Nat.mod_eq_of_lt (by omega)]
      omega
    rw [e] at this
    exact this

/-- With well-sized measurements a step of the chaining loop succeeds, aborts, or runs past the end of
the odometry list. -/
theorem odometryStep_cases {odo : List (Meas K)} {T : PArr K} (hT : ArrOk d d n T) {dst : Nat}
    (hdim : ∀ m ∈ odo, MeasDim d m) (hdst : dst < n) :
    (∃ T', odometryStep odo T dst = ok T' ∧ ArrOk d d n T' ∧
      ∃ m, odo[dst - 1]? = some m ∧ m.p1 = dst - 1 ∧ m.p2 = dst) ∨
    odometryStep odo T dst = abort ∨ odo[dst - 1]? = none := by
  cases hm : odo[dst - 1]? with
  | none => exact Or.inr (Or.inr rfl)
  | some m =>
    by_cases h1 : m.p1 = dst - 1
    · by_cases h2 : m.p2 = dst
      · obtain ⟨T', e, h, -⟩ := odometryStep_ok hT hm h1 h2 (hdim m (List.mem_of_getElem? hm)) hdst
        exact Or.inl ⟨T', e, h, m, rfl, h1, h2⟩
      · refine Or.inr (Or.inl ?_)
        simp only [odometryStep, hm, h1]
        rw [show (m.p2 == dst) = false from by simpa using h2, beq_self_eq_true]
        rfl
    · refine Or.inr (Or.inl ?_)
      simp only [odometryStep, hm]
      rw [show (m.p1 == dst - 1) = false from by simpa using h1]
      rfl

theorem odometryLoop_cases {odo : List (Meas K)} (hdim : ∀ m ∈ odo, MeasDim d m) :
    ∀ (k next : Nat) (T : PArr K), 1 ≤ next → next + k ≤ n → ArrOk d d n T →
      (∀ j, 1 ≤ j → j < next → ∃ m, odo[j - 1]? = some m ∧ m.p1 = j - 1 ∧ m.p2 = j) →
      (∃ T', Res.foldl (odometryStep odo) T (List.range' next k) = ok T') ∨
      Res.foldl (odometryStep odo) T (List.range' next k) = abort ∨
      ∃ e, 1 ≤ e ∧ e < next + k ∧ odo[e - 1]? = none ∧
        ∀ j, 1 ≤ j → j < e → ∃ m, odo[j - 1]? = some m ∧ m.p1 = j - 1 ∧ m.p2 = j
  | 0, next, T, _, _, hT, _ => Or.inl ⟨T, rfl⟩
  | k + 1, next, T, hn, hk, hT, hpre => by
    rw [List.range'_succ, foldl_cons]
    rcases odometryStep_cases hT hdim (show next < n by omega) with ⟨T1, e, hT1, hm⟩ | e | hnone
    · rw [e, ok_bind']
      have hpre' : ∀ j, 1 ≤ j → j < next + 1 → ∃ m, odo[j - 1]? = some m ∧ m.p1 = j - 1 ∧ m.p2 = j := by
        intro j h1 h2
        rcases Nat.lt_succ_iff_lt_or_eq.1 h2 with h | rfl
        · exact hpre j h1 h
        · exact hm
      rcases odometryLoop_cases hdim k (next + 1) T1 (by omega) (by omega) hT1 hpre' with h | h | h
      · exact Or.inl h
      · exact Or.inr (Or.inl h)
      · obtain ⟨e, h1, h2, h3⟩ := h
        exact Or.inr (Or.inr ⟨e, h1, by omega, h3⟩)
    · rw [e]; exact Or.inr (Or.inl rfl)
    · exact Or.inr (Or.inr ⟨next, hn, by omega, hnone, hpre⟩)

omit [Field K] in
/-- A list whose members up to its end are consecutive edges has no index beyond its length. -/
theorem no_gap {odo : List (Meas K)} {e : Nat} (he1 : 1 ≤ e) (hnone : odo[e - 1]? = none)
    (hpre : ∀ j, 1 ≤ j → j < e → ∃ m, odo[j - 1]? = some m ∧ m.p1 = j - 1 ∧ m.p2 = j)
    (h0 : odo ≠ []) :
    ¬ e < odo.foldl (fun n m => max (max n (u64 (m.p1 + 1))) (u64 (m.p2 + 1))) 0 := by
  intro hlt
  have hlen : odo.length ≤ e - 1 := by simpa using hnone
  have hpos := List.length_pos_iff.2 h0
  have : odo.foldl (fun n m => max (max n (u64 (m.p1 + 1))) (u64 (m.p2 + 1))) 0 ≤ e := by
    refine (foldl_numPoses odo 0).2.2 e (by omega) fun m hm => ?_
    obtain ⟨i, hi, rfl⟩ := List.getElem_of_mem hm
    obtain ⟨m', hm', a, b⟩ := hpre (i + 1) (by omega) (by omega)
    simp only [Nat.add_sub_cancel, List.getElem?_eq_getElem hi, Option.some.injEq] at hm'
    subst hm'
    rw [a, b]
    constructor
    · exact (Nat.mod_le _ _).trans (by omega)
    · exact (Nat.mod_le _ _).trans (by omega)
  omega

end Dpgo
