import Verif.Spec.Frames
import Verif.Lemmas.ProjModel
import Verif.Lemmas.AgentTotal

/-! # Values of the trajectory and pose queries -/

namespace Dpgo

open Res Spec PArr Matrix

noncomputable section

theorem toMat_square {r d : Nat} (M : DMat ℝ) : rotM r d ⟨r, d, 1, M⟩ 0 = M.toMat r d := by
  ext a c; simp [rotM, DMat.toMat]

/-- Rotation blocks of a product with a transposed matrix. -/
theorem rotM_tr_mul {r d : Nat} {A : DMat ℝ} {X : PArr ℝ} (hA : A.rows = r) (i : Nat) (T : PArr ℝ) :
    rotM d d { T with X := A.tr.mul X.X } i = (A.toMat r d)ᵀ * rotM r d X i := by
  ext x y
  simp only [rotM, DMat.mul, DMat.tr, hA, Matrix.of_apply, Matrix.mul_apply, DMat.toMat,
    Matrix.transpose_apply]
  exact Finset.sum_range fun k => A.v k x * X.X.v k (i * (d + 1) + y)

theorem traV_tr_mul {r d : Nat} {A : DMat ℝ} {X : PArr ℝ} (hA : A.rows = r) (i : Nat) (T : PArr ℝ) :
    traV d d { T with X := A.tr.mul X.X } i = (A.toMat r d)ᵀ *ᵥ traV r d X i := by
  ext x
  simp only [traV, DMat.mul, DMat.tr, hA, mulVec, dotProduct, DMat.toMat, Matrix.of_apply,
    Matrix.transpose_apply]
  exact Finset.sum_range fun k => A.v k x * X.X.v k (i * (d + 1) + d)

/-- One pass of either loop: round the rotation, subtract `t0` from the translation. -/
theorem frame_put {d n k : Nat} {svd : SvdOracle} {T : PArr ℝ} (hT : ArrOk d d n T) (hk : k < n) :
    ∃ R P T1 t, T.rotationAt k = ok R ∧ projectToRotationGroup svd R = ok P ∧
      T.setRotation k P = ok T1 ∧ ArrOk d d n T1 ∧ T1.translationAt k = ok t ∧
      t.rows = d ∧ t.cols = 1 ∧ colV d t = traV d d T k ∧
      (∀ j, rotM d d T1 j = if j = k then rotProj (svd d d (rotM d d T k)) else rotM d d T j) ∧
      (∀ j, traV d d T1 j = traV d d T j) ∧
      ∀ t0 : DMat ℝ, ∃ T2, T1.setTranslation k (t.sub t0) = ok T2 ∧ ArrOk d d n T2 ∧
        (∀ j, rotM d d T2 j = rotM d d T1 j) ∧
        ∀ j, traV d d T2 j = if j = k then traV d d T k - colV d t0 else traV d d T j := by
  have h1 := rotationAt_ok hT hk
  have h2 := rotation_ok (svd := svd)
    (M := (T.X.block 0 (k * (d + 1)) d (d + 1)).block 0 0 d d) (d := d) ⟨rfl, rfl⟩
  rw [rotationAt_val T k] at h2
  have h3 := setRotation_ok hT hk (B := DMat.ofMat (rotProj (svd d d (rotM d d T k)))) ⟨rfl, rfl⟩
  have hT1 := arrOk_setBlock hT 0 (k * (d + 1)) (DMat.ofMat (rotProj (svd d d (rotM d d T k))))
  refine ⟨_, _, _, _, h1, h2, h3, hT1, translationAt_ok hT1 hk, rfl, rfl, ?_, ?_, ?_, ?_⟩
  · rw [translationAt_val, traV_setRotation (r := d) (d := d) _ _ _ ⟨rfl, rfl⟩]
  · intro j
    rw [rotM_setRotation (r := d) (d := d) _ _ _ ⟨rfl, rfl⟩, DMat.toMat_ofMat]
  · intro j
    rw [traV_setRotation (r := d) (d := d) _ _ _ ⟨rfl, rfl⟩]
  · intro t0
    refine ⟨_, setTranslation_ok hT1 hk ⟨rfl, rfl⟩, arrOk_setBlock hT1 _ _ _, ?_, ?_⟩
    · intro j
      rw [rotM_setTranslation (r := d) (d := d) _ _ _ ⟨rfl, rfl⟩]
    · intro j
      rw [traV_setTranslation (r := d) (d := d) _ _ _ ⟨rfl, rfl⟩, traV_setRotation (r := d) (d := d) _ _ _ ⟨rfl, rfl⟩]
      by_cases hj : j = k
      · rw [if_pos hj, if_pos hj]
        ext x
        have := congrFun (traV_setRotation (r := d) (d := d) T k k
          (B := DMat.ofMat (rotProj (svd d d (rotM d d T k)))) ⟨rfl, rfl⟩) x
        rw [← translationAt_val] at this
        show _ - t0.v x 0 = _
        exact congrArg (· - t0.v x 0) this
      · rw [if_neg hj, if_neg hj]

/-- Rounding a rotation keeps it. -/
theorem rotProj_self {d : Nat} {svd : SvdOracle} (hsvd : LawfulSvd svd) {R : Matrix (Fin d) (Fin d) ℝ}
    (hR : IsRot R) : rotProj (svd d d R) = R := by
  have h := hsvd d d R (le_refl _)
  refine rotProj_scaled hR one_pos ?_
  rw [one_smul]
  exact h

theorem isRot_one {d : Nat} : IsRot (1 : Matrix (Fin d) (Fin d) ℝ) := ⟨by simp, by simp⟩

namespace Agent

/-- The loop of `getTrajectoryInGlobalFrame`. -/
theorem globalFrame_loop {o : AgentOracles} {d n : Nat} {T : PArr ℝ} {t0 : DMat ℝ}
    (hT : ArrOk d d n T) (ht : t0.rows = d) :
    ∃ T', Res.foldl (globalFrameStep o t0) T (List.range n) = ok T' ∧ ArrOk d d n T' ∧ ∀ i < n,
      rotM d d T' i = rotProj (o.svd d d (rotM d d T i)) ∧ traV d d T' i = traV d d T i - colV d t0 := by
  have loop := foldl_range_total (f := globalFrameStep o t0) (n := n) (b := T)
    (P := fun k S => ArrOk d d n S ∧ (∀ i < k, rotM d d S i = rotProj (o.svd d d (rotM d d T i)) ∧
      traV d d S i = traV d d T i - colV d t0) ∧
      ∀ i, k ≤ i → rotM d d S i = rotM d d T i ∧ traV d d S i = traV d d T i)
    ⟨hT, fun i hi => absurd hi (by omega), fun i _ => ⟨rfl, rfl⟩⟩ ?_
  · obtain ⟨S, l1, l2, l3, -⟩ := loop
    exact ⟨S, l1, l2, l3⟩
  · rintro k hk S ⟨hS, hv, hr⟩
    obtain ⟨R, P, T1, t, f1, f2, f3, f4, f5, f6, f7, f8, f9, f10, f11⟩ := frame_put (svd := o.svd) hS hk
    obtain ⟨T2, g1, g2, g3, g4⟩ := f11 t0
    refine ⟨T2, ?_, g2, ?_, ?_⟩
    · unfold globalFrameStep
      simp only [f1, ok_bind, f2, f3, f5, f6, ht, beq_self_eq_true, require_true, g1]
    · intro i hi
      rw [g3, f9, g4]
      by_cases hik : i = k
      · subst hik
        rw [if_pos rfl, if_pos rfl, (hr i (le_refl _)).1, (hr i (le_refl _)).2]
        exact ⟨rfl, rfl⟩
      · rw [if_neg hik, if_neg hik]
        exact hv i (by omega)
    · intro i hi
      rw [g3, f9, g4, if_neg (by omega), if_neg (by omega)]
      exact hr i (by omega)

/-- The loop of `getTrajectoryInLocalFrame`: only the first translation changes. -/
theorem localFrame_loop {o : AgentOracles} {d n : Nat} {T : PArr ℝ} (hT : ArrOk d d n T) :
    ∃ T', Res.foldl (localFrameStep o) T (List.range n) = ok T' ∧ ArrOk d d n T' ∧ ∀ i < n,
      rotM d d T' i = rotProj (o.svd d d (rotM d d T i)) ∧
      traV d d T' i = if i = 0 then 0 else traV d d T i := by
  have loop := foldl_range_total (f := localFrameStep o) (n := n) (b := T)
    (P := fun k S => ArrOk d d n S ∧ (∀ i < k, rotM d d S i = rotProj (o.svd d d (rotM d d T i)) ∧
      traV d d S i = if i = 0 then 0 else traV d d T i) ∧
      ∀ i, k ≤ i → rotM d d S i = rotM d d T i ∧ traV d d S i = traV d d T i)
    ⟨hT, fun i hi => absurd hi (by omega), fun i _ => ⟨rfl, rfl⟩⟩ ?_
  · obtain ⟨S, l1, l2, l3, -⟩ := loop
    exact ⟨S, l1, l2, l3⟩
  · rintro k hk S ⟨hS, hv, hr⟩
    obtain ⟨R, P, T1, t, f1, f2, f3, f4, f5, f6, f7, f8, f9, f10, f11⟩ := frame_put (svd := o.svd) hS hk
    have h0 : 0 < n := by omega
    have z := translationAt_ok f4 h0
    have zv := translationAt_val (r := d) (d := d) T1 0
    rw [f10] at zv
    obtain ⟨T2, g1, g2, g3, g4⟩ := f11 ((T1.X.block 0 (0 * (d + 1)) d (d + 1)).block 0 d d 1)
    rw [zv] at g4
    refine ⟨T2, ?_, g2, ?_, ?_⟩
    · unfold localFrameStep
      simp only [f1, ok_bind, f2, f3, f5, z, g1]
    · intro i hi
      rw [g3, f9, g4]
      by_cases hik : i = k
      · subst hik
        rw [if_pos rfl, if_pos rfl, (hr i (le_refl _)).1, (hr i (le_refl _)).2]
        refine ⟨rfl, ?_⟩
        by_cases h : i = 0
        · subst h
          rw [if_pos rfl, (hr 0 (le_refl _)).2, sub_self]
        · rw [if_neg h, (hv 0 (by omega)).2, if_pos rfl, sub_zero]
      · rw [if_neg hik, if_neg hik]
        exact hv i (by omega)
    · intro i hi
      rw [g3, f9, g4, if_neg (by omega), if_neg (by omega)]
      exact hr i (by omega)

variable {o : AgentOracles} {ID : Nat} {p : AgentParams} {a : Agent}

/-- Outcome of `getTrajectoryInLocalFrame`. -/
theorem localFrame_ok (h : AgInv ID p a) (hs : a.state = .INITIALIZED) :
    ∃ M, a.getTrajectoryInLocalFrame o = ok (some M) ∧ ArrOk p.d p.d a.graph.n (asPoses p.d a.graph.n M) ∧
      ∀ i < a.graph.n,
        rotM p.d p.d (asPoses p.d a.graph.n M) i =
          rotProj (o.svd p.d p.d (seenRot (rotM p.r p.d a.X 0) a.X i)) ∧
        traV p.d p.d (asPoses p.d a.graph.n M) i =
          if i = 0 then 0 else (rotM p.r p.d a.X 0)ᵀ *ᵥ traV p.r p.d a.X i := by
  obtain ⟨hn, -, hX⟩ := h.data (by rw [hs]; simp)
  obtain ⟨T, e1, hT, -⟩ := make_ok (K := ℝ) (r := p.d) (d := p.d) (n := a.graph.n) (le_refl _)
  have e2 := rotationAt_ok hX hn
  have hv := rotationAt_val (r := p.r) (d := p.d) a.X 0
  generalize hR : ((a.X.X.block 0 (0 * (p.d + 1)) p.r (p.d + 1)).block 0 0 p.r p.d) = R0 at e2 hv
  have hrow : R0.rows = p.r := by rw [← hR]; rfl
  have hcol : R0.cols = p.d := by rw [← hR]; rfl
  have e3 := setData_ok (X := R0.tr.mul a.X.X) hT ⟨hcol, hX.2.2.2.2⟩
  have hT1 : ArrOk p.d p.d a.graph.n { T with X := R0.tr.mul a.X.X } :=
    ⟨hT.1, hT.2.1, hT.2.2.1, hcol, hX.2.2.2.2⟩
  obtain ⟨T', e4, hT', hval⟩ := localFrame_loop (o := o) hT1
  refine ⟨T'.X, ?_, ⟨rfl, rfl, rfl, hT'.2.2.2⟩, fun i hi => ?_⟩
  · unfold getTrajectoryInLocalFrame numPoses
    rw [if_neg (by simp [hs]), h.d]
    simp only [e1, ok_bind, e2, hrow, hX.2.2.2.1, beq_self_eq_true, require_true, e3,
      translationAt_ok hT1 hn, e4]
  · obtain ⟨v1, v2⟩ := hval i hi
    rw [rotM_tr_mul hrow, hv] at v1
    rw [traV_tr_mul hrow, hv] at v2
    exact ⟨v1, v2⟩

/-- Outcome of `getTrajectoryInGlobalFrame`. -/
theorem globalFrame_ok (h : AgInv ID p a) (hs : a.state = .INITIALIZED) {Xa : PArr ℝ}
    (ha : a.globalAnchor = some Xa) :
    ∃ M, a.getTrajectoryInGlobalFrame o = ok (some M) ∧
      ArrOk p.d p.d a.graph.n (asPoses p.d a.graph.n M) ∧
      ∀ i < a.graph.n,
        rotM p.d p.d (asPoses p.d a.graph.n M) i =
          rotProj (o.svd p.d p.d (seenRot (rotM p.r p.d Xa 0) a.X i)) ∧
        traV p.d p.d (asPoses p.d a.graph.n M) i =
          seenTra (rotM p.r p.d Xa 0) (traV p.r p.d Xa 0) a.X i := by
  obtain ⟨hn, -, hX⟩ := h.data (by rw [hs]; simp)
  have hXa := h.anchor Xa ha
  obtain ⟨hi1, hr1, hd1, -⟩ := h.dims
  obtain ⟨T, e1, hT, -⟩ := make_ok (K := ℝ) (r := p.d) (d := p.d) (n := a.graph.n) (le_refl _)
  have e2 := rotationAt_ok hXa zero_lt_one
  have hv := rotationAt_val (r := p.r) (d := p.d) Xa 0
  generalize hR : ((Xa.X.block 0 (0 * (p.d + 1)) p.r (p.d + 1)).block 0 0 p.r p.d) = R0 at e2 hv
  have hrow : R0.rows = p.r := by rw [← hR]; rfl
  have hcol : R0.cols = p.d := by rw [← hR]; rfl
  have e2' := translationAt_ok hXa zero_lt_one
  have tv := translationAt_val (r := p.r) (d := p.d) Xa 0
  generalize hQ : ((Xa.X.block 0 (0 * (p.d + 1)) p.r (p.d + 1)).block 0 p.d p.r 1) = t0 at e2' tv
  have e3 := setData_ok (X := R0.tr.mul a.X.X) hT ⟨hcol, hX.2.2.2.2⟩
  have hT1 : ArrOk p.d p.d a.graph.n { T with X := R0.tr.mul a.X.X } :=
    ⟨hT.1, hT.2.1, hT.2.2.1, hcol, hX.2.2.2.2⟩
  obtain ⟨T', e4, hT', hval⟩ := globalFrame_loop (o := o) (t0 := R0.tr.mul t0) hT1 hcol
  refine ⟨T'.X, ?_, ⟨rfl, rfl, rfl, hT'.2.2.2⟩, fun i hi => ?_⟩
  · unfold getTrajectoryInGlobalFrame numPoses relaxationRank dimension
    rw [ha]
    simp only
    rw [if_neg (by simp [hs]), h.d, hr1, hd1, hXa.1, hXa.2.1]
    simp only [beq_self_eq_true, check_true, e1, ok_bind, e2, e2', hrow, hX.2.2.2.1, require_true, e3, e4]
  · obtain ⟨v1, v2⟩ := hval i hi
    rw [rotM_tr_mul hrow, hv] at v1
    rw [traV_tr_mul hrow, hv] at v2
    refine ⟨v1, v2.trans ?_⟩
    unfold seenTra
    rw [mulVec_sub]
    congr 1
    rw [← hv, ← tv]
    ext x
    simp only [colV, DMat.mul, DMat.tr, hrow, mulVec, dotProduct, DMat.toMat, Matrix.of_apply,
      Matrix.transpose_apply]
    exact Finset.sum_range fun k => R0.v k x * t0.v k 0

/-- A pose in the frame of the anchor. -/
theorem anchored_ok {r d : Nat} {Ya ta Xi : DMat ℝ} (hd : a.d = d) (hY : Ya.rows = r ∧ Ya.cols = d)
    (hX : Xi.rows = r ∧ Xi.cols = d + 1) :
    ∃ M, a.anchored Ya ta Xi = ok M ∧ M.rows = d ∧ M.cols = d + 1 ∧
      M.toMat d d = (Ya.toMat r d)ᵀ * Xi.toMat r d ∧
      (fun x : Fin d => M.v x d) = (Ya.toMat r d)ᵀ *ᵥ ((fun x : Fin r => Xi.v x d) - colV r ta) := by
  obtain ⟨h1, h2⟩ := hY
  obtain ⟨h3, h4⟩ := hX
  subst hd
  refine ⟨(Ya.tr.mul Xi).setBlock 0 a.d (((Ya.tr.mul Xi).block 0 a.d (Ya.tr.mul Xi).rows 1).sub
    (Ya.tr.mul ta)), ?_, h2, h4, ?_, ?_⟩
  · unfold anchored
    have e1 : (Ya.tr.mul Xi).rows = a.d := h2
    have e2 : (Ya.tr.mul Xi).cols = a.d + 1 := h4
    have e3 : (Ya.tr.mul ta).rows = a.d := h2
    simp [h1, h3, e1, e2, e3, DMat.setBlock]
  · ext x y
    have := x.2
    have := y.2
    simp only [DMat.toMat, Matrix.of_apply, Matrix.mul_apply, Matrix.transpose_apply, DMat.setBlock]
    rw [if_neg (by simp only [DMat.sub, DMat.block]; omega)]
    simp only [DMat.mul, DMat.tr, h1]
    exact Finset.sum_range fun k => Ya.v k x * Xi.v k y
  · ext x
    have := x.2
    rw [mulVec_sub]
    simp only [DMat.toMat, Matrix.of_apply, Matrix.transpose_apply, mulVec, dotProduct, Pi.sub_apply,
      colV, DMat.setBlock]
    rw [if_pos (by simp only [DMat.sub, DMat.block, DMat.mul, DMat.tr]; omega)]
    simp only [DMat.sub, DMat.block, Nat.sub_zero, Nat.zero_add, Nat.sub_self, Nat.add_zero, DMat.mul,
      DMat.tr, h1]
    rw [Finset.sum_range, Finset.sum_range]

/-- Outcome of `getPoseInGlobalFrame`. -/
theorem poseInGlobal_ok (h : AgInv ID p a) (hs : a.state = .INITIALIZED) {Xa : PArr ℝ}
    (ha : a.globalAnchor = some Xa) {i : Nat} (hi : i < a.graph.n) :
    ∃ M, a.getPoseInGlobalFrame i = ok (some M) ∧ ArrOk p.d p.d 1 (asPoses p.d 1 M) ∧
      rotM p.d p.d (asPoses p.d 1 M) 0 = seenRot (rotM p.r p.d Xa 0) a.X i ∧
      traV p.d p.d (asPoses p.d 1 M) 0 = seenTra (rotM p.r p.d Xa 0) (traV p.r p.d Xa 0) a.X i := by
  obtain ⟨hn, -, hX⟩ := h.data (by rw [hs]; simp)
  have hXa := h.anchor Xa ha
  obtain ⟨hi1, hr1, hd1, -⟩ := h.dims
  obtain ⟨M, e, m1, m2, m3, m4⟩ := anchored_ok (a := a) (r := p.r) (d := p.d)
    (Ya := (Xa.X.block 0 (0 * (p.d + 1)) p.r (p.d + 1)).block 0 0 p.r p.d)
    (ta := (Xa.X.block 0 (0 * (p.d + 1)) p.r (p.d + 1)).block 0 p.d p.r 1)
    (Xi := a.X.X.block 0 (i * (p.d + 1)) p.r (p.d + 1)) h.d ⟨rfl, rfl⟩ ⟨rfl, rfl⟩
  rw [rotationAt_val] at m3 m4
  rw [translationAt_val] at m4
  refine ⟨M, ?_, ⟨rfl, rfl, rfl, m1, by rw [mul_one]; exact m2⟩, ?_, ?_⟩
  · unfold getPoseInGlobalFrame numPoses relaxationRank dimension
    rw [ha]
    simp only
    rw [if_neg (by simp [hs]), if_neg (by omega), hr1, hd1, hXa.1, hXa.2.1, rotationAt_ok hXa zero_lt_one,
      translationAt_ok hXa zero_lt_one, poseAt_ok hX hi]
    simp only [beq_self_eq_true, check_true, ok_bind, e]
  · unfold asPoses
    rw [toMat_square, m3]
    unfold seenRot
    congr 1
    ext x y
    simp [DMat.block, rotM]
  · have : traV p.d p.d (asPoses p.d 1 M) 0 = fun x : Fin p.d => M.v x p.d := by
      ext x; simp [traV, asPoses]
    rw [this, m4]
    unfold seenTra
    congr 1
    ext x
    simp [DMat.block, traV]

/-- Outcome of `getNeighborPoseInGlobalFrame`. -/
theorem neighborInGlobal_ok (h : AgInv ID p a) (hs : a.state = .INITIALIZED) {Xa N : PArr ℝ}
    (ha : a.globalAnchor = some Xa) {nid i : Nat}
    (hN : OMap.find? ltPoseID (PoseID.make nid i) a.neighborPoses = some N) :
    ∃ M, a.getNeighborPoseInGlobalFrame nid i = ok (some M) ∧ ArrOk p.d p.d 1 (asPoses p.d 1 M) ∧
      rotM p.d p.d (asPoses p.d 1 M) 0 = seenRot (rotM p.r p.d Xa 0) N 0 ∧
      traV p.d p.d (asPoses p.d 1 M) 0 = seenTra (rotM p.r p.d Xa 0) (traV p.r p.d Xa 0) N 0 := by
  have hXa := h.anchor Xa ha
  obtain ⟨hi1, hr1, hd1, -⟩ := h.dims
  have hNo : ArrOk p.r p.d 1 N := (h.nbr.mem _ (OMap.mem_of_find? strictTotal_ltPoseID hN)).2
  obtain ⟨M, e, m1, m2, m3, m4⟩ := anchored_ok (a := a) (r := p.r) (d := p.d)
    (Ya := (Xa.X.block 0 (0 * (p.d + 1)) p.r (p.d + 1)).block 0 0 p.r p.d)
    (ta := (Xa.X.block 0 (0 * (p.d + 1)) p.r (p.d + 1)).block 0 p.d p.r 1)
    (Xi := N.X.block 0 (0 * (p.d + 1)) p.r (p.d + 1)) h.d ⟨rfl, rfl⟩ ⟨rfl, rfl⟩
  rw [rotationAt_val] at m3 m4
  rw [translationAt_val] at m4
  refine ⟨M, ?_, ⟨rfl, rfl, rfl, m1, by rw [mul_one]; exact m2⟩, ?_, ?_⟩
  · unfold getNeighborPoseInGlobalFrame relaxationRank dimension
    rw [ha]
    simp only
    rw [if_neg (by simp [hs]), hN]
    simp only
    rw [hr1, hd1, h.r, h.d, hXa.1, hXa.2.1, hNo.1, hNo.2.1, rotationAt_ok hXa zero_lt_one,
      translationAt_ok hXa zero_lt_one, poseAt_ok hNo zero_lt_one]
    simp only [beq_self_eq_true, check_true, ok_bind, e]
  · unfold asPoses
    rw [toMat_square, m3]
    unfold seenRot
    congr 1
    ext x y
    simp [DMat.block, rotM]
  · have : traV p.d p.d (asPoses p.d 1 M) 0 = fun x : Fin p.d => M.v x p.d := by
      ext x; simp [traV, asPoses]
    rw [this, m4]
    unfold seenTra
    congr 1
    ext x
    simp [DMat.block, traV]

/-- `setX` replaces the estimate and keeps everything the queries read. -/
theorem setX_ok (h : AgInv ID p a) (hs : a.state ≠ .WAIT_FOR_DATA) {M : DMat ℝ} (h1 : M.rows = p.r)
    (h2 : M.cols = (p.d + 1) * a.graph.n) :
    ∃ a', a.setX M = ok a' ∧ a'.state = .INITIALIZED ∧ a'.X = { a.X with X := M } ∧
      a'.graph = a.graph ∧ a'.globalAnchor = a.globalAnchor ∧ a'.neighborPoses = a.neighborPoses := by
  obtain ⟨-, hr1, hd1, -⟩ := h.dims
  obtain ⟨-, -, hX⟩ := h.data hs
  have e := setData_ok (X := M) hX ⟨h1, h2⟩
  refine ⟨resync { a with state := .INITIALIZED, X := { a.X with X := M } }, ?_, ?_⟩
  · unfold setX relaxationRank dimension numPoses
    have hc : (a.state != .WAIT_FOR_DATA) = true := by
      revert hs; cases a.state <;> simp
    rw [hr1, hd1, e, hc]
    simp [h1, h2, resetAcceleration_eq]
  · unfold resync
    split <;> exact ⟨rfl, rfl, rfl, rfl, rfl⟩

/-- `setGlobalAnchor` stores the pose it is given. -/
theorem setGlobalAnchor_ok (h : AgInv ID p a) {M : DMat ℝ} (h1 : M.rows = p.r) (h2 : M.cols = p.d + 1) :
    ∃ Xa, a.setGlobalAnchor M = ok { a with globalAnchor := some Xa } ∧ ArrOk p.r p.d 1 Xa ∧
      rotM p.r p.d Xa 0 = M.toMat p.r p.d ∧ traV p.r p.d Xa 0 = fun x : Fin p.r => M.v x p.d := by
  obtain ⟨-, hr1, hd1, hrd⟩ := h.dims
  obtain ⟨P, hP, hok, -⟩ := PArr.make_ok (K := ℝ) (n := 1) hrd
  refine ⟨_, ?_, PArr.arrOk_setBlock hok 0 (0 * (p.d + 1)) M, ?_, ?_⟩
  · unfold setGlobalAnchor relaxationRank dimension
    rw [hr1, hd1, h.r, h.d, hP]
    simp only [h1, h2, beq_self_eq_true, check_true, ok_bind, PArr.setPose_ok hok zero_lt_one ⟨h1, h2⟩]
  · rw [PArr.rotM_setPose P 0 0 ⟨h1, h2⟩, if_pos rfl]
  · rw [PArr.traV_setPose P 0 0 ⟨h1, h2⟩, if_pos rfl]

end Agent

end

end Dpgo
