import Verif.Spec.Suggest
import Verif.Model.OneStage
import Verif.Lemmas.AgentAlign

/-! # Alignment of frames from arbitrary measurements -/

namespace Dpgo

open Res Spec PArr Matrix

noncomputable section

namespace Agent

variable {o : AgentOracles} {ID : Nat} {p : AgentParams} {a : Agent}

/-- The transform computed from one shared measurement. -/
theorem transform_suggests (h : AgInv ID p a) (hst : a.state ≠ .WAIT_FOR_DATA) {Y : DMat ℝ}
    (hY : a.YLift = some Y) {T : PArr ℝ} (hT : a.TLocalInit = some T) (hreg : Regular p.d a.graph T)
    {m : Meas ℝ} (hm : m ∈ a.graph.sharedLcs) {N : PArr ℝ} (hN : ArrOk p.r p.d 1 N) :
    ∃ W, a.computeNeighborTransform m N = ok W ∧ ArrOk p.d p.d 1 W ∧
      Suggests ID (Y.toMat p.r p.d) T N m (rotM p.d p.d W 0) (traV p.d p.d W 0) := by
  obtain ⟨hid, hr1, hd1, -⟩ := h.dims
  obtain ⟨hY1, hY2⟩ := h.lift Y hY
  obtain ⟨-, ⟨T', hT', hTok⟩, -⟩ := h.data hst
  rw [hT] at hT'; cases hT'
  obtain ⟨⟨log, hi⟩, -⟩ := PoseGraph.Reachable.inv h.reach
  have hm' := hm
  rw [hi.shared] at hm'
  obtain ⟨hml, hsh⟩ := List.mem_filter.1 hm'
  obtain ⟨d1, d2, d3, d4⟩ := hi.dims m hml
  rw [hd1] at d1 d2 d3
  have hown := hi.own_lt hm
  rw [hid] at hown hsh
  obtain ⟨w1, w2, w3, w4⟩ := hi.wf m hml
  have htouch := hi.touch m hml
  rw [hid] at htouch
  simp only [touches, Bool.or_eq_true, beq_iff_eq] at htouch
  have hdet := hreg.meas m hm
  -- the measured relative pose
  obtain ⟨I, A, dT, eI, eA, eD, hD, rD, tD⟩ := pose_write (d := p.d) ⟨d1, d2⟩ ⟨d3, d4⟩
  -- the neighbour's pose
  have eN := poseAt_ok hN zero_lt_one
  have hI : ArrOk p.d p.d 1 I := by
    obtain ⟨I', e', k, -⟩ := Props.C17_identity_value (K := ℝ) p.d
    rw [eI] at e'; cases e'; exact k
  set PN := N.X.block 0 (0 * (p.d + 1)) p.r (p.d + 1) with hPN
  have eW := setPose_ok hI zero_lt_one (B := Y.tr.mul PN) ⟨hY2, rfl⟩
  set W2 : PArr ℝ := { I with X := I.X.setBlock 0 (0 * (p.d + 1)) (Y.tr.mul PN) } with hW2
  have hW : ArrOk p.d p.d 1 W2 := arrOk_setBlock hI _ _ _
  have rW : rotM p.d p.d W2 0 = (Y.toMat p.r p.d)ᵀ * rotM p.r p.d N 0 := by
    rw [hW2, rotM_setPose (r := p.d) (d := p.d) I 0 0 ⟨hY2, rfl⟩, if_pos rfl,
      DMat.toMat_mul (k := p.r) hY1, DMat.toMat_tr]
    congr 1
    ext x y; simp [hPN, DMat.block, rotM]
  have tW : traV p.d p.d W2 0 = (Y.toMat p.r p.d)ᵀ *ᵥ traV p.r p.d N 0 := by
    rw [hW2, traV_setPose (r := p.d) (d := p.d) I 0 0 ⟨hY2, rfl⟩, if_pos rfl]
    ext x
    simp only [DMat.mul, DMat.tr, hY1, mulVec, dotProduct, DMat.toMat, Matrix.of_apply,
      Matrix.transpose_apply]
    rw [Finset.sum_range]
    simp [hPN, DMat.block, traV]
  -- the rest, for either orientation
  have finish : ∀ (k : Nat) (F : PArr ℝ), k < a.graph.n → ArrOk p.d p.d 1 F →
      (rotM p.d p.d F 0).det ≠ 0 →
      ∃ M V F2 B V2 W R, T.poseAt k = ok M ∧ I.setData M = ok V ∧ F.inverse = ok F2 ∧
        W2.mul F2 = ok B ∧ V.inverse = ok V2 ∧ B.mul V2 = ok W ∧ W.rotationAt 0 = ok R ∧
        checkRotationMatrix R = ok () ∧ ArrOk p.d p.d 1 W ∧
        rotM p.d p.d W 0 * rotM p.d p.d T k * rotM p.d p.d F 0 = rotM p.d p.d W2 0 ∧
        rotM p.d p.d W 0 *ᵥ (rotM p.d p.d T k *ᵥ traV p.d p.d F 0 + traV p.d p.d T k) + traV p.d p.d W 0 =
          traV p.d p.d W2 0 := by
    intro k F hk hF rF
    have eM := poseAt_ok hTok hk
    set M := T.X.block 0 (k * (p.d + 1)) p.d (p.d + 1) with hMd
    have eV := setData_ok hI (X := M) ⟨rfl, by show p.d + 1 = _; ring⟩
    set V : PArr ℝ := { I with X := M } with hVd
    have hV : ArrOk p.d p.d 1 V := ⟨hI.1, hI.2.1, hI.2.2.1, rfl, by show p.d + 1 = _; ring⟩
    have rV : rotM p.d p.d V 0 = rotM p.d p.d T k := by
      ext x y; simp [hVd, hMd, DMat.block, rotM]
    have tV : traV p.d p.d V 0 = traV p.d p.d T k := by
      ext x; simp [hVd, hMd, DMat.block, traV]
    have dT' : (rotM p.d p.d V 0).det ≠ 0 := by rw [rV]; exact hreg.traj k hk
    obtain ⟨F2, f1, f2, f3, f4⟩ := Props.C17_inverse_value p.d F hF rF
    obtain ⟨B, b1, b2, b3, b4⟩ := Props.C17_mul p.d W2 F2 hW f2
    obtain ⟨V2, v1, v2, v3, v4⟩ := Props.C17_inverse_value p.d V hV dT'
    obtain ⟨W, c1, c2, c3, c4⟩ := Props.C17_mul p.d B V2 b2 v2
    rw [rV] at v3 v4 dT'
    rw [tV] at v4
    have iF := Matrix.nonsing_inv_mul _ (Ne.isUnit rF)
    have iT := Matrix.nonsing_inv_mul _ (Ne.isUnit dT')
    refine ⟨M, V, F2, B, V2, W, _, eM, eV, f1, b1, v1, c1, rotationAt_ok c2 zero_lt_one, ?_, c2, ?_, ?_⟩
    · unfold checkRotationMatrix DMat.block
      simp
    · rw [c3, b3, f3, v3, Matrix.mul_assoc (rotM p.d p.d W2 0 * _), iT, Matrix.mul_one, Matrix.mul_assoc, iF,
        Matrix.mul_one]
    · rw [c4, c3, v3, v4, b4, f4, b3, f3]
      simp only [mulVec_add, mulVec_neg, mulVec_mulVec, Matrix.mul_assoc]
      rw [iT, Matrix.mul_one]
      abel
  unfold computeNeighborTransform
  simp only [hY, h.r, h.d, h.id, hN.1, hN.2.1, beq_self_eq_true, check_true, ok_bind, eI, eA, eD, eN,
    hY1, hT, eW, show PN.rows = p.r from rfl, require_true]
  unfold Suggests
  by_cases c : m.r2 = ID
  · have hne : m.r1 ≠ ID := by
      intro e
      simp [isShared, e, c] at hsh
    rw [if_neg hne] at hown
    have dD : (rotM p.d p.d dT 0).det ≠ 0 := by rw [rD]; exact hdet
    obtain ⟨F, f1, f2, f3, f4⟩ := Props.C17_inverse_value p.d dT hD dD
    have iD := Matrix.nonsing_inv_mul _ (Ne.isUnit dD)
    obtain ⟨M, V, F2, B, V2, W, R, k1, k2, k3, k4, k5, k6, k7, k8, k9, k10, k11⟩ := finish m.p2 F hown f2
      (by rw [f3]; exact (Matrix.isUnit_nonsing_inv_det _ (Ne.isUnit dD)).ne_zero)
    refine ⟨W, ?_, k9, ?_⟩
    · rw [if_pos c, u32_of_lt (by omega)]
      simp only [f1, ok_bind, k1, k2, k3, k4, k5, k6, k7, k8]
    · rw [if_neg hne]
      rw [f3, rW] at k10
      rw [f4, tW] at k11
      rw [← rD, ← tD]
      have k12 : (Y.toMat p.r p.d)ᵀ * rotM p.r p.d N 0 * rotM p.d p.d dT 0 =
          rotM p.d p.d W 0 * rotM p.d p.d T m.p2 := by
        rw [← k10, Matrix.mul_assoc, iD, Matrix.mul_one]
      refine ⟨k12, ?_⟩
      rw [← k10, ← k11]
      simp only [mulVec_add, mulVec_neg, mulVec_mulVec, Matrix.mul_assoc]
      abel
  · have h1 : m.r1 = ID := htouch.resolve_right c
    rw [if_pos h1] at hown
    obtain ⟨M, V, F2, B, V2, W, R, k1, k2, k3, k4, k5, k6, k7, k8, k9, k10, k11⟩ := finish m.p1 dT hown hD
      (by rw [rD]; exact hdet)
    refine ⟨W, ?_, k9, ?_⟩
    · rw [if_neg c, u32_of_lt (by omega)]
      simp only [ok_bind, k1, k2, k3, k4, k5, k6, k7, k8]
    · rw [if_pos h1, ← rD, ← tD, ← rW, ← tW]
      exact ⟨k10, k11⟩

/-- A loop closure suggests at most one frame. -/
theorem suggests_unique {r d ID : Nat} {Y : Matrix (Fin r) (Fin d) ℝ} {T N : PArr ℝ} {m : Meas ℝ}
    (hm : (m.R.toMat d d).det ≠ 0)
    (hT : (rotM d d T (ownPose ID m).frame).det ≠ 0) {S S' : Matrix (Fin d) (Fin d) ℝ} {s s' : Fin d → ℝ}
    (h : Suggests ID Y T N m S s) (h' : Suggests ID Y T N m S' s') : S = S' ∧ s = s' := by
  unfold Suggests at h h'
  unfold ownPose at hT
  have uT := Ne.isUnit hT
  have um := Ne.isUnit hm
  by_cases c : m.r1 = ID
  · rw [if_pos c] at h h' hT uT
    have e : S = S' := by
      have := h.1.trans h'.1.symm
      have := congrArg (· * (m.R.toMat d d)⁻¹ * (rotM d d T m.p1)⁻¹) this
      simpa only [Matrix.mul_assoc, Matrix.mul_nonsing_inv _ um, Matrix.mul_nonsing_inv _ uT,
        Matrix.mul_one] using this
    subst e
    exact ⟨rfl, add_left_cancel (h.2.trans h'.2.symm)⟩
  · rw [if_neg c] at h h' hT uT
    have e : S = S' := by
      have := h.1.symm.trans h'.1
      have := congrArg (· * (rotM d d T m.p2)⁻¹) this
      simpa only [Matrix.mul_assoc, Matrix.mul_nonsing_inv _ uT, Matrix.mul_one] using this
    subst e
    exact ⟨rfl, add_left_cancel (h.2.symm.trans h'.2)⟩

/-- Displacing the pose of the neighbour displaces the suggested frame. -/
theorem suggests_shift {r d ID : Nat} {Y : Matrix (Fin r) (Fin d) ℝ} (hY : OrthoCols Y) {T N N' : PArr ℝ}
    {m : Meas ℝ} {S : Matrix (Fin d) (Fin d) ℝ} {s δ : Fin d → ℝ} (h : Suggests ID Y T N m S s)
    (hR : rotM r d N' 0 = rotM r d N 0) (ht : traV r d N' 0 = traV r d N 0 + Y *ᵥ δ) :
    Suggests ID Y T N' m S (s + δ) := by
  unfold Suggests at h ⊢
  have e : Yᵀ *ᵥ (Y *ᵥ δ) = δ := by
    rw [mulVec_mulVec, show Yᵀ * Y = 1 from hY, one_mulVec]
  have e' : Yᵀ *ᵥ (traV r d N 0 + Y *ᵥ δ) = Yᵀ *ᵥ traV r d N 0 + δ := by rw [mulVec_add, e]
  rw [hR, ht, e']
  split_ifs with c
  · rw [if_pos c] at h
    exact ⟨h.1, by rw [← add_assoc, h.2]⟩
  · rw [if_neg c] at h
    exact ⟨h.1, by rw [← add_assoc, ← add_assoc, h.2]⟩

/-- A candidate: a loop closure with the matrices computed from it. -/
def candVote (d : Nat) (z : Meas ℝ × DMat ℝ × DMat ℝ) : Vote d := ⟨z.1, z.2.1.toMat d d, colV d z.2.2⟩

/-- The candidates computed from arbitrary messages. -/
theorem candidates_suggest (h : AgInv ID p a) (hst : a.state ≠ .WAIT_FOR_DATA) {Y : DMat ℝ}
    (hY : a.YLift = some Y) {T : PArr ℝ} (hT : a.TLocalInit = some T) (hreg : Regular p.d a.graph T)
    {nid : Nat} (hnid : nid ≠ ID) {dict : PoseDict ℝ} (hd : ∀ kv ∈ dict, ArrOk p.r p.d 1 kv.2) :
    ∃ Z : List (Meas ℝ × DMat ℝ × DMat ℝ),
      a.candidates nid dict = ok (Z.map (·.2.1), Z.map (·.2.2)) ∧
      Z.map (·.1) = a.graph.sharedLcs.filter (usable ID nid dict) ∧
      ∀ z ∈ Z, z.2.1.rows = p.d ∧ z.2.1.cols = p.d ∧ z.2.2.rows = p.d ∧ z.2.2.cols = 1 ∧
        (candVote p.d z).Holds ID nid (Y.toMat p.r p.d) T dict := by
  obtain ⟨hid, -⟩ := h.dims
  obtain ⟨⟨log, hi⟩, -⟩ := PoseGraph.Reachable.inv h.reach
  have key : ∀ (ms : List (Meas ℝ)) (acc : List (DMat ℝ) × List (DMat ℝ)),
      (∀ m ∈ ms, m ∈ a.graph.sharedLcs ∧ (m.r1 = nid ∨ m.r2 = nid)) →
      ∃ Z : List (Meas ℝ × DMat ℝ × DMat ℝ), Res.foldl (a.candidateStep nid dict) acc ms =
          ok (acc.1 ++ Z.map (·.2.1), acc.2 ++ Z.map (·.2.2)) ∧
        Z.map (·.1) = ms.filter (usable ID nid dict) ∧
        ∀ z ∈ Z, z.2.1.rows = p.d ∧ z.2.1.cols = p.d ∧ z.2.2.rows = p.d ∧ z.2.2.cols = 1 ∧
          (candVote p.d z).Holds ID nid (Y.toMat p.r p.d) T dict := by
    intro ms
    induction ms with
    | nil =>
      intro acc _
      exact ⟨[], by simp [foldl_nil], rfl, by simp⟩
    | cons m ms ih =>
      intro acc hms
      obtain ⟨hm, hn⟩ := hms m (by simp)
      have hms' := fun m' h' => hms m' (List.mem_cons_of_mem _ h')
      have hm' := hm
      rw [hi.shared] at hm'
      obtain ⟨hml, hsh⟩ := List.mem_filter.1 hm'
      obtain ⟨w1, w2, w3, w4⟩ := hi.wf m hml
      have htouch := hi.touch m hml
      rw [hid] at htouch hsh
      simp only [touches, Bool.or_eq_true, beq_iff_eq] at htouch
      have hu : (⟨nid, if m.r1 = nid then u32 m.p1 else u32 m.p2⟩ : PoseID) =
          ⟨nid, if m.r1 = nid then m.p1 else m.p2⟩ := by
        rw [u32_of_lt (by omega), u32_of_lt (by omega)]
      have hfor : foreignPose ID m = ⟨nid, if m.r1 = nid then m.p1 else m.p2⟩ := by
        unfold foreignPose
        by_cases c : m.r1 = ID
        · have hne : m.r1 ≠ nid := fun e => hnid (e.symm.trans c)
          rw [if_pos c, if_neg hne, hn.resolve_left hne]
        · have h2 : m.r2 ≠ nid := fun e => hnid (e.symm.trans (htouch.resolve_left c))
          have h1 := hn.resolve_right h2
          rw [if_neg c, if_pos h1, h1]
      rw [foldl_cons]
      unfold candidateStep
      rw [hu, ← hfor]
      cases hf : OMap.find? ltPoseID (foreignPose ID m) dict with
      | none =>
        have hus : usable ID nid dict m = false := by
          unfold usable; rw [hf]; simp
        rw [ok_bind', List.filter_cons_of_neg (by simp [hus])]
        exact ih acc hms'
      | some N =>
        have hus : usable ID nid dict m = true := by
          unfold usable; rw [hf, hfor]; simp
        have hN := hd _ (OMap.mem_of_find? strictTotal_ltPoseID hf)
        obtain ⟨W, e, hW, hs⟩ := transform_suggests h hst hY hT hreg hm hN
        obtain ⟨⟨R, r1, r2, r3, r4⟩, ⟨t, t1, t2, t3, t4⟩, -⟩ := Props.C18_read p.d p.d 1 0 W hW zero_lt_one
        simp only [e, ok_bind, r1, t1, ok_bind']
        obtain ⟨Z, k1, k2, k3⟩ := ih (acc.1 ++ [R], acc.2 ++ [t]) hms'
        refine ⟨(m, R, t) :: Z, ?_, ?_, ?_⟩
        · show Res.foldl (a.candidateStep nid dict) (acc.1 ++ [R], acc.2 ++ [t]) ms = _
          rw [k1]
          simp
        · rw [List.filter_cons_of_pos hus, List.map_cons, k2]
        · intro z hz
          rcases List.mem_cons.1 hz with rfl | hz
          · refine ⟨r2, r3, t2, t3, ?_, N, hf, ?_⟩
            · show (foreignPose ID m).robot = nid
              rw [hfor]
            · show Suggests ID _ T N m (R.toMat p.d p.d) (colV p.d t)
              rw [r4, t4]; exact hs
          · exact k3 z hz
  have hsub : ∀ m, m ∈ a.graph.sharedLoopClosuresWithRobot nid ↔
      m ∈ a.graph.sharedLcs ∧ (m.r1 = nid ∨ m.r2 = nid) := by
    intro m
    unfold PoseGraph.sharedLoopClosuresWithRobot
    rw [List.mem_filter]
    simp
  obtain ⟨Z, k1, k2, k3⟩ := key (a.graph.sharedLoopClosuresWithRobot nid) ([], [])
    (fun m hm => (hsub m).1 hm)
  refine ⟨Z, by unfold candidates; simpa using k1, ?_, k3⟩
  rw [k2]
  unfold PoseGraph.sharedLoopClosuresWithRobot
  rw [List.filter_filter]
  refine List.filter_congr fun m _ => ?_
  unfold usable foreignPose
  by_cases c : m.r1 = ID
  · rw [if_pos c]
    by_cases c2 : m.r2 = nid <;> simp [c2]
  · rw [if_neg c]
    by_cases c1 : m.r1 = nid <;> simp [c1]

/-- Picking by increasing indices gives a sublist. -/
theorem pick_sublist {α : Type} {Z : List α} (f : α → DMat ℝ) {inl : List Nat} (hp : inl.Pairwise (· < ·))
    (hl : ∀ i ∈ inl, i < Z.length) :
    ∃ V : List α, V.Sublist Z ∧ V.length = inl.length ∧ pickAll (Z.map f) inl = ok (V.map f) ∧
      ∀ v ∈ V, ∃ i ∈ inl, ∃ hi : i < Z.length, Z[i] = v := by
  set is : List (Fin Z.length) := inl.pmap Fin.mk hl with his
  have hval : is.map Fin.val = inl := by
    rw [his, List.map_pmap]
    simp
  have hpw : is.Pairwise (· < ·) := by
    rw [← hval, List.pairwise_map] at hp
    exact hp
  refine ⟨is.map (Z[·]), List.map_getElem_sublist hpw, by rw [List.length_map, ← hval, List.length_map], ?_, ?_⟩
  · rw [← hval]
    clear_value is
    clear hval hpw his hp
    induction is with
    | nil => rfl
    | cons i is ih =>
      rw [List.map_cons, pickAll, List.getElem?_eq_getElem (by simp)]
      simp only [ih, ok_bind, List.map_cons, List.getElem_map]
      rfl
  · intro v hv
    obtain ⟨i, hi, rfl⟩ := List.mem_map.1 hv
    exact ⟨i, by rw [← hval]; exact List.mem_map_of_mem hi, i.2, rfl⟩

/-- A pose written from an averaged rotation and translation. -/
theorem pose_written {d : Nat} {R t : DMat ℝ} (hR : R.rows = d ∧ R.cols = d) (ht : t.rows = d ∧ t.cols = 1)
    {W : PArr ℝ} (e : (do
      let T ← PArr.identity d
      let T ← T.setRotation 0 R
      let T ← T.setTranslation 0 t
      ok (some T)) = ok (some W)) :
    ArrOk d d 1 W ∧ rotM d d W 0 = R.toMat d d ∧ traV d d W 0 = colV d t := by
  obtain ⟨I, A, P, eI, eA, eP, hP, rP, tP⟩ := pose_write hR ht
  simp only [eI, eA, eP, ok_bind] at e
  cases e
  exact ⟨hP, rP, tP⟩

theorem weightAt_replicate {n i : Nat} (hi : i < n) (c dflt : ℝ) :
    weightAt dflt n (List.replicate n c) i = c := by
  unfold weightAt
  simp [hi]

theorem half_radian : (angular2ChordalSO3 (1 / 2)) ^ 2 = 8 * Real.sin (1 / 4) ^ 2 := by
  unfold angular2ChordalSO3
  have := Real.sq_sqrt (show (0 : ℝ) ≤ 2 by norm_num)
  rw [show (1 / 2 / 2 : ℝ) = 1 / 4 by norm_num, mul_pow, mul_pow, this]
  norm_num

theorem half_radian_pos : 0 < angular2ChordalSO3 (1 / 2) := by
  have := Props.C61_monotone 0 (1 / 2) (le_refl _) (by have := Real.two_le_pi; linarith) (by norm_num)
  unfold angular2ChordalSO3 at this ⊢
  simpa using this

/-- The unweighted average of translations. -/
theorem translation_mean {d : Nat} {ts : List (DMat ℝ)} (h0 : ts ≠ []) (hs : Sized d 1 ts) :
    ∃ t, singleTranslationAveraging ts [] = ok t ∧ t.rows = d ∧ t.cols = 1 ∧
      (ts.length : ℝ) • colV d t = (ts.map (colV d)).sum := by
  have hlen : 0 < ts.length := List.length_pos_iff.2 h0
  have hw : weightsOr 1 ts.length [] = List.replicate ts.length (1 : ℝ) := by
    unfold weightsOr
    simp [hlen.ne]
  have hsum : (weightsOr 1 ts.length []).sum = (ts.length : ℝ) := by rw [hw]; simp
  have hne : (ts.length : ℝ) ≠ 0 := by exact_mod_cast hlen.ne'
  obtain ⟨t, e, t1, t2, t3⟩ := translation_avg_ok h0 hs [] (by rw [hsum]; exact hne)
  refine ⟨t, e, t1, t2, ?_⟩
  rw [hsum, hw] at t3
  have key : ∀ l : List (DMat ℝ), wsum d 1 ((List.replicate l.length (1 : ℝ)).zip l) =
      Matrix.of fun i _ => (l.map (colV d)).sum i := by
    intro l
    induction l with
    | nil => ext i j; simp [wsum]
    | cons A l ih =>
      rw [List.length_cons, List.replicate_succ, List.zip_cons_cons]
      ext i j
      have hj : j = 0 := Subsingleton.elim j 0
      subst hj
      have := congrFun (congrFun ih i) 0
      simp only [wsum, List.map_cons, List.sum_cons, Matrix.add_apply, one_smul,
        Matrix.of_apply, Pi.add_apply] at this ⊢
      rw [this]
      rfl
  rw [key] at t3
  funext i
  have := congrFun (congrFun t3 i) 0
  have h' : colV d t i = 1 / (ts.length : ℝ) * (ts.map (colV d)).sum i := this
  rw [Pi.smul_apply, h', smul_eq_mul, ← mul_assoc, mul_one_div_cancel hne, one_mul]

/-- What the two-stage transform returns, from arbitrary messages. -/
theorem twoStage_votes (h : AgInv ID p a) (hst : a.state ≠ .WAIT_FOR_DATA) (hsvd : LawfulSvd o.svd)
    {Y : DMat ℝ} (hY : a.YLift = some Y) {T : PArr ℝ} (hT : a.TLocalInit = some T)
    (hreg : Regular p.d a.graph T) {nid : Nat} (hnid : nid ≠ ID) {dict : PoseDict ℝ}
    (hd : ∀ kv ∈ dict, ArrOk p.r p.d 1 kv.2) {W : PArr ℝ}
    (e : a.computeRobustNeighborTransformTwoStage o nid dict = ok (some W)) :
    ArrOk p.d p.d 1 W ∧ IsRot (rotM p.d p.d W 0) ∧ ∃ V : List (Vote p.d), V ≠ [] ∧ p.minInliers ≤ V.length ∧
      (V.map (·.meas)).Sublist a.graph.sharedLcs ∧
      (∀ v ∈ V, v.Holds ID nid (Y.toMat p.r p.d) T dict ∧
        frob2 (rotM p.d p.d W 0 - v.S) < 8 * Real.sin (1 / 4) ^ 2) ∧
      (V.length : ℝ) • traV p.d p.d W 0 = (V.map (·.s)).sum := by
  obtain ⟨hid, -, hd1, -⟩ := h.dims
  obtain ⟨Z, eZ, z1, z2⟩ := candidates_suggest h hst hY hT hreg hnid hd
  unfold computeRobustNeighborTransformTwoStage dimension at e
  rw [eZ, h.params, hd1] at e
  simp only [ok_bind] at e
  by_cases h0 : Z.map (·.2.1) = []
  · rw [h0] at e
    simp at e
  have hne : (Z.map (·.2.1)).isEmpty = false := by simpa using h0
  have hsz : Sized p.d p.d (Z.map (·.2.1)) := by
    intro A hA
    obtain ⟨z, hz, rfl⟩ := List.mem_map.1 hA
    exact ⟨(z2 z hz).1, (z2 z hz).2.1⟩
  obtain ⟨R, inl, eR, r1, r2, r3⟩ := Props.C25_rotation_total hsvd h0 hsz
    (kappa := List.replicate (Z.map (·.2.1)).length 1)
    (fun i hi => by rw [weightAt_replicate hi]; norm_num) half_radian_pos
  obtain ⟨i1, -, i2⟩ := Props.C25_rotation o.svd half_radian_pos eR
  rw [hne, eR] at e
  simp only [ok_bind, Bool.false_eq_true, if_false] at e
  split at e
  · cases e
  rename_i hmin
  obtain ⟨V, v1, v2, v3, v4⟩ := pick_sublist (Z := Z) (·.2.2) i1 (fun i hi => by
    obtain ⟨hi, -⟩ := i2 i hi; simpa using hi)
  rw [v3] at e
  simp only [ok_bind] at e
  by_cases hV : V.map (·.2.2) = []
  · rw [hV] at e
    simp [singleTranslationAveraging] at e
  obtain ⟨t, et, t1, t2, t3⟩ := translation_mean (d := p.d) hV (fun A hA => by
    obtain ⟨z, hz, rfl⟩ := List.mem_map.1 hA
    exact ⟨(z2 z (v1.subset hz)).2.2.1, (z2 z (v1.subset hz)).2.2.2.1⟩)
  rw [et, ok_bind] at e
  obtain ⟨hW, rW, tW⟩ := pose_written ⟨r1, r2⟩ ⟨t1, t2⟩ e
  refine ⟨hW, by rw [rW]; exact r3, V.map (candVote p.d), ?_, ?_, ?_, ?_, ?_⟩
  · simpa using hV
  · rw [List.length_map, v2]; omega
  · rw [List.map_map]
    show (V.map (·.1)).Sublist _
    refine (v1.map _).trans ?_
    rw [z1]
    exact List.filter_sublist
  · intro v hv
    obtain ⟨z, hz, rfl⟩ := List.mem_map.1 hv
    refine ⟨(z2 z (v1.subset hz)).2.2.2.2, ?_⟩
    obtain ⟨i, hi, hiz, rfl⟩ := v4 z hz
    obtain ⟨hi', b⟩ := i2 i hi
    rw [weightAt_replicate hi', one_mul, half_radian, r1, r2] at b
    rw [rW]
    simpa [candVote] using b
  · rw [tW, List.length_map, List.map_map]
    rw [List.length_map, List.map_map] at t3
    exact t3

/-- If all usable loop closures suggest the same rotation, the two-stage transform takes all of them and averages
the translations. -/
theorem twoStage_agree (h : AgInv ID p a) (hst : a.state ≠ .WAIT_FOR_DATA) (hsvd : LawfulSvd o.svd)
    {Y : DMat ℝ} (hY : a.YLift = some Y) {T : PArr ℝ} (hT : a.TLocalInit = some T)
    (hreg : Regular p.d a.graph T) {nid : Nat} (hnid : nid ≠ ID) {dict : PoseDict ℝ}
    (hd : ∀ kv ∈ dict, ArrOk p.r p.d 1 kv.2) {S : Matrix (Fin p.d) (Fin p.d) ℝ} (hS : IsRot S)
    (hagree : ∀ v : Vote p.d, v.meas ∈ a.graph.sharedLcs → v.Holds ID nid (Y.toMat p.r p.d) T dict → v.S = S)
    (h0 : 0 < numUsable ID nid a.graph dict) (hmin : p.minInliers ≤ numUsable ID nid a.graph dict) :
    ∃ W, a.computeRobustNeighborTransformTwoStage o nid dict = ok (some W) ∧ ArrOk p.d p.d 1 W ∧
      rotM p.d p.d W 0 = S ∧ ∃ V : List (Vote p.d), V.length = numUsable ID nid a.graph dict ∧
        (V.map (·.meas)).Sublist a.graph.sharedLcs ∧
        (∀ v ∈ V, v.Holds ID nid (Y.toMat p.r p.d) T dict) ∧
        (V.length : ℝ) • traV p.d p.d W 0 = (V.map (·.s)).sum := by
  obtain ⟨hid, -, hd1, -⟩ := h.dims
  obtain ⟨Z, eZ, z1, z2⟩ := candidates_suggest h hst hY hT hreg hnid hd
  have hlen : Z.length = numUsable ID nid a.graph dict := by
    have := congrArg List.length z1
    rw [List.length_map, ← List.countP_eq_length_filter] at this
    exact this
  have hZ : Z ≠ [] := by rintro rfl; simp at hlen; omega
  have hmem : ∀ z ∈ Z, z.1 ∈ a.graph.sharedLcs := fun z hz => by
    have : z.1 ∈ Z.map (·.1) := List.mem_map_of_mem hz
    rw [z1] at this
    exact (List.mem_filter.1 this).1
  have h0' : Z.map (·.2.1) ≠ [] := by simpa using hZ
  have hne : (Z.map (·.2.1)).isEmpty = false := by simpa using hZ
  have hsz : Sized p.d p.d (Z.map (·.2.1)) := by
    intro A hA
    obtain ⟨z, hz, rfl⟩ := List.mem_map.1 hA
    exact ⟨(z2 z hz).1, (z2 z hz).2.1⟩
  obtain ⟨R, eR, r1, r2, r3⟩ := Props.C26_rotation hsvd h0' hsz hS
    (fun A hA => by
      obtain ⟨z, hz, rfl⟩ := List.mem_map.1 hA
      exact hagree (candVote p.d z) (hmem z hz) (z2 z hz).2.2.2.2)
    (kappa := List.replicate (Z.map (·.2.1)).length 1)
    (by
      rw [← totalWeight_eq, weightsOr_self 1 (by simp)]
      have := List.length_pos_iff.2 h0'
      simpa using this) half_radian_pos
  obtain ⟨V, v1, v2, v3, -⟩ := pick_sublist (Z := Z) (·.2.2) (inl := List.range Z.length)
    List.pairwise_lt_range (fun i hi => List.mem_range.1 hi)
  rw [List.length_range] at v2
  have hVZ : V = Z := v1.eq_of_length v2
  subst hVZ
  obtain ⟨t, et, t1, t2, t3⟩ := translation_mean (d := p.d) (ts := V.map (·.2.2)) (by simpa using hZ) (fun A hA => by
    obtain ⟨z, hz, rfl⟩ := List.mem_map.1 hA
    exact ⟨(z2 z hz).2.2.1, (z2 z hz).2.2.2.1⟩)
  obtain ⟨I, A, P, eI, eA, eP, hP, rP, tP⟩ := pose_write (d := p.d) ⟨r1, r2⟩ ⟨t1, t2⟩
  refine ⟨P, ?_, hP, rP.trans r3, V.map (candVote p.d), by rw [List.length_map, hlen], ?_, ?_, ?_⟩
  · unfold computeRobustNeighborTransformTwoStage dimension
    rw [eZ, h.params, hd1]
    simp only [ok_bind]
    rw [hne, eR]
    simp only [ok_bind, Bool.false_eq_true, if_false, List.length_range, List.length_map]
    rw [if_neg (by omega), v3]
    simp only [ok_bind, et, eI, eA, eP]
  · rw [List.map_map]
    show (V.map (·.1)).Sublist _
    rw [z1]
    exact List.filter_sublist
  · intro v hv
    obtain ⟨z, hz, rfl⟩ := List.mem_map.1 hv
    exact (z2 z hz).2.2.2.2
  · rw [tP, List.length_map, List.map_map]
    rw [List.length_map, List.map_map] at t3
    exact t3

/-! ### One stage -/

theorem threshold_ninety {x : ℝ} (hx : 0 < x) :
    computeErrorThresholdAtQuantile (9 / 10) 3 x = ok (Real.sqrt x) := by
  unfold computeErrorThresholdAtQuantile
  rw [if_pos (by norm_num), if_pos (by norm_num), if_neg (by linarith)]
  rfl

theorem frob2_col {d : Nat} (x y : DMat ℝ) :
    frob2 (x.toMat d 1 - y.toMat d 1) = ∑ i, (colV d x i - colV d y i) ^ 2 := by
  unfold frob2
  refine Finset.sum_congr rfl fun i _ => ?_
  rw [Fin.sum_univ_one]
  rfl

/-- What the one-stage transform returns, from arbitrary messages. -/
theorem oneStage_votes (h : AgInv ID p a) (hst : a.state ≠ .WAIT_FOR_DATA) (hsvd : LawfulSvd o.svd)
    {Y : DMat ℝ} (hY : a.YLift = some Y) {T : PArr ℝ} (hT : a.TLocalInit = some T)
    (hreg : Regular p.d a.graph T) {nid : Nat} (hnid : nid ≠ ID) {dict : PoseDict ℝ}
    (hd : ∀ kv ∈ dict, ArrOk p.r p.d 1 kv.2) {x : ℝ} (hx : 0 < x) :
    a.computeRobustNeighborTransform o x nid dict = ok none ∨
    ∃ W, a.computeRobustNeighborTransform o x nid dict = ok (some W) ∧
    ArrOk p.d p.d 1 W ∧ IsRot (rotM p.d p.d W 0) ∧ ∃ V : List (Vote p.d), p.minInliers ≤ V.length ∧
      (V.map (·.meas)).Sublist a.graph.sharedLcs ∧
      ∀ v ∈ V, v.Holds ID nid (Y.toMat p.r p.d) T dict ∧
        182 / 100 * frob2 (rotM p.d p.d W 0 - v.S) +
          1 / 100 * ∑ i, (traV p.d p.d W 0 i - v.s i) ^ 2 < x := by
  obtain ⟨hid, -, hd1, -⟩ := h.dims
  obtain ⟨Z, eZ, z1, z2⟩ := candidates_suggest h hst hY hT hreg hnid hd
  unfold computeRobustNeighborTransform dimension
  rw [eZ, h.params, hd1]
  simp only [ok_bind, threshold_ninety hx]
  by_cases h0 : Z.map (·.2.1) = []
  · rw [h0]
    exact Or.inl rfl
  have hne : (Z.map (·.2.1)).isEmpty = false := by simpa using h0
  have hZ : Z ≠ [] := by rintro rfl; simp at h0
  have hsR : Sized p.d p.d (Z.map (·.2.1)) := by
    intro A hA
    obtain ⟨z, hz, rfl⟩ := List.mem_map.1 hA
    exact ⟨(z2 z hz).1, (z2 z hz).2.1⟩
  have hst' : Sized p.d 1 (Z.map (·.2.2)) := by
    intro A hA
    obtain ⟨z, hz, rfl⟩ := List.mem_map.1 hA
    exact ⟨(z2 z hz).2.2.1, (z2 z hz).2.2.2.1⟩
  have hpos := Real.sqrt_pos.2 hx
  obtain ⟨R, t, inl, e, r3⟩ := Props.C25_pose_total hsvd h0 hsR hst' (by simp)
    (kappa := List.replicate (Z.map (·.2.1)).length (182 / 100))
    (tau := List.replicate (Z.map (·.2.1)).length (1 / 100))
    (fun i hi => by rw [weightAt_replicate hi]; norm_num)
    (fun i hi => by rw [weightAt_replicate hi]; norm_num) hpos
  obtain ⟨i1, s1, s2, i2⟩ := Props.C25_pose o.svd hpos e
  obtain ⟨z, hz⟩ := List.exists_mem_of_ne_nil _ hZ
  have a1 := s1 _ (List.mem_map_of_mem hz)
  have a2 := s2 _ (List.mem_map_of_mem hz)
  have b1 := hsR _ (List.mem_map_of_mem hz)
  have b2 := hst' _ (List.mem_map_of_mem hz)
  have hR : R.rows = p.d ∧ R.cols = p.d := ⟨a1.1.symm.trans b1.1, a1.2.symm.trans b1.2⟩
  have ht : t.rows = p.d ∧ t.cols = 1 := ⟨a2.1.symm.trans b2.1, a2.2.symm.trans b2.2⟩
  rw [hne, e]
  simp only [ok_bind, Bool.false_eq_true, if_false]
  by_cases hmin : inl.length < p.minInliers
  · rw [if_pos hmin]; exact Or.inl rfl
  refine Or.inr ?_
  rw [if_neg hmin]
  obtain ⟨I, A, P, eI, eA, eP, hP, rP, tP⟩ := pose_write hR ht
  obtain ⟨V, v1, v2, -, v4⟩ := pick_sublist (Z := Z) (·.2.2) i1 (fun i hi => by
    obtain ⟨hi, -⟩ := i2 i hi; simpa using hi)
  refine ⟨P, by simp only [eI, eA, eP, ok_bind], hP, by rw [rP]; exact r3, V.map (candVote p.d), ?_, ?_, ?_⟩
  · rw [List.length_map, v2]; omega
  · rw [List.map_map]
    show (V.map (·.1)).Sublist _
    refine (v1.map _).trans ?_
    rw [z1]
    exact List.filter_sublist
  · intro v hv
    obtain ⟨z, hz, rfl⟩ := List.mem_map.1 hv
    refine ⟨(z2 z (v1.subset hz)).2.2.2.2, ?_⟩
    obtain ⟨i, hi, hiz, rfl⟩ := v4 z hz
    obtain ⟨hi', hi'', b⟩ := i2 i hi
    rw [weightAt_replicate hi', weightAt_replicate hi', hR.1, hR.2, ht.1, ht.2, Real.sq_sqrt hx.le,
      frob2_col] at b
    rw [rP, tP]
    simpa [candVote] using b

/-- The one-stage transform from exact measurements. -/
theorem oneStage_exact (h : AgInv ID p a) (hst : a.state ≠ .WAIT_FOR_DATA) (hsvd : LawfulSvd o.svd)
    {Y : DMat ℝ} (hY : a.YLift = some Y) (hYo : OrthoCols (Y.toMat p.r p.d)) {T : PArr ℝ}
    (hT : a.TLocalInit = some T) {w : Truth p.d} {S : Matrix (Fin p.d) (Fin p.d) ℝ} {s : Fin p.d → ℝ}
    (hl : w.Local ID a.graph.n S s T) {nid : Nat} (hnid : nid ≠ ID) {dict : PoseDict ℝ}
    (hd : w.Dict (Y.toMat p.r p.d) dict)
    (hx : ∀ m ∈ a.graph.sharedLoopClosuresWithRobot nid, w.Exact m) {x : ℝ} (h0x : 0 < x) :
    if numUsable ID nid a.graph dict = 0 ∨
        numUsable ID nid a.graph dict < p.minInliers then
      a.computeRobustNeighborTransform o x nid dict = ok none
    else ∃ W, a.computeRobustNeighborTransform o x nid dict = ok (some W) ∧ ArrOk p.d p.d 1 W ∧
      rotM p.d p.d W 0 = S ∧ traV p.d p.d W 0 = s := by
  obtain ⟨hid, -, hd1, -⟩ := h.dims
  obtain ⟨Rs, ts, e, hlen, hlt, hR, ht⟩ := candidates_exact h hst hY hYo hT hl hnid hd hx
  rw [← hlen]
  unfold computeRobustNeighborTransform dimension
  rw [e, h.params, hd1]
  simp only [ok_bind, threshold_ninety h0x]
  by_cases h0 : Rs = []
  · rw [h0]; simp
  · have hp : 0 < Rs.length := List.length_pos_iff.2 h0
    have hne : Rs.isEmpty = false := by simpa using h0
    have hsR : Sized p.d p.d Rs := fun A hA => ⟨(hR A hA).1, (hR A hA).2.1⟩
    have hst' : Sized p.d 1 ts := fun A hA => ⟨(ht A hA).1, (ht A hA).2.1⟩
    have hw : ∀ {dflt c : ℝ}, 0 < c → 0 < totalWeight dflt Rs.length (List.replicate Rs.length c) := by
      intro dflt c hc
      rw [← totalWeight_eq, weightsOr_self dflt (by simp)]
      have : (0 : ℝ) < Rs.length := by exact_mod_cast hp
      simpa using mul_pos this hc
    obtain ⟨R, t, eR, r3, t1, t2, t3⟩ := Props.C26_pose hsvd h0 hsR hst' hlt hl.rigid
      (fun A hA => (hR A hA).2.2) (q := Matrix.of fun i _ => s i) (fun A hA => by
        ext i j
        rw [Subsingleton.elim j 0]
        exact congrFun (ht A hA).2.2 i)
      (kappa := List.replicate Rs.length (182 / 100)) (tau := List.replicate Rs.length (1 / 100))
      (hw (by norm_num)) (hw (by norm_num)) (Real.sqrt_pos.2 h0x)
    obtain ⟨-, s1, -, -⟩ := Props.C25_pose o.svd (Real.sqrt_pos.2 h0x) eR
    obtain ⟨A0, hA0⟩ := List.exists_mem_of_ne_nil _ h0
    have r1 : R.rows = p.d := (s1 A0 hA0).1.symm.trans (hsR A0 hA0).1
    have r2 : R.cols = p.d := (s1 A0 hA0).2.symm.trans (hsR A0 hA0).2
    rw [hne, eR]
    simp only [ok_bind, List.length_range, Bool.false_eq_true, if_false]
    by_cases hmin : Rs.length < p.minInliers
    · rw [if_pos (Or.inr hmin), if_pos hmin]
    · rw [if_neg (by omega), if_neg hmin]
      obtain ⟨I, A, P, eI, eA, eP, hP, rP, tP⟩ := pose_write (d := p.d) ⟨r1, r2⟩ ⟨t1, t2⟩
      refine ⟨P, by simp only [eI, eA, eP, ok_bind], hP, rP.trans r3, tP.trans ?_⟩
      funext i
      exact congrFun (congrFun t3 i) 0

end Agent

end

end Dpgo
