import Verif.Spec.Truth
import Verif.Lemmas.AgentTotal
import Verif.Lemmas.AgentShared
import Verif.Props.Averaging
import Verif.Props.Errors

/-! # Alignment of frames from exact measurements -/

namespace Dpgo

open Res Spec PArr Matrix

noncomputable section

theorem isRot_mul_transpose {d : Nat} {A : Matrix (Fin d) (Fin d) ℝ} (h : IsRot A) : A * Aᵀ = 1 :=
  mul_eq_one_comm.1 h.1

theorem IsRot.transpose_mul {d : Nat} {A B : Matrix (Fin d) (Fin d) ℝ} (hA : IsRot A) (hB : IsRot B) :
    IsRot (Aᵀ * B) := by
  refine ⟨?_, ?_⟩
  · rw [Matrix.transpose_mul, transpose_transpose, Matrix.mul_assoc, ← Matrix.mul_assoc A,
      isRot_mul_transpose hA, Matrix.one_mul, hB.1]
  · rw [det_mul, det_transpose, hA.2, hB.2, mul_one]

/-- A pose with given rotation and translation, written on the identity. -/
theorem pose_write {d : Nat} {R t : DMat ℝ} (hR : R.rows = d ∧ R.cols = d) (ht : t.rows = d ∧ t.cols = 1) :
    ∃ I A P, PArr.identity (K := ℝ) d = ok I ∧ I.setRotation 0 R = ok A ∧ A.setTranslation 0 t = ok P ∧
      ArrOk d d 1 P ∧ rotM d d P 0 = R.toMat d d ∧ traV d d P 0 = colV d t := by
  obtain ⟨I, e, hI, -⟩ := Props.C17_identity_value (K := ℝ) d
  refine ⟨I, _, _, e, setRotation_ok hI zero_lt_one hR,
    setTranslation_ok (arrOk_setBlock hI _ _ _) zero_lt_one ht,
    arrOk_setBlock (arrOk_setBlock hI _ _ _) _ _ _, ?_, ?_⟩
  · rw [rotM_setTranslation (r := d) (d := d) _ _ _ ht, rotM_setRotation (r := d) (d := d) _ _ _ hR,
      if_pos rfl]
  · rw [traV_setTranslation (r := d) (d := d) _ _ _ ht, if_pos rfl]

namespace Agent

variable {o : AgentOracles} {ID : Nat} {p : AgentParams} {a : Agent}

/-- The transform computed from one exact shared measurement. -/
theorem transform_exact (h : AgInv ID p a) (hst : a.state ≠ .WAIT_FOR_DATA) {Y : DMat ℝ}
    (hY : a.YLift = some Y) (hYo : OrthoCols (Y.toMat p.r p.d)) {T : PArr ℝ} (hT : a.TLocalInit = some T)
    {w : Truth p.d} {S : Matrix (Fin p.d) (Fin p.d) ℝ} {s : Fin p.d → ℝ} (hl : w.Local ID a.graph.n S s T)
    {m : Meas ℝ} (hm : m ∈ a.graph.sharedLcs) (hx : w.Exact m) {N : PArr ℝ} (hN : ArrOk p.r p.d 1 N)
    (hNv : if m.r2 = ID then w.Lifted (Y.toMat p.r p.d) m.r1 m.p1 N 0
      else w.Lifted (Y.toMat p.r p.d) m.r2 m.p2 N 0) :
    ∃ W, a.computeNeighborTransform m N = ok W ∧ ArrOk p.d p.d 1 W ∧ rotM p.d p.d W 0 = S ∧
      traV p.d p.d W 0 = s := by
  obtain ⟨hid, hr1, hd1, -⟩ := h.dims
  obtain ⟨hY1, hY2⟩ := h.lift Y hY
  obtain ⟨-, ⟨T', hT', hTok⟩, -⟩ := h.data hst
  rw [hT] at hT'; cases hT'
  obtain ⟨⟨log, hi⟩, -⟩ := PoseGraph.Reachable.inv h.reach
  have hm' := hm
  rw [hi.shared] at hm'
  obtain ⟨hml, hsh⟩ := List.mem_filter.1 hm'
  obtain ⟨d1, d2, d3, d4⟩ := hi.dims m hml
  rw [hd1] at d1 d2 d3
  have hown := hi.own_lt hm
  rw [hid] at hown hsh
  obtain ⟨w1, w2, w3, w4⟩ := hi.wf m hml
  have htouch := hi.touch m hml
  rw [hid] at htouch
  simp only [touches, Bool.or_eq_true, beq_iff_eq] at htouch
  -- the measured relative pose
  obtain ⟨I, A, dT, eI, eA, eD, hD, rD, tD⟩ := pose_write (d := p.d) ⟨d1, d2⟩ ⟨d3, d4⟩
  rw [hx.1] at rD
  rw [hx.2] at tD
  have rigD := (IsRot.transpose_mul (w.rigid m.r1 m.p1) (w.rigid m.r2 m.p2))
  -- the neighbour's pose
  have eN := poseAt_ok hN zero_lt_one
  have hI : ArrOk p.d p.d 1 I := by
    obtain ⟨I', e', k, -⟩ := Props.C17_identity_value (K := ℝ) p.d
    rw [eI] at e'; cases e'; exact k
  set PN := N.X.block 0 (0 * (p.d + 1)) p.r (p.d + 1) with hPN
  have eW := setPose_ok hI zero_lt_one (B := Y.tr.mul PN) ⟨hY2, rfl⟩
  set W2 : PArr ℝ := { I with X := I.X.setBlock 0 (0 * (p.d + 1)) (Y.tr.mul PN) } with hW2
  have hW : ArrOk p.d p.d 1 W2 := arrOk_setBlock hI _ _ _
  have rW : rotM p.d p.d W2 0 = (Y.toMat p.r p.d)ᵀ * rotM p.r p.d N 0 := by
    rw [hW2, rotM_setPose (r := p.d) (d := p.d) I 0 0 ⟨hY2, rfl⟩, if_pos rfl,
      DMat.toMat_mul (k := p.r) hY1, DMat.toMat_tr]
    congr 1
    ext x y; simp [hPN, DMat.block, rotM]
  have tW : traV p.d p.d W2 0 = (Y.toMat p.r p.d)ᵀ *ᵥ traV p.r p.d N 0 := by
    rw [hW2, traV_setPose (r := p.d) (d := p.d) I 0 0 ⟨hY2, rfl⟩, if_pos rfl]
    ext x
    simp only [DMat.mul, DMat.tr, hY1, mulVec, dotProduct, DMat.toMat, Matrix.of_apply,
      Matrix.transpose_apply]
    rw [Finset.sum_range]
    simp [hPN, DMat.block, traV]
  have hYt : ∀ B : Matrix (Fin p.d) (Fin p.d) ℝ, (Y.toMat p.r p.d)ᵀ * (Y.toMat p.r p.d * B) = B := fun B => by
    rw [← Matrix.mul_assoc, show (Y.toMat p.r p.d)ᵀ * Y.toMat p.r p.d = 1 from hYo, Matrix.one_mul]
  have hYv : ∀ b : Fin p.d → ℝ, (Y.toMat p.r p.d)ᵀ *ᵥ (Y.toMat p.r p.d *ᵥ b) = b := fun b => by
    rw [mulVec_mulVec, show (Y.toMat p.r p.d)ᵀ * Y.toMat p.r p.d = 1 from hYo, one_mulVec]
  -- the rest, for either orientation
  have finish : ∀ (k : Nat) (F : PArr ℝ), k < a.graph.n → ArrOk p.d p.d 1 F →
      IsRot (rotM p.d p.d F 0) →
      rotM p.d p.d W2 0 * (rotM p.d p.d F 0)ᵀ = w.R ID k →
      rotM p.d p.d W2 0 *ᵥ (-((rotM p.d p.d F 0)ᵀ *ᵥ traV p.d p.d F 0)) + traV p.d p.d W2 0 = w.t ID k →
      ∃ M V F2 B V2 W R, T.poseAt k = ok M ∧ I.setData M = ok V ∧ F.inverse = ok F2 ∧
        W2.mul F2 = ok B ∧ V.inverse = ok V2 ∧ B.mul V2 = ok W ∧ W.rotationAt 0 = ok R ∧
        checkRotationMatrix R = ok () ∧ ArrOk p.d p.d 1 W ∧ rotM p.d p.d W 0 = S ∧
        traV p.d p.d W 0 = s := by
    intro k F hk hF rF e1 e2
    have eM := poseAt_ok hTok hk
    set M := T.X.block 0 (k * (p.d + 1)) p.d (p.d + 1) with hMd
    have eV := setData_ok hI (X := M) ⟨rfl, by show p.d + 1 = _; ring⟩
    set V : PArr ℝ := { I with X := M } with hVd
    have hV : ArrOk p.d p.d 1 V := ⟨hI.1, hI.2.1, hI.2.2.1, rfl, by show p.d + 1 = _; ring⟩
    have rV : rotM p.d p.d V 0 = rotM p.d p.d T k := by
      ext x y; simp [hVd, hMd, DMat.block, rotM]
    have tV : traV p.d p.d V 0 = traV p.d p.d T k := by
      ext x; simp [hVd, hMd, DMat.block, traV]
    have rT : rotM p.d p.d T k = Sᵀ * w.R ID k := by
      rw [hl.rot k hk, ← Matrix.mul_assoc, hl.rigid.1, Matrix.one_mul]
    have rigT : IsRot (rotM p.d p.d T k) := by
      rw [rT]; exact IsRot.transpose_mul hl.rigid (w.rigid ID k)
    obtain ⟨F2, f1, f2, f3, f4⟩ := Props.C17_inverse p.d F hF rF.1
    obtain ⟨B, b1, b2, b3, b4⟩ := Props.C17_mul p.d W2 F2 hW f2
    obtain ⟨V2, v1, v2, v3, v4⟩ := Props.C17_inverse p.d V hV (by rw [rV]; exact rigT.1)
    obtain ⟨W, c1, c2, c3, c4⟩ := Props.C17_mul p.d B V2 b2 v2
    refine ⟨M, V, F2, B, V2, W, _, eM, eV, f1, b1, v1, c1, rotationAt_ok c2 zero_lt_one, ?_, c2, ?_, ?_⟩
    · unfold checkRotationMatrix DMat.block
      simp
    · rw [c3, b3, f3, v3, rV, e1, hl.rot k hk, Matrix.mul_assoc, isRot_mul_transpose rigT, Matrix.mul_one]
    · rw [c4, b4, b3, f3, f4, v4, rV, tV, e1, e2, hl.rot k hk, hl.tra k hk, mulVec_neg, mulVec_mulVec,
        Matrix.mul_assoc, isRot_mul_transpose rigT, Matrix.mul_one, neg_add_cancel_left]
  unfold computeNeighborTransform
  simp only [hY, h.r, h.d, h.id, hN.1, hN.2.1, beq_self_eq_true, check_true, ok_bind, eI, eA, eD, eN,
    hY1, hT, eW, show PN.rows = p.r from rfl, require_true]
  by_cases c : m.r2 = ID
  · rw [if_pos c] at hNv
    have hne : m.r1 ≠ ID := by
      intro e
      simp [isShared, e, c] at hsh
    rw [if_neg hne] at hown
    obtain ⟨n1, n2⟩ := hNv
    obtain ⟨F, f1, f2, f3, f4⟩ := Props.C17_inverse p.d dT hD (by rw [rD]; exact rigD.1)
    rw [n1, hYt] at rW
    rw [n2, hYv] at tW
    have hc := isRot_mul_transpose (w.rigid m.r1 m.p1)
    have hD1 := isRot_mul_transpose rigD
    obtain ⟨M, V, F2, B, V2, W, R, k1, k2, k3, k4, k5, k6, k7, k8, k9, k10, k11⟩ := finish m.p2 F hown f2
      (by rw [f3, rD]; exact ⟨by rw [transpose_transpose]; exact hD1, by rw [det_transpose]; exact rigD.2⟩)
      (by rw [f3, rD, rW, transpose_transpose, ← Matrix.mul_assoc, hc, Matrix.one_mul, c])
      (by
        rw [f3, f4, rD, tD, rW, tW, transpose_transpose, mulVec_neg, mulVec_neg, mulVec_neg, neg_neg]
        rw [mulVec_mulVec (M := (w.R m.r1 m.p1)ᵀ * w.R m.r2 m.p2), hD1, one_mulVec, mulVec_mulVec, hc,
          one_mulVec, sub_add_cancel, c])
    refine ⟨W, ?_, k9, k10, k11⟩
    rw [if_pos c, u32_of_lt (by omega)]
    simp only [f1, ok_bind, k1, k2, k3, k4, k5, k6, k7, k8]
  · rw [if_neg c] at hNv
    have h1 : m.r1 = ID := htouch.resolve_right c
    rw [if_pos h1] at hown
    obtain ⟨n1, n2⟩ := hNv
    rw [n1, hYt] at rW
    rw [n2, hYv] at tW
    have hc := isRot_mul_transpose (w.rigid m.r2 m.p2)
    have hc1 := isRot_mul_transpose (w.rigid m.r1 m.p1)
    obtain ⟨M, V, F2, B, V2, W, R, k1, k2, k3, k4, k5, k6, k7, k8, k9, k10, k11⟩ := finish m.p1 dT hown hD
      (by rw [rD]; exact rigD)
      (by rw [rD, rW, Matrix.transpose_mul, transpose_transpose, ← Matrix.mul_assoc, hc, Matrix.one_mul, h1])
      (by
        rw [rD, tD, rW, tW, Matrix.transpose_mul, transpose_transpose, mulVec_neg]
        rw [mulVec_mulVec, mulVec_mulVec, Matrix.mul_assoc, Matrix.mul_assoc, hc1, Matrix.mul_one, hc,
          one_mulVec, neg_sub, sub_add_cancel, h1])
    refine ⟨W, ?_, k9, k10, k11⟩
    rw [if_neg c, u32_of_lt (by omega)]
    simp only [ok_bind, k1, k2, k3, k4, k5, k6, k7, k8]

/-- The measurement is one of those counted by `numUsable`. -/
def usable (ID nid : Nat) (dict : PoseDict ℝ) (m : Meas ℝ) : Bool :=
  (foreignPose ID m).robot == nid && (OMap.find? ltPoseID (foreignPose ID m) dict).isSome

theorem candidates_exact (h : AgInv ID p a) (hst : a.state ≠ .WAIT_FOR_DATA) {Y : DMat ℝ}
    (hY : a.YLift = some Y) (hYo : OrthoCols (Y.toMat p.r p.d)) {T : PArr ℝ} (hT : a.TLocalInit = some T)
    {w : Truth p.d} {S : Matrix (Fin p.d) (Fin p.d) ℝ} {s : Fin p.d → ℝ} (hl : w.Local ID a.graph.n S s T)
    {nid : Nat} (hnid : nid ≠ ID) {dict : PoseDict ℝ} (hd : w.Dict (Y.toMat p.r p.d) dict)
    (hx : ∀ m ∈ a.graph.sharedLoopClosuresWithRobot nid, w.Exact m) :
    ∃ Rs ts, a.candidates nid dict = ok (Rs, ts) ∧
      Rs.length = numUsable ID nid a.graph dict ∧ ts.length = Rs.length ∧
      (∀ A ∈ Rs, A.rows = p.d ∧ A.cols = p.d ∧ A.toMat p.d p.d = S) ∧
      ∀ t ∈ ts, t.rows = p.d ∧ t.cols = 1 ∧ colV p.d t = s := by
  obtain ⟨hid, -⟩ := h.dims
  obtain ⟨⟨log, hi⟩, -⟩ := PoseGraph.Reachable.inv h.reach
  have key : ∀ (ms : List (Meas ℝ)) (acc : List (DMat ℝ) × List (DMat ℝ)),
      (∀ m ∈ ms, m ∈ a.graph.sharedLcs ∧ w.Exact m ∧ (m.r1 = nid ∨ m.r2 = nid)) →
      acc.2.length = acc.1.length →
      (∀ A ∈ acc.1, A.rows = p.d ∧ A.cols = p.d ∧ A.toMat p.d p.d = S) →
      (∀ t ∈ acc.2, t.rows = p.d ∧ t.cols = 1 ∧ colV p.d t = s) →
      ∃ Rs ts, Res.foldl (a.candidateStep nid dict) acc ms = ok (Rs, ts) ∧
        Rs.length = acc.1.length + ms.countP (usable ID nid dict) ∧ ts.length = Rs.length ∧
        (∀ A ∈ Rs, A.rows = p.d ∧ A.cols = p.d ∧ A.toMat p.d p.d = S) ∧
        ∀ t ∈ ts, t.rows = p.d ∧ t.cols = 1 ∧ colV p.d t = s := by
    intro ms
    induction ms with
    | nil =>
      intro acc _ h1 h2 h3
      exact ⟨acc.1, acc.2, rfl, by simp, h1, h2, h3⟩
    | cons m ms ih =>
      intro acc hms h1 h2 h3
      obtain ⟨hm, hxm, hn⟩ := hms m (by simp)
      have hms' := fun m' h' => hms m' (List.mem_cons_of_mem _ h')
      have hm' := hm
      rw [hi.shared] at hm'
      obtain ⟨hml, hsh⟩ := List.mem_filter.1 hm'
      obtain ⟨w1, w2, w3, w4⟩ := hi.wf m hml
      have htouch := hi.touch m hml
      rw [hid] at htouch hsh
      simp only [touches, Bool.or_eq_true, beq_iff_eq] at htouch
      have hu : (⟨nid, if m.r1 = nid then u32 m.p1 else u32 m.p2⟩ : PoseID) =
          ⟨nid, if m.r1 = nid then m.p1 else m.p2⟩ := by
        rw [u32_of_lt (by omega), u32_of_lt (by omega)]
      have hfor : foreignPose ID m = ⟨nid, if m.r1 = nid then m.p1 else m.p2⟩ := by
        unfold foreignPose
        by_cases c : m.r1 = ID
        · have hne : m.r1 ≠ nid := fun e => hnid (e.symm.trans c)
          rw [if_pos c, if_neg hne, hn.resolve_left hne]
        · have h2 : m.r2 ≠ nid := fun e => hnid (e.symm.trans (htouch.resolve_left c))
          have h1 := hn.resolve_right h2
          rw [if_neg c, if_pos h1, h1]
      rw [foldl_cons]
      unfold candidateStep
      rw [hu]
      cases hf : OMap.find? ltPoseID ⟨nid, if m.r1 = nid then m.p1 else m.p2⟩ dict with
      | none =>
        have hus : usable ID nid dict m = false := by
          unfold usable; rw [hfor, hf]; simp
        rw [ok_bind', List.countP_cons_of_neg (by simp [hus])]
        exact ih acc hms' h1 h2 h3
      | some N =>
        have hus : usable ID nid dict m = true := by
          unfold usable; rw [hfor, hf]; simp
        obtain ⟨hN, hNv⟩ := hd _ (OMap.mem_of_find? strictTotal_ltPoseID hf)
        obtain ⟨W, e, hW, rW, tW⟩ := transform_exact h hst hY hYo hT hl hm hxm hN (by
          by_cases c : m.r2 = ID
          · rw [if_pos c]
            have : m.r1 = nid := hn.resolve_right (fun e => hnid (e.symm.trans c))
            simp only [if_pos this] at hNv
            rw [this]; exact hNv
          · rw [if_neg c]
            have h1' : m.r1 = ID := htouch.resolve_right c
            have hne : m.r1 ≠ nid := fun e => hnid (e.symm.trans h1')
            simp only [if_neg hne] at hNv
            rw [hn.resolve_left hne]; exact hNv)
        obtain ⟨⟨R, r1, r2, r3, r4⟩, ⟨t, t1, t2, t3, t4⟩, -⟩ := Props.C18_read p.d p.d 1 0 W hW zero_lt_one
        simp only [e, ok_bind, r1, t1, ok_bind']
        obtain ⟨Rs, ts, k1, k2, k3, k4, k5⟩ := ih (acc.1 ++ [R], acc.2 ++ [t]) hms' (by simp [h1])
          (fun A hA => by
            rcases List.mem_append.1 hA with hA | hA
            · exact h2 A hA
            · rw [List.mem_singleton.1 hA]; exact ⟨r2, r3, r4.trans rW⟩)
          (fun A hA => by
            rcases List.mem_append.1 hA with hA | hA
            · exact h3 A hA
            · rw [List.mem_singleton.1 hA]; exact ⟨t2, t3, t4.trans tW⟩)
        refine ⟨Rs, ts, k1, ?_, k3, k4, k5⟩
        rw [k2, List.countP_cons_of_pos hus]
        simp only [List.length_append, List.length_cons, List.length_nil]
        omega
  have hsub : ∀ m, m ∈ a.graph.sharedLoopClosuresWithRobot nid ↔
      m ∈ a.graph.sharedLcs ∧ (m.r1 = nid ∨ m.r2 = nid) := by
    intro m
    unfold PoseGraph.sharedLoopClosuresWithRobot
    rw [List.mem_filter]
    simp
  obtain ⟨Rs, ts, k1, k2, k3, k4, k5⟩ := key (a.graph.sharedLoopClosuresWithRobot nid) ([], [])
    (fun m hm => ⟨((hsub m).1 hm).1, hx m hm, ((hsub m).1 hm).2⟩) rfl (by simp) (by simp)
  refine ⟨Rs, ts, k1, ?_, k3, k4, k5⟩
  rw [k2]
  unfold PoseGraph.sharedLoopClosuresWithRobot numUsable
  rw [List.countP_filter]
  simp only [List.length_nil, Nat.zero_add]
  refine List.countP_congr fun m _ => ?_
  unfold usable foreignPose
  by_cases c : m.r1 = ID
  · rw [if_pos c]
    simp only [Bool.and_eq_true, Bool.or_eq_true, beq_iff_eq]
    exact ⟨fun x => x.1, fun x => ⟨x, Or.inr x.1⟩⟩
  · rw [if_neg c]
    simp only [Bool.and_eq_true, Bool.or_eq_true, beq_iff_eq]
    exact ⟨fun x => x.1, fun x => ⟨x, Or.inl x.1⟩⟩

theorem pickAll_ok {ts : List (DMat ℝ)} : ∀ {l : List Nat}, (∀ i ∈ l, i < ts.length) →
    ∃ us, pickAll ts l = ok us ∧ us.length = l.length ∧ ∀ u ∈ us, u ∈ ts
  | [], _ => ⟨[], rfl, rfl, by simp⟩
  | i :: l, h => by
    obtain ⟨us, e, h1, h2⟩ := pickAll_ok (ts := ts) (l := l) fun j hj => h j (by simp [hj])
    have hi := h i (by simp)
    refine ⟨ts[i] :: us, ?_, by simp [h1], fun u hu => ?_⟩
    · unfold pickAll
      rw [List.getElem?_eq_getElem hi]
      simp only [e, ok_bind]
    · rcases List.mem_cons.1 hu with rfl | hu
      · exact List.getElem_mem hi
      · exact h2 u hu

/-- Averaging equal translations. -/
theorem translation_equal {d : Nat} {ts : List (DMat ℝ)} (h0 : ts ≠ []) {s : Fin d → ℝ}
    (h : ∀ t ∈ ts, t.rows = d ∧ t.cols = 1 ∧ colV d t = s) :
    ∃ t, singleTranslationAveraging ts [] = ok t ∧ t.rows = d ∧ t.cols = 1 ∧ colV d t = s := by
  have hl := weightsOr_length 1 ts.length []
  have hpos : 0 < (weightsOr 1 ts.length []).sum := by
    rw [totalWeight_eq]
    have hlen : 0 < ts.length := List.length_pos_iff.2 h0
    unfold totalWeight weightAt
    have : ∀ i : Fin ts.length, (if (([] : List ℝ).length = ts.length) then
        (([] : List ℝ).getD i 0) else 1) = (1 : ℝ) := fun i => by
      rw [if_neg]; simp only [List.length_nil]; omega
    simp [List.length_nil, hlen.ne, hlen]
  obtain ⟨t, e, t1, t2, t3⟩ := translation_avg_ok h0 (d := d) (fun A hA => ⟨(h A hA).1, (h A hA).2.1⟩) []
    hpos.ne'
  refine ⟨t, e, t1, t2, ?_⟩
  set q : Matrix (Fin d) (Fin 1) ℝ := Matrix.of fun i _ => s i
  have hq : ∀ a ∈ ts, a.toMat d 1 = q := by
    intro a ha
    ext i j
    have := congrFun (h a ha).2.2 i
    simp only [colV] at this
    rw [Subsingleton.elim j 0]
    simpa [q] using this
  have htq : t.toMat d 1 = q := by
    rw [t3, wsum_const (R := q) _ (fun p hp =>
      hq _ (List.of_mem_zip (a := p.1) (b := p.2) hp).2), map_fst_zip hl,
      smul_smul, one_div_mul_cancel hpos.ne', one_smul]
  ext i
  have := congrFun (congrFun htq i) 0
  simpa [q, colV] using this

/-- The robust transform from exact measurements. -/
theorem twoStage_exact (h : AgInv ID p a) (hst : a.state ≠ .WAIT_FOR_DATA) (hsvd : LawfulSvd o.svd)
    {Y : DMat ℝ} (hY : a.YLift = some Y) (hYo : OrthoCols (Y.toMat p.r p.d)) {T : PArr ℝ}
    (hT : a.TLocalInit = some T) {w : Truth p.d} {S : Matrix (Fin p.d) (Fin p.d) ℝ} {s : Fin p.d → ℝ}
    (hl : w.Local ID a.graph.n S s T) {nid : Nat} (hnid : nid ≠ ID) {dict : PoseDict ℝ}
    (hd : w.Dict (Y.toMat p.r p.d) dict)
    (hx : ∀ m ∈ a.graph.sharedLoopClosuresWithRobot nid, w.Exact m) :
    if numUsable ID nid a.graph dict = 0 ∨
        numUsable ID nid a.graph dict < p.minInliers then
      a.computeRobustNeighborTransformTwoStage o nid dict = ok none
    else ∃ W, a.computeRobustNeighborTransformTwoStage o nid dict = ok (some W) ∧ ArrOk p.d p.d 1 W ∧
      rotM p.d p.d W 0 = S ∧ traV p.d p.d W 0 = s := by
  obtain ⟨hid, -, hd1, -⟩ := h.dims
  obtain ⟨Rs, ts, e, hlen, hlt, hR, ht⟩ := candidates_exact h hst hY hYo hT hl hnid hd hx
  rw [← hlen]
  unfold computeRobustNeighborTransformTwoStage dimension
  rw [e, h.params, hd1]
  simp only [ok_bind]
  by_cases h0 : Rs = []
  · rw [h0]; simp
  · have hp : 0 < Rs.length := List.length_pos_iff.2 h0
    have hne : Rs.isEmpty = false := by simpa using h0
    have hang : 0 < angular2ChordalSO3 (1 / 2) := by
      have := Props.C61_monotone 0 (1 / 2) (le_refl _) (by have := Real.two_le_pi; linarith) (by norm_num)
      unfold angular2ChordalSO3 at this ⊢
      simpa using this
    obtain ⟨R, eR, r1, r2, r3⟩ := Props.C26_rotation hsvd h0 (fun A hA => ⟨(hR A hA).1, (hR A hA).2.1⟩)
      hl.rigid (fun A hA => (hR A hA).2.2) (kappa := List.replicate Rs.length 1)
      (by
        rw [← totalWeight_eq, weightsOr_self 1 (by simp)]
        simpa using hp) hang
    rw [hne, eR]
    simp only [ok_bind, List.length_range, Bool.false_eq_true, if_false]
    by_cases hmin : Rs.length < p.minInliers
    · rw [if_pos (Or.inr hmin), if_pos hmin]
    · rw [if_neg (by omega), if_neg hmin]
      obtain ⟨us, eu, u1, u2⟩ := pickAll_ok (ts := ts) (l := List.range Rs.length) (fun i hi => by
        rw [hlt]; exact List.mem_range.1 hi)
      have hus : us ≠ [] := by
        intro c; rw [c] at u1; simp at u1; omega
      obtain ⟨t, et, t1, t2, t3⟩ := translation_equal (d := p.d) hus (s := s) fun t h' => ht t (u2 t h')
      obtain ⟨I, A, P, eI, eA, eP, hP, rP, tP⟩ := pose_write (d := p.d) ⟨r1, r2⟩ ⟨t1, t2⟩
      refine ⟨P, ?_, hP, rP.trans r3, tP.trans t3⟩
      simp only [eu, ok_bind, et, eI, eA, eP]

end Agent

end

end Dpgo
