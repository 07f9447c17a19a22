import Verif.Lemmas.AgentFrames
import Verif.Lemmas.AgentMember
import Verif.Spec.LocalInit

/-! # C48, C49: trajectories in the local frame and in the frame of the anchor -/

namespace Dpgo.Props

open Res Spec PoseGraph Matrix

variable {o : AgentOracles} {ID : Nat} {p : AgentParams} {a : Agent}

/-! ### C48 -/

/-- **C48** (part of the claim that holds): the trajectory in the local frame starts at the identity, and
every rotation is a nearest one to the rotation of the estimate seen from its first pose. -/
theorem C48_first_partial (ha : AgReach o ID p a) (hs : a.state = .INITIALIZED)
    (hsvd : LawfulSvd o.svd) (h0 : OrthoCols (rotM p.r p.d a.X 0)) :
    ∃ M, a.getTrajectoryInLocalFrame o = ok (some M) ∧
      ArrOk p.d p.d a.graph.n (asPoses p.d a.graph.n M) ∧
      rotM p.d p.d (asPoses p.d a.graph.n M) 0 = 1 ∧ traV p.d p.d (asPoses p.d a.graph.n M) 0 = 0 ∧
      ∀ i < a.graph.n, NearestRot (seenRot (rotM p.r p.d a.X 0) a.X i)
        (rotM p.d p.d (asPoses p.d a.graph.n M) i) := by
  have h := agReach_inv ha
  obtain ⟨hn, -⟩ := h.data (by rw [hs]; simp)
  obtain ⟨M, e, hM, hv⟩ := Agent.localFrame_ok (o := o) h hs
  refine ⟨M, e, hM, ?_, by rw [(hv 0 hn).2, if_pos rfl], fun i hi => ?_⟩
  · rw [(hv 0 hn).1]
    unfold seenRot
    rw [h0]
    exact rotProj_self hsvd isRot_one
  · rw [(hv i hi).1]
    exact rotProj_spec (hsvd p.d p.d _ (le_refl _))

/-- **C48** (part of the claim that holds).  If the estimate consists of rigid poses and its first
translation vanishes in the frame of the first pose (or there is one pose only), the result has the
relative poses of the estimate.  Missing: estimates that do not start at the origin, see
`C48_wrong` and `C48_violated`. -/
theorem C48_relative_partial (ha : AgReach o ID p a) (hs : a.state = .INITIALIZED)
    (hsvd : LawfulSvd o.svd) {Y : Matrix (Fin p.r) (Fin p.d) ℝ} {s : Fin p.r → ℝ} {T : PArr ℝ}
    (hT : Embeds p.r p.d a.graph.n Y s T a.X)
    (h0 : a.graph.n = 1 ∨ (rotM p.r p.d a.X 0)ᵀ *ᵥ traV p.r p.d a.X 0 = 0) :
    ∃ M, a.getTrajectoryInLocalFrame o = ok (some M) ∧
      SameRelative p.d a.graph.n (asPoses p.d a.graph.n M) T := by
  have h := agReach_inv ha
  obtain ⟨hn, -⟩ := h.data (by rw [hs]; simp)
  obtain ⟨M, e, hM, hv⟩ := Agent.localFrame_ok (o := o) h hs
  refine ⟨M, e, ?_⟩
  have hrot : ∀ i < a.graph.n, rotM p.d p.d (asPoses p.d a.graph.n M) i =
      (rotM p.d p.d T 0)ᵀ * rotM p.d p.d T i := by
    intro i hi
    have hs : seenRot (rotM p.r p.d a.X 0) a.X i = (rotM p.d p.d T 0)ᵀ * rotM p.d p.d T i := by
      unfold seenRot
      rw [hT.rot 0 hn, hT.rot i hi, transpose_mul, Matrix.mul_assoc, ← Matrix.mul_assoc Yᵀ,
        show Yᵀ * Y = 1 from hT.ortho, Matrix.one_mul]
    rw [(hv i hi).1, hs]
    refine rotProj_self hsvd ⟨?_, ?_⟩
    · rw [transpose_mul, transpose_transpose, Matrix.mul_assoc, ← Matrix.mul_assoc (rotM p.d p.d T 0),
        mul_eq_one_comm.1 (hT.rigid 0 hn).1, Matrix.one_mul, (hT.rigid i hi).1]
    · rw [det_mul, det_transpose, (hT.rigid 0 hn).2, (hT.rigid i hi).2, mul_one]
  have htra : ∀ i < a.graph.n, traV p.d p.d (asPoses p.d a.graph.n M) i =
      (rotM p.d p.d T 0)ᵀ *ᵥ (traV p.d p.d T i - traV p.d p.d T 0) := by
    intro i hi
    rw [(hv i hi).2]
    by_cases hi0 : i = 0
    · rw [if_pos hi0, hi0, sub_self, mulVec_zero]
    · rw [if_neg hi0]
      have h0 := h0.resolve_left (by omega)
      have : (rotM p.r p.d a.X 0)ᵀ *ᵥ traV p.r p.d a.X i =
          (rotM p.r p.d a.X 0)ᵀ *ᵥ (traV p.r p.d a.X i - traV p.r p.d a.X 0) := by
        rw [mulVec_sub, h0, sub_zero]
      rw [this, hT.rot 0 hn, hT.tra 0 hn, hT.tra i hi, add_sub_add_right_eq_sub, ← mulVec_sub,
        transpose_mul, mulVec_mulVec, Matrix.mul_assoc, show Yᵀ * Y = 1 from hT.ortho, Matrix.mul_one]
  have hinv : ∀ i < a.graph.n, (rotM p.d p.d T i)⁻¹ = (rotM p.d p.d T i)ᵀ := fun i hi =>
    inv_eq_left_inv (hT.rigid i hi).1
  intro i hi j hj
  have hc := mul_eq_one_comm.1 (hT.rigid 0 hn).1
  have hM1 : (rotM p.d p.d (asPoses p.d a.graph.n M) i)⁻¹ = (rotM p.d p.d T i)ᵀ * rotM p.d p.d T 0 := by
    refine inv_eq_left_inv ?_
    rw [hrot i hi, Matrix.mul_assoc, ← Matrix.mul_assoc (rotM p.d p.d T 0), hc, Matrix.one_mul,
      (hT.rigid i hi).1]
  rw [hM1, hinv i hi, hrot j hj, htra i hi, htra j hj]
  constructor
  · rw [Matrix.mul_assoc, ← Matrix.mul_assoc (rotM p.d p.d T 0), hc, Matrix.one_mul]
  · rw [← mulVec_sub, mulVec_mulVec, Matrix.mul_assoc, hc, Matrix.mul_one, sub_sub_sub_cancel_right]

/-- **C48** (general violation).  The returned translation of every pose but the first is that of the
estimate seen from the first pose if and only if the first translation vanishes in that frame. -/
theorem C48_wrong (ha : AgReach o ID p a) (hs : a.state = .INITIALIZED) {i : Nat} (hi : i < a.graph.n)
    (h0 : 0 < i) : ∃ M, a.getTrajectoryInLocalFrame o = ok (some M) ∧
      (traV p.d p.d (asPoses p.d a.graph.n M) i =
          seenTra (rotM p.r p.d a.X 0) (traV p.r p.d a.X 0) a.X i ↔
        (rotM p.r p.d a.X 0)ᵀ *ᵥ traV p.r p.d a.X 0 = 0) := by
  obtain ⟨M, e, hM, hv⟩ := Agent.localFrame_ok (o := o) (agReach_inv ha) hs
  refine ⟨M, e, ?_⟩
  rw [(hv i hi).2, if_neg (by omega)]
  unfold seenTra
  rw [mulVec_sub, eq_comm, sub_eq_self]

/-- Two equal poses at the point `(c, 0)`. -/
noncomputable def exAway (c : ℝ) : PArr ℝ :=
  ⟨2, 2, 2, ⟨2, 6, fun i j => if j % 3 = i then 1 else if j % 3 = 2 ∧ i = 0 then c else 0⟩⟩

/-- The same, embedded in three dimensions. -/
noncomputable def exAway3 (c : ℝ) : DMat ℝ :=
  ⟨3, 6, fun i j => if i = 2 then 0 else if j % 3 = i then 1 else if j % 3 = 2 ∧ i = 0 then c else 0⟩

theorem exAway_rot (c : ℝ) {i : Nat} (hi : i < 2) : rotM 2 2 (exAway c) i = 1 := by
  ext x y
  rcases (show i = 0 ∨ i = 1 by omega) with rfl | rfl <;> fin_cases x <;> fin_cases y <;>
    simp [rotM, exAway]

theorem exAway_tra (c : ℝ) {i : Nat} (hi : i < 2) : traV 2 2 (exAway c) i = ![c, 0] := by
  ext x
  rcases (show i = 0 ∨ i = 1 by omega) with rfl | rfl <;> fin_cases x <;> simp [traV, exAway]

/-- The embedding of the plane in three dimensions. -/
noncomputable def exPlane : Matrix (Fin 3) (Fin 2) ℝ := !![1, 0; 0, 1; 0, 0]

theorem exPlane_ortho : OrthoCols exPlane := by
  unfold OrthoCols
  ext x y
  fin_cases x <;> fin_cases y <;> simp [exPlane, Matrix.mul_apply, Fin.sum_univ_three]

theorem exAway_embeds (c : ℝ) {X : PArr ℝ} (hX : X.X = exAway3 c) :
    Embeds 3 2 2 exPlane 0 (exAway c) X := by
  refine ⟨exPlane_ortho, fun i hi => ?_, fun i hi => ?_, fun i hi => ?_⟩
  · rw [exAway_rot c hi]; exact isRot_one
  · rw [exAway_rot c hi, Matrix.mul_one]
    ext x y
    rcases (show i = 0 ∨ i = 1 by omega) with rfl | rfl <;> fin_cases x <;> fin_cases y <;>
      simp [rotM, hX, exAway3, exPlane]
  · rw [exAway_tra c hi, add_zero]
    ext x
    rcases (show i = 0 ∨ i = 1 by omega) with rfl | rfl <;> fin_cases x <;>
      simp [traV, hX, exAway3, exPlane, mulVec, dotProduct]

/-- A robot whose estimate is two equal poses at `(c, 0)`. -/
theorem exAway_reach (c : ℝ) : ∃ a : Agent, AgReach exOracle 0 exParams a ∧ a.state = .INITIALIZED ∧
    a.graph.n = 2 ∧ Embeds 3 2 2 exPlane 0 (exAway c) a.X := by
  obtain ⟨a, ha, hs, hG, -⟩ := exInit exParams rfl rfl (fun h => by cases h)
  have h := agReach_inv ha
  obtain ⟨b, e, h1, h2, h3, -⟩ := Agent.setX_ok (M := exAway3 c) h (by rw [hs]; simp) rfl
    (by rw [hG.n]; rfl)
  exact ⟨b, agReach_snoc (op := .setX (exAway3 c)) ha trivial e, h1, by rw [h3]; exact hG.n,
    exAway_embeds c (by rw [h2])⟩

/-- Non-vacuity of `C48_first_partial` and `C48_relative_partial`. -/
example : ∃ a : Agent, AgReach exOracle 0 exParams a ∧ a.graph.n = 2 ∧
    ∃ M, a.getTrajectoryInLocalFrame exOracle = ok (some M) ∧
      SameRelative 2 2 (asPoses 2 2 M) (exAway 0) := by
  obtain ⟨a, ha, hs, hn, he⟩ := exAway_reach 0
  obtain ⟨M, e, h⟩ := C48_relative_partial ha hs exists_lawfulSvd.choose_spec
    (by rw [hn]; exact he) (Or.inr (by
      have h0 : traV 3 2 a.X 0 = 0 := by
        rw [he.tra 0 (by omega), exAway_tra 0 (by omega), add_zero]
        ext x; fin_cases x <;> simp [mulVec, dotProduct, exPlane]
      show (rotM 3 2 a.X 0)ᵀ *ᵥ traV 3 2 a.X 0 = 0
      rw [h0, mulVec_zero]))
  rw [hn] at h
  exact ⟨a, ha, hn, M, e, h⟩

example : ∃ a : Agent, AgReach exOracle 0 exParams a ∧ ∃ M,
    a.getTrajectoryInLocalFrame exOracle = ok (some M) ∧ rotM 2 2 (asPoses 2 a.graph.n M) 0 = 1 := by
  obtain ⟨a, ha, hs, hn, he⟩ := exAway_reach 5
  obtain ⟨M, e, -, h, -⟩ := C48_first_partial ha hs exists_lawfulSvd.choose_spec (by
    show OrthoCols (rotM 3 2 a.X 0)
    rw [he.rot 0 (by omega), exAway_rot 5 (by omega), Matrix.mul_one]
    exact exPlane_ortho)
  exact ⟨a, ha, M, e, h⟩

/-- **C48** (violated).  A robot whose estimate is two equal poses at the point `(1, 0)`: the returned
trajectory has its second pose at distance one from the first. -/
theorem C48_violated : ∃ a : Agent, AgReach exOracle 0 exParams a ∧ a.state = .INITIALIZED ∧
    a.graph.n = 2 ∧ Embeds 3 2 2 exPlane 0 (exAway 1) a.X ∧
    ∃ M, a.getTrajectoryInLocalFrame exOracle = ok (some M) ∧ traV 2 2 (asPoses 2 2 M) 0 = 0 ∧
      traV 2 2 (asPoses 2 2 M) 1 = ![1, 0] ∧ ¬ SameRelative 2 2 (asPoses 2 2 M) (exAway 1) := by
  obtain ⟨a, ha, hs, hn, he⟩ := exAway_reach 1
  obtain ⟨M, e, hM, hv⟩ := Agent.localFrame_ok (o := exOracle) (agReach_inv ha) hs
  rw [hn] at hv
  have hR : rotM 3 2 a.X 0 = exPlane := by
    rw [he.rot 0 (by omega), exAway_rot 1 (by omega), Matrix.mul_one]
  have k0 : traV 2 2 (asPoses 2 2 M) 0 = 0 := (hv 0 (by omega)).2.trans (if_pos rfl)
  have k1 : traV 2 2 (asPoses 2 2 M) 1 = ![1, 0] := by
    refine ((hv 1 (by omega)).2.trans (if_neg (by omega))).trans ?_
    show (rotM 3 2 a.X 0)ᵀ *ᵥ traV 3 2 a.X 1 = _
    rw [hR, he.tra 1 (by omega), exAway_tra 1 (by omega), add_zero, mulVec_mulVec,
      show exPlaneᵀ * exPlane = 1 from exPlane_ortho, one_mulVec]
  refine ⟨a, ha, hs, hn, he, M, e, k0, k1, fun h => ?_⟩
  obtain ⟨-, h⟩ := h 0 (by omega) 1 (by omega)
  have r0 : rotM 2 2 (asPoses 2 2 M) 0 = 1 := by
    refine (hv 0 (by omega)).1.trans ?_
    show rotProj (exOracle.svd 2 2 (seenRot (rotM 3 2 a.X 0) a.X 0)) = 1
    unfold seenRot
    rw [hR, show exPlaneᵀ * exPlane = 1 from exPlane_ortho]
    exact rotProj_self exists_lawfulSvd.choose_spec isRot_one
  rw [k0, k1, r0, exAway_rot 1 (by omega), exAway_tra 1 (by omega), exAway_tra 1 (by omega)] at h
  have := congrFun h 0
  simp at this

/-! ### C49 -/

/-- **C49.** With the anchor at pose `k` of the estimate, pose `k` is the identity, in both queries. -/
theorem C49_anchor (ha : AgReach o ID p a) (hs : a.state = .INITIALIZED) (hsvd : LawfulSvd o.svd)
    {Xa : PArr ℝ} (hX : a.globalAnchor = some Xa) {k : Nat} (hk : k < a.graph.n)
    (h1 : rotM p.r p.d Xa 0 = rotM p.r p.d a.X k) (h2 : traV p.r p.d Xa 0 = traV p.r p.d a.X k)
    (h3 : OrthoCols (rotM p.r p.d a.X k)) :
    (∃ M, a.getPoseInGlobalFrame k = ok (some M) ∧ ArrOk p.d p.d 1 (asPoses p.d 1 M) ∧
      rotM p.d p.d (asPoses p.d 1 M) 0 = 1 ∧ traV p.d p.d (asPoses p.d 1 M) 0 = 0) ∧
    ∃ M, a.getTrajectoryInGlobalFrame o = ok (some M) ∧
      ArrOk p.d p.d a.graph.n (asPoses p.d a.graph.n M) ∧
      rotM p.d p.d (asPoses p.d a.graph.n M) k = 1 ∧ traV p.d p.d (asPoses p.d a.graph.n M) k = 0 := by
  have h := agReach_inv ha
  obtain ⟨M, e, hM, v1, v2⟩ := Agent.poseInGlobal_ok h hs hX hk
  obtain ⟨N, f, hN, w⟩ := Agent.globalFrame_ok (o := o) h hs hX
  obtain ⟨w1, w2⟩ := w k hk
  have e1 : seenRot (rotM p.r p.d Xa 0) a.X k = 1 := by
    unfold seenRot
    rw [h1]
    exact h3
  have e2 : seenTra (rotM p.r p.d Xa 0) (traV p.r p.d Xa 0) a.X k = 0 := by
    unfold seenTra
    rw [h2, sub_self, mulVec_zero]
  rw [e1] at v1 w1
  rw [e2] at v2 w2
  exact ⟨⟨M, e, hM, v1, v2⟩, N, f, hN, w1.trans (rotProj_self hsvd isRot_one), w2⟩

/-- **C49.** Passing a shared pose of the robot to `setGlobalAnchor` puts the anchor at that pose. -/
theorem C49_set (ha : AgReach o ID p a) (hs : a.state = .INITIALIZED) {k : Nat} (hk : k < a.graph.n) :
    ∃ M Xa, a.getSharedPose k = ok (some M) ∧
      a.setGlobalAnchor M = ok { a with globalAnchor := some Xa } ∧
      rotM p.r p.d Xa 0 = rotM p.r p.d a.X k ∧ traV p.r p.d Xa 0 = traV p.r p.d a.X k := by
  have h := agReach_inv ha
  obtain ⟨-, -, hX⟩ := h.data (by rw [hs]; simp)
  obtain ⟨-, -, M, e, m1, m2, m3, m4⟩ := C18_read p.r p.d a.graph.n k a.X hX hk
  obtain ⟨Xa, e', -, x1, x2⟩ := Agent.setGlobalAnchor_ok h m1 m2
  refine ⟨M, Xa, ?_, e', x1.trans m3, x2.trans m4⟩
  unfold Agent.getSharedPose Agent.sharedPoseOf Agent.numPoses
  rw [if_neg (by simp [hs]), if_neg (by omega), e]
  rfl

/-- **C49.** The two queries agree on every translation; each rotation of the trajectory is a nearest
rotation to the block returned for the single pose, and equal to it if that is a rotation. -/
theorem C49_agree (ha : AgReach o ID p a) (hs : a.state = .INITIALIZED) (hsvd : LawfulSvd o.svd)
    {Xa : PArr ℝ} (hX : a.globalAnchor = some Xa) :
    ∃ M, a.getTrajectoryInGlobalFrame o = ok (some M) ∧
      ∀ i < a.graph.n, ∃ N, a.getPoseInGlobalFrame i = ok (some N) ∧
        traV p.d p.d (asPoses p.d a.graph.n M) i = traV p.d p.d (asPoses p.d 1 N) 0 ∧
        NearestRot (rotM p.d p.d (asPoses p.d 1 N) 0) (rotM p.d p.d (asPoses p.d a.graph.n M) i) ∧
        (IsRot (rotM p.d p.d (asPoses p.d 1 N) 0) →
          rotM p.d p.d (asPoses p.d a.graph.n M) i = rotM p.d p.d (asPoses p.d 1 N) 0) := by
  have h := agReach_inv ha
  obtain ⟨M, f, hM, w⟩ := Agent.globalFrame_ok (o := o) h hs hX
  refine ⟨M, f, fun i hi => ?_⟩
  obtain ⟨N, e, hN, v1, v2⟩ := Agent.poseInGlobal_ok h hs hX hi
  obtain ⟨w1, w2⟩ := w i hi
  refine ⟨N, e, by rw [w2, v2], ?_, fun hR => ?_⟩
  · rw [w1, v1]
    exact rotProj_spec (hsvd p.d p.d _ (le_refl _))
  · rw [w1, ← v1]
    exact rotProj_self hsvd hR

/-- **C49.** A robot with the same anchor that holds the pose sees it where its owner does. -/
theorem C49_neighbor {b : Agent} {o' : AgentOracles} {ID' : Nat} {p' : AgentParams}
    (ha : AgReach o ID p a) (hb : AgReach o' ID' p' b) (hd : p'.d = p.d) (hr : p'.r = p.r)
    (hs : a.state = .INITIALIZED) (hsb : b.state = .INITIALIZED) {Xa Xb N : PArr ℝ}
    (hXa : a.globalAnchor = some Xa) (hXb : b.globalAnchor = some Xb)
    (h1 : rotM p.r p.d Xa 0 = rotM p.r p.d Xb 0) (h2 : traV p.r p.d Xa 0 = traV p.r p.d Xb 0)
    {i : Nat} (hi : i < b.graph.n)
    (hN : OMap.find? ltPoseID (PoseID.make ID' i) a.neighborPoses = some N)
    (h3 : rotM p.r p.d N 0 = rotM p.r p.d b.X i) (h4 : traV p.r p.d N 0 = traV p.r p.d b.X i) :
    ∃ M M', a.getNeighborPoseInGlobalFrame ID' i = ok (some M) ∧
      b.getPoseInGlobalFrame i = ok (some M') ∧ SamePose p.d (asPoses p.d 1 M) (asPoses p.d 1 M') := by
  obtain ⟨M, e, -, v1, v2⟩ := Agent.neighborInGlobal_ok (agReach_inv ha) hs hXa hN
  obtain ⟨M', e', -, w1, w2⟩ := Agent.poseInGlobal_ok (agReach_inv hb) hsb hXb hi
  rw [hr, hd] at w1 w2
  refine ⟨M, M', e, e', ?_, ?_⟩
  · rw [v1, w1, h1]
    unfold seenRot
    rw [h3]
  · rw [v2, w2, h1, h2]
    unfold seenTra
    rw [h4]

/-- **C49.** Moving the estimate and the anchor by one orthogonal transformation and one translation
changes no result. -/
theorem C49_invariant {b : Agent} {ID' : Nat} (ha : AgReach o ID p a) (hb : AgReach o ID' p b)
    (hs : a.state = .INITIALIZED) (hsb : b.state = .INITIALIZED) (hn : b.graph.n = a.graph.n)
    {Xa Xb : PArr ℝ} (hXa : a.globalAnchor = some Xa) (hXb : b.globalAnchor = some Xb)
    {O : Matrix (Fin p.r) (Fin p.r) ℝ} {s : Fin p.r → ℝ} (hO : Oᵀ * O = 1)
    (h1 : Moved p.r p.d a.graph.n O s a.X b.X) (h2 : Moved p.r p.d 1 O s Xa Xb) :
    (∃ M M', a.getTrajectoryInGlobalFrame o = ok (some M) ∧
      b.getTrajectoryInGlobalFrame o = ok (some M') ∧ ∀ i < a.graph.n,
        rotM p.d p.d (asPoses p.d a.graph.n M) i = rotM p.d p.d (asPoses p.d a.graph.n M') i ∧
        traV p.d p.d (asPoses p.d a.graph.n M) i = traV p.d p.d (asPoses p.d a.graph.n M') i) ∧
    ∀ i < a.graph.n, ∃ M M', a.getPoseInGlobalFrame i = ok (some M) ∧
      b.getPoseInGlobalFrame i = ok (some M') ∧ SamePose p.d (asPoses p.d 1 M) (asPoses p.d 1 M') := by
  have k1 : ∀ i < a.graph.n, seenRot (rotM p.r p.d Xb 0) b.X i = seenRot (rotM p.r p.d Xa 0) a.X i := by
    intro i hi
    unfold seenRot
    rw [(h1 i hi).1, (h2 0 zero_lt_one).1, transpose_mul, Matrix.mul_assoc, ← Matrix.mul_assoc Oᵀ, hO,
      Matrix.one_mul]
  have k2 : ∀ i < a.graph.n, seenTra (rotM p.r p.d Xb 0) (traV p.r p.d Xb 0) b.X i =
      seenTra (rotM p.r p.d Xa 0) (traV p.r p.d Xa 0) a.X i := by
    intro i hi
    unfold seenTra
    rw [(h1 i hi).2, (h2 0 zero_lt_one).1, (h2 0 zero_lt_one).2, add_sub_add_right_eq_sub,
      ← mulVec_sub, transpose_mul, mulVec_mulVec, Matrix.mul_assoc, hO, Matrix.mul_one]
  have iA := agReach_inv ha
  have iB := agReach_inv hb
  constructor
  · obtain ⟨M, e, -, v⟩ := Agent.globalFrame_ok (o := o) iA hs hXa
    obtain ⟨M', e', -, v'⟩ := Agent.globalFrame_ok (o := o) iB hsb hXb
    rw [hn] at v'
    refine ⟨M, M', e, e', fun i hi => ?_⟩
    rw [(v i hi).1, (v i hi).2, (v' i hi).1, (v' i hi).2, k1 i hi, k2 i hi]
    exact ⟨rfl, rfl⟩
  · intro i hi
    obtain ⟨M, e, -, v1, v2⟩ := Agent.poseInGlobal_ok iA hs hXa hi
    obtain ⟨M', e', -, w1, w2⟩ := Agent.poseInGlobal_ok iB hsb hXb (by rw [hn]; exact hi)
    refine ⟨M, M', e, e', ?_, ?_⟩
    · rw [v1, w1, k1 i hi]
    · rw [v2, w2, k2 i hi]

/-- A robot at `(c, 0)` with the anchor at its second pose. -/
theorem exAnchored (c : ℝ) : ∃ (a : Agent) (Xa : PArr ℝ), AgReach exOracle 0 exParams a ∧
    a.state = .INITIALIZED ∧ a.graph.n = 2 ∧ Embeds 3 2 2 exPlane 0 (exAway c) a.X ∧
    a.globalAnchor = some Xa ∧ rotM 3 2 Xa 0 = rotM 3 2 a.X 1 ∧ traV 3 2 Xa 0 = traV 3 2 a.X 1 := by
  obtain ⟨a, ha, hs, hn, he⟩ := exAway_reach c
  obtain ⟨M, Xa, -, e, h1, h2⟩ := C49_set ha hs (k := 1) (by rw [hn]; omega)
  exact ⟨_, Xa, agReach_snoc (op := .setGlobalAnchor M) ha trivial e, hs, hn, he, rfl, h1, h2⟩

/-- Non-vacuity of `C49_anchor`, `C49_set` and `C49_agree`. -/
example : ∃ a : Agent, AgReach exOracle 0 exParams a ∧ ∃ M N,
    a.getPoseInGlobalFrame 1 = ok (some M) ∧ rotM 2 2 (asPoses 2 1 M) 0 = 1 ∧
    a.getTrajectoryInGlobalFrame exOracle = ok (some N) ∧ ∃ P, a.getPoseInGlobalFrame 0 = ok (some P) ∧
      traV 2 2 (asPoses 2 a.graph.n N) 0 = traV 2 2 (asPoses 2 1 P) 0 := by
  obtain ⟨a, Xa, ha, hs, hn, he, h1, h2, h3⟩ := exAnchored 5
  obtain ⟨⟨M, e, -, k1, -⟩, -⟩ := C49_anchor ha hs exists_lawfulSvd.choose_spec h1
    (k := 1) (by rw [hn]; omega) h2 h3 (by
      show OrthoCols (rotM 3 2 a.X 1)
      rw [he.rot 1 (by omega), exAway_rot 5 (by omega), Matrix.mul_one]
      exact exPlane_ortho)
  obtain ⟨N, f, hN⟩ := C49_agree ha hs exists_lawfulSvd.choose_spec h1
  obtain ⟨P, hP, hP1, -⟩ := hN 0 (by rw [hn]; omega)
  exact ⟨a, ha, M, N, e, k1, f, P, hP, hP1⟩

/-- Non-vacuity of `C49_invariant`: the same robot at the origin and at `(7, 0)`. -/
example : ∃ a b : Agent, AgReach exOracle 0 exParams a ∧ AgReach exOracle 0 exParams b ∧
    ∃ M M', a.getPoseInGlobalFrame 0 = ok (some M) ∧ b.getPoseInGlobalFrame 0 = ok (some M') ∧
      SamePose 2 (asPoses 2 1 M) (asPoses 2 1 M') := by
  obtain ⟨a, Xa, ha, hs, hn, he, h1, h2, h3⟩ := exAnchored 0
  obtain ⟨b, Xb, hb, hsb, hnb, heb, g1, g2, g3⟩ := exAnchored 7
  have hm : ∀ i < 2, rotM 3 2 b.X i = (1 : Matrix (Fin 3) (Fin 3) ℝ) * rotM 3 2 a.X i ∧
      traV 3 2 b.X i = (1 : Matrix (Fin 3) (Fin 3) ℝ) *ᵥ traV 3 2 a.X i + ![7, 0, 0] := by
    intro i hi
    rw [he.rot i hi, heb.rot i hi, he.tra i hi, heb.tra i hi, exAway_rot _ hi, exAway_rot _ hi,
      exAway_tra _ hi, exAway_tra _ hi]
    refine ⟨by rw [Matrix.one_mul], ?_⟩
    ext x
    fin_cases x <;> simp [exPlane]
  obtain ⟨-, h⟩ := C49_invariant (O := (1 : Matrix (Fin 3) (Fin 3) ℝ)) (s := ![7, 0, 0]) ha hb hs hsb (hnb.trans hn.symm) h1 g1
    (show (1 : Matrix (Fin 3) (Fin 3) ℝ)ᵀ * (1 : Matrix (Fin 3) (Fin 3) ℝ) = 1 by simp) (by rw [hn]; exact hm) (fun i hi => by
      obtain rfl : i = 0 := by omega
      show rotM 3 2 Xb 0 = (1 : Matrix (Fin 3) (Fin 3) ℝ) * rotM 3 2 Xa 0 ∧
        traV 3 2 Xb 0 = (1 : Matrix (Fin 3) (Fin 3) ℝ) *ᵥ traV 3 2 Xa 0 + ![7, 0, 0]
      rw [h2, h3, g2, g3]
      exact hm 1 (by omega))
  obtain ⟨M, M', e, e', k⟩ := h 0 (by rw [hn]; omega)
  exact ⟨a, b, ha, hb, M, M', e, e', k⟩

/-- Non-vacuity of `C49_neighbor`: robots 1 and 2 of a team, both anchored at the pose of robot 2 that
robot 1 holds. -/
example : ∃ (t : CostType) (a b : Agent), AgReach exOracle 1 (exTrio t) a ∧
    AgReach exOracle 2 (exTrio t) b ∧ ∃ M M', a.getNeighborPoseInGlobalFrame 2 0 = ok (some M) ∧
      b.getPoseInGlobalFrame 0 = ok (some M') ∧ SamePose 2 (asPoses 2 1 M) (asPoses 2 1 M') := by
  obtain ⟨l, a, ha, -, hs, -, hN, -⟩ := exMember .GM 1 2 (Or.inl ⟨rfl, rfl⟩)
  obtain ⟨l', b, hb, -, hsb, hX, -, -, -, -, -, hn, -⟩ := exMember .GM 2 1 (Or.inr ⟨rfl, rfl⟩)
  have ra := ha.reach
  have rb := hb.reach
  obtain ⟨Xa, ea, -, x1, x2⟩ := Agent.setGlobalAnchor_ok (agReach_inv ra) (M := (exPoseOf 2).X) rfl rfl
  obtain ⟨Xb, eb, -, y1, y2⟩ := Agent.setGlobalAnchor_ok (agReach_inv rb) (M := (exPoseOf 2).X) rfl rfl
  have ra' := agReach_snoc (op := .setGlobalAnchor (exPoseOf 2).X) ra trivial ea
  have rb' := agReach_snoc (op := .setGlobalAnchor (exPoseOf 2).X) rb trivial eb
  obtain ⟨M, M', e, e', h⟩ := C49_neighbor (N := exPoseOf 2) (i := 0) ra' rb' rfl rfl hs hsb rfl rfl
    (x1.trans y1.symm) (x2.trans y2.symm) (by rw [show PoseGraph.n _ = 2 from hn]; omega)
    (by
      show OMap.find? ltPoseID (PoseID.make 2 0) a.neighborPoses = _
      rw [hN]; rfl)
    (by
      show rotM 3 2 (exPoseOf 2) 0 = rotM 3 2 b.X 0
      ext x y
      simp [rotM, hX, exEst, exPoseOf])
    (by
      show traV 3 2 (exPoseOf 2) 0 = traV 3 2 b.X 0
      ext x
      simp [traV, hX, exEst, exPoseOf])
  exact ⟨.GM, _, _, ra', rb', M, M', e, e', h⟩

end Dpgo.Props
