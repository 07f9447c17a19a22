import Verif.Lemmas.AgentAccel
import Verif.Lemmas.LiftedProject
import Verif.Spec.Sequences

/-! # The matrices of an accelerated iteration -/

namespace Dpgo

open Res Spec PoseGraph

variable {o : AgentOracles} {ID : Nat} {p : AgentParams} {a a' : Agent}

/-- The point nearest to poses that have orthonormal columns is these poses. -/
theorem Spec.NearestPoses.stays {r d n : Nat} {R : Nat → Matrix (Fin r) (Fin d) ℝ} {t : Nat → Fin r → ℝ}
    {P Q : PArr ℝ} (h : NearestPoses r d n R t P) (hR : ∀ i < n, R i = rotM r d Q i)
    (ht : ∀ i < n, t i = traV r d Q i) (hQ : ∀ i < n, OrthoCols (rotM r d Q i)) :
    SamePoses r d n P Q := by
  intro i hi
  refine ⟨?_, (h.tra i hi).trans (ht i hi)⟩
  have := h.nearest i hi _ (hQ i hi)
  rw [hR i hi, sub_self] at this
  have h0 : frob2 (0 : Matrix (Fin r) (Fin d) ℝ) = 0 := frob2_eq_zero.2 rfl
  rw [h0] at this
  have h1 : frob2 (rotM r d P i - rotM r d Q i) = 0 := le_antisymm this (frob2_nonneg _)
  exact sub_eq_zero.1 (frob2_eq_zero.1 h1)

/-- The projection onto the manifold returns the nearest poses. -/
theorem project_nearest {svd : SvdOracle} (hsvd : LawfulSvd svd) {r d n : Nat} (hrd : d ≤ r) {M X : DMat ℝ}
    (hM : M.rows = r ∧ M.cols = (d + 1) * n)
    (e : liftedProject svd r d n (List.range n) M = ok X) :
    NearestPoses r d n (rotM r d ⟨r, d, n, M⟩) (traV r d ⟨r, d, n, M⟩) ⟨r, d, n, X⟩ := by
  obtain ⟨Y, e', hY, h1, h2⟩ := project_loop (svd := svd) hrd (List.range n) List.nodup_range
    (fun i hi => List.mem_range.1 hi) M hM
  have hXY : X = Y := by
    unfold liftedProject at e
    rw [hM.1, hM.2, e'] at e
    simpa using e.symm
  subst hXY
  have key : ∀ i < n, rotM r d ⟨r, d, n, X⟩ i = stieProj svd (rotM r d ⟨r, d, n, M⟩ i) := by
    intro i hi
    have := h1 i
    rw [if_pos (List.mem_range.2 hi)] at this
    exact this
  have hs : ∀ i, SvdAt svd (rotM r d ⟨r, d, n, M⟩ i) := fun i => hsvd _ _ _ hrd
  have ho : ∀ i, OrthoCols (stieProj svd (rotM r d ⟨r, d, n, M⟩ i)) :=
    fun i => (hs i).orthoU.mul (hs i).orthoV.transpose
  refine ⟨⟨rfl, rfl, rfl, hY.1, hY.2⟩, fun i hi => ?_, fun i hi => ?_, fun i hi Q hQ => ?_⟩
  · ext c
    exact h2 i c c.2
  · rw [key i hi]
    exact ho i
  · rw [key i hi]
    refine nearest_of_inner (ho i) hQ ?_
    unfold stieProj
    rw [(hs i).inner_proj]
    exact (hs i).inner_le hQ

/-- What an accelerated step that does not restart does to the matrices. -/
theorem accelStep_sequences (hsvd : LawfulSvd o.svd) (hpa : a.params.acceleration = true)
    (hrd : a.graph.d ≤ a.graph.r) (hX : ArrOk a.graph.r a.graph.d a.graph.n a.X)
    (hY : ArrOk a.graph.r a.graph.d a.graph.n a.Y) (hV : ArrOk a.graph.r a.graph.d a.graph.n a.V)
    (hr : ¬ u32 (a.iterationNumber + 1) % a.params.restartInterval = 0) {doOpt s : Bool}
    (hc1 : a.accelStep o doOpt = ok (s, a')) :
    AcceleratedStep a.graph.r a.graph.d a.graph.n a'.alpha a'.gamma a.X a.V a'.X a'.Y a'.V ∧
    (doOpt = false → s = true ∧ a'.X = a'.Y) ∧
    (doOpt = true → s = false → a'.X = a.X) ∧
    (doOpt = true → s = true → ∃ k g res g', Steps Agent.updating a.graph g ∧
      g.neighborPoses = a.neighborAuxPoses ∧
      optimize (o.opt k) a.params.localOpt g a'.Y.X = ok (a'.X.X, res, g')) := by
  obtain ⟨a1, a2, a3, a4, a5, r, e1, e2, e3, e4, e5, e6, e7⟩ := Agent.accelStep_form hc1
  obtain ⟨-, -, -, h1⟩ := Agent.updateGamma_form e1
  obtain ⟨-, -, -, h2⟩ := Agent.updateAlpha_form e2
  obtain ⟨-, -, P, hP, p1, p2, h3⟩ := Agent.updateY_form e3
  obtain ⟨f4, st4⟩ := Agent.updateX_frame e4
  obtain ⟨-, -, W, hW, w1, w2, h5⟩ := Agent.updateV_form e5
  have t2 : a2.X = a.X ∧ a2.V = a.V ∧ a2.Y = a.Y ∧ a2.graph = a.graph ∧ a2.params = a.params ∧
      a2.iterationNumber = a.iterationNumber ∧ a2.neighborAuxPoses = a.neighborAuxPoses := by
    rw [h2, h1]; exact ⟨rfl, rfl, rfl, rfl, rfl, rfl, rfl⟩
  clear h1 h2
  have t3 : a3.X = a.X ∧ a3.V = a.V ∧ a3.graph = a.graph ∧ a3.params = a.params ∧
      a3.iterationNumber = a.iterationNumber ∧ a3.neighborAuxPoses = a.neighborAuxPoses ∧
      a3.Y = { a.Y with X := P } ∧ a3.alpha = a2.alpha := by
    obtain ⟨u1, u2, u3, u4, u5, u6, u7⟩ := t2
    rw [h3]; exact ⟨u1, u2, u4, u5, u6, u7, (by rw [← u3]), rfl⟩
  clear h3
  obtain ⟨u1, u2, u3, u4, u5, u6, -⟩ := t2
  obtain ⟨m1, m2, m3, m4, m5, m6, m7, m8⟩ := t3
  have t4 : a4.V = a.V ∧ a4.params = a.params ∧ a4.iterationNumber = a.iterationNumber ∧
      a4.Y = { a.Y with X := P } ∧ a4.alpha = a2.alpha := by
    rw [f4]; exact ⟨m2, m4, m5, m7, m8⟩
  clear f4
  obtain ⟨q2, z1, z2, q1, q3⟩ := t4
  rw [m3] at st4
  have k5 : a5.iterationNumber = a.iterationNumber := by rw [h5]; exact z2
  have k6 : a5.params = a.params := by rw [h5]; exact z1
  have hc5 : a' = a5 := by
    rcases e7 with ⟨-, rfl⟩ | ⟨hr', e7⟩
    · rfl
    · rcases Agent.shouldRestart_form e6 with ⟨c, -⟩ | ⟨-, hI, c⟩
      · rw [k6, hpa] at c; cases c
      · exfalso
        rw [hr', k6, k5] at c
        exact hr (by simpa using c.symm)
  obtain ⟨y1, y2, y3, y4, y5⟩ := hY
  obtain ⟨v1, v2, v3, v4, v5⟩ := hV
  obtain ⟨x1, x2, x3, x4, x5⟩ := hX
  have q5 : a4.graph.n = a.graph.n := (updating_book st4).n
  have q6 : a4.graph.d = a.graph.d := (updating_book st4).d
  have q7 : a4.graph.r = a.graph.r := (updating_book st4).r
  have hP' : liftedProject o.svd a.graph.r a.graph.d a.graph.n (List.range a.graph.n)
      ((a.X.X.smul (1 - a2.alpha)).add (a.V.X.smul a2.alpha)) = ok P := by
    unfold Agent.project Agent.relaxationRank Agent.dimension Agent.numPoses at hP
    rw [u1, u2, u4] at hP
    exact hP
  have hW' : liftedProject o.svd a.graph.r a.graph.d a.graph.n (List.range a.graph.n)
      (a.V.X.add ((a4.X.X.sub P).smul a4.gamma)) = ok W := by
    have : liftedProject o.svd a4.graph.r a4.graph.d a4.graph.n (List.range a4.graph.n)
      (a4.V.X.add ((a4.X.X.sub a4.Y.X).smul a4.gamma)) = ok W := hW
    rw [q5, q6, q7, q1, q2] at this
    exact this
  have n1 := project_nearest hsvd hrd (by exact ⟨x4, x5⟩) hP'
  have n2 := project_nearest hsvd hrd (by exact ⟨v4, v5⟩) hW'
  have cY : a'.Y = ⟨a.graph.r, a.graph.d, a.graph.n, P⟩ := by
    rw [hc5, h5]; show a4.Y = _; rw [q1, ← y1, ← y2, ← y3]
  have cV : a'.V = ⟨a.graph.r, a.graph.d, a.graph.n, W⟩ := by
    rw [hc5, h5]
    show ({ a4.V with X := W } : PArr ℝ) = _
    rw [q2, ← v1, ← v2, ← v3]
  have cX : a'.X = a4.X := by rw [hc5, h5]
  have cα : a'.alpha = a2.alpha := by rw [hc5, h5]; exact q3
  have cγ : a'.gamma = a4.gamma := by rw [hc5, h5]
  rw [cX, cY, cV, cα, cγ]
  refine ⟨⟨⟨n1.shape, fun i hi => ?_, n1.ortho, fun i hi => ?_⟩,
    ⟨n2.shape, fun i hi => ?_, n2.ortho, fun i hi => ?_⟩⟩, ?_⟩
  · exact n1.tra i hi
  · exact n1.nearest i hi
  · exact n2.tra i hi
  · exact n2.nearest i hi
  rcases Agent.updateX_form e4 with ⟨h1, h2, h3⟩ | ⟨h1, -, -, g1, e8, hst, ⟨h2, h3⟩ | ⟨h2, Z, res, g2, e9, -, -, -, h3⟩⟩
  · refine ⟨fun _ => ⟨h2, ?_⟩, fun c => ?_, fun c => ?_⟩
    · have : a4.X = a3.Y := by rw [h3]; rfl
      rw [this, m7, ← y1, ← y2, ← y3]
    · rw [h1] at c; cases c
    · rw [h1] at c; cases c
  · refine ⟨fun c => (by rw [h1] at c; cases c), fun _ _ => ?_, fun _ c => (by rw [h2] at c; cases c)⟩
    rw [h3]; exact m1
  · refine ⟨fun c => (by rw [h1] at c; cases c), fun _ c => (by rw [h2] at c; cases c), fun _ _ => ?_⟩
    have hZ : a4.X.X = Z := by rw [h3]
    rw [m3] at hst
    refine ⟨a3.calls, g1, res, g2, hst, ?_, ?_⟩
    · rw [(constructDataMatrices_book e8).neighborPoses]; exact m6
    · rw [hZ, ← m4]
      rw [if_pos rfl, m7] at e9
      exact e9

/-- What an accelerated iteration that does not restart does to the matrices. -/
theorem iterate_sequences (hsvd : LawfulSvd o.svd) (hi : AgInv ID p a) (hs : a.state = .INITIALIZED)
    (hp : p.acceleration = true) (hr : ¬ RestartsNext p a) {doOpt s : Bool}
    (e : a.iterate o doOpt = ok (s, a')) :
    AcceleratedStep p.r p.d a.graph.n a'.alpha a'.gamma a.X a.V a'.X a'.Y a'.V ∧
    (doOpt = false → s = true ∧ a'.X = a'.Y) ∧
    (doOpt = true → s = false → a'.X = a.X) ∧
    (doOpt = true → s = true → ∃ k g res g', Steps Agent.updating a.graph g ∧
      g.neighborPoses = a.neighborAuxPoses ∧
      optimize (o.opt k) p.localOpt g a'.Y.X = ok (a'.X.X, res, g')) := by
  have hpa : a.params.acceleration = true := by rw [hi.params]; exact hp
  obtain ⟨-, dr, dd, hrd⟩ := reach_dims hi.reach
  obtain ⟨hn, -, hX⟩ := hi.data (by rw [hs]; simp)
  obtain ⟨hY, hV, -⟩ := hi.accel hs hp
  obtain ⟨b, hb, hc⟩ := Agent.iterate_form e
  obtain ⟨k, -, -, rfl⟩ := Agent.tick_form hb
  rcases hc with ⟨-, hc⟩ | ⟨c, -⟩
  swap
  · exact absurd hs c
  obtain ⟨c, c', hc1, hc2, rfl⟩ := Agent.iterateBody_form hc
  rcases hc1 with ⟨-, hc1⟩ | ⟨x, -⟩
  swap
  · have x : a.params.acceleration = false := x
    rw [hpa] at x; cases x
  have key := accelStep_sequences (a := { a with
      iterationNumber := u32 (a.iterationNumber + 1), innerIter := k, XPrev := a.X })
    hsvd hpa (by rw [dr, dd]; exact hrd) (by rw [dr, dd]; exact hX) (by rw [dr, dd]; exact hY)
    (by rw [dr, dd]; exact hV)
    (fun c => hr ((restartsNext_iff rfl).1 (by rw [← hi.params]; exact c))) hc1
  rw [dr, dd, hi.params] at key
  rcases hc2 with ⟨-, hc2⟩ | ⟨-, rfl⟩
  · obtain ⟨_, _, -, -, _, -, rfl⟩ := Agent.iterateStatus_form hc2
    exact key
  · exact key

end Dpgo
