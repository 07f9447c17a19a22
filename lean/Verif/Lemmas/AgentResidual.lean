import Verif.Lemmas.AgentReweight

/-! # Residuals computed by an agent -/

namespace Dpgo

open Res Spec PoseGraph

theorem residualOf_ok {r d : Nat} {A B : PArr ℝ} {m : Meas ℝ} {i j : Nat}
    (hm : MDims d m) :
    Agent.residualOf m ((A.X.block 0 (i * (d + 1)) r (d + 1)).block 0 0 r d)
      ((A.X.block 0 (i * (d + 1)) r (d + 1)).block 0 d r 1)
      ((B.X.block 0 (j * (d + 1)) r (d + 1)).block 0 0 r d)
      ((B.X.block 0 (j * (d + 1)) r (d + 1)).block 0 d r 1) = ok (resid r d m A.X i B.X j) := by
  obtain ⟨h1, h2, h3, h4⟩ := hm
  unfold Agent.residualOf resid
  have hb : ∀ (M : DMat ℝ) i j r c, (M.block i j r c).cols = c := fun _ _ _ _ _ => rfl
  have hr : ∀ (M : DMat ℝ) i j r c, (M.block i j r c).rows = r := fun _ _ _ _ _ => rfl
  simp only [hb, hr, h1, h2, h3, h4, beq_self_eq_true, Bool.and_self, require_true, ok_bind]
  congr 2
  unfold measurementError
  congr 2
  · unfold DMat.normSq rotRes DMat.sub DMat.mul DMat.block rot
    simp only [h2, Nat.zero_add]
    refine Finset.sum_congr rfl fun ρ _ => Finset.sum_congr rfl fun c _ => ?_
    ring
  · unfold DMat.normSq traRes DMat.sub DMat.mul DMat.block rot tra
    simp only [Nat.zero_add, Finset.sum_range_one]
    refine Finset.sum_congr rfl fun ρ _ => ?_
    simp only [Nat.add_zero]
    ring

variable {ID : Nat} {p : AgentParams} {a a' : Agent}

/-- The residual of a stored measurement. -/
theorem residual_spec (h : AgInv ID p a) (hs : a.state = .INITIALIZED) {log : List (Meas ℝ)}
    (hinv : Inv a.graph log) {m : Meas ℝ} (hm : m ∈ log) :
    (∀ A i B j, Holds ID a (tailId m) A i → Holds ID a (headId m) B j →
      a.computeMeasurementResidual m = ok (some (resid p.r p.d m A i B j))) ∧
    (¬ EndsKnown ID a m → a.computeMeasurementResidual m = ok none) := by
  obtain ⟨hgid, -, hgd, -⟩ := h.dims
  have hX := (h.data (by rw [hs]; decide)).2.2
  have hdim : MDims p.d m := by
    have := hinv.dims m hm
    rwa [hgd] at this
  have hwf := hinv.wf m hm
  unfold MeasWF at hwf
  have hub := hinv.n_ub m hm
  have htouch := (touches_iff _ _).1 (hinv.touch m hm)
  rw [hgid] at hub htouch
  have u1 : u32 m.p1 = m.p1 := u32_of_lt (by omega)
  have u2 : u32 m.p2 = m.p2 := u32_of_lt (by omega)
  have hb1 : m.r1 = ID → m.p1 < a.graph.n := fun c => hub _ (by simp [ownIndices, c])
  have hb2 : m.r2 = ID → m.p2 < a.graph.n := fun c => hub _ (by simp [ownIndices, c])
  have mk : ∀ r q, r < 2 ^ 32 → q < 2 ^ 32 → PoseID.make r q = ⟨r, q⟩ := by
    intro r q h1 h2
    simp only [PoseID.make, u32_of_lt h1, u32_of_lt h2]
  have unk : ∀ k : PoseID, k.robot ≠ ID → OMap.find? ltPoseID k a.neighborPoses = none →
      ∀ A i, ¬ Holds ID a k A i := by
    rintro k hk hf A i (⟨c, -⟩ | ⟨-, -, P, hP, -⟩)
    · exact hk c
    · rw [OMap.find?_of_mem strictTotal_ltPoseID h.nbr.sorted hP] at hf; cases hf
  have kn : ∀ {k : PoseID} {P : PArr ℝ}, k.robot ≠ ID → OMap.find? ltPoseID k a.neighborPoses = some P →
      Holds ID a k P.X 0 ∧ ArrOk p.r p.d 1 P ∧ ∀ A i, Holds ID a k A i → A = P.X ∧ i = 0 := by
    intro k P hk hf
    have hmem := OMap.mem_of_find? strictTotal_ltPoseID hf
    refine ⟨Or.inr ⟨hk, rfl, P, hmem, rfl⟩, (h.nbr.mem _ hmem).2, ?_⟩
    rintro A i (⟨c, -⟩ | ⟨-, hi, P', hP', hA⟩)
    · exact absurd c hk
    · rw [OMap.find?_of_mem strictTotal_ltPoseID h.nbr.sorted hP'] at hf
      cases hf
      exact ⟨hA, hi⟩
  have own : ∀ {k : PoseID} {A i}, k.robot = ID → Holds ID a k A i → A = a.X.X ∧ i = k.frame := by
    rintro k A i hk (⟨-, c⟩ | ⟨c, -⟩)
    · exact c
    · exact absurd hk c
  have owned : ∀ {k : PoseID}, k.robot = ID → Holds ID a k a.X.X k.frame :=
    fun hk => Or.inl ⟨hk, rfl, rfl⟩
  unfold Agent.computeMeasurementResidual
  rw [if_neg (by simp [hs]), u1, u2, mk m.r1 m.p1 (by omega) (by omega),
    mk m.r2 m.p2 (by omega) (by omega), h.id]
  by_cases c : m.r1 = m.r2
  · have c1 : m.r1 = ID := by omega
    have c2 : m.r2 = ID := by omega
    rw [if_pos c]
    simp only [PArr.rotationAt_ok hX (hb1 c1), PArr.translationAt_ok hX (hb1 c1),
      PArr.rotationAt_ok hX (hb2 c2), PArr.translationAt_ok hX (hb2 c2), ok_bind,
      residualOf_ok hdim]
    refine ⟨fun A i B j hA hB => ?_, fun hk => absurd ⟨⟨_, _, owned c1⟩, _, _, owned c2⟩ hk⟩
    obtain ⟨rfl, rfl⟩ := own c1 hA
    obtain ⟨rfl, rfl⟩ := own c2 hB
    rfl
  · rw [if_neg c]
    by_cases c1 : m.r1 = ID
    · have c2 : m.r2 ≠ ID := fun x => c (c1.trans x.symm)
      rw [if_pos c1]
      simp only [PArr.rotationAt_ok hX (hb1 c1), PArr.translationAt_ok hX (hb1 c1), ok_bind]
      cases hf : OMap.find? ltPoseID (⟨m.r2, m.p2⟩ : PoseID) a.neighborPoses with
      | none =>
        refine ⟨fun A i B j _ hB => absurd hB (unk _ c2 hf B j), fun _ => rfl⟩
      | some N =>
        obtain ⟨k1, hN, k2⟩ := kn c2 hf
        simp only [PArr.rotationAt_ok hN zero_lt_one, PArr.translationAt_ok hN zero_lt_one, ok_bind,
          residualOf_ok hdim]
        refine ⟨fun A i B j hA hB => ?_, fun hk => absurd ⟨⟨_, _, owned c1⟩, _, _, k1⟩ hk⟩
        obtain ⟨rfl, rfl⟩ := own c1 hA
        obtain ⟨rfl, rfl⟩ := k2 _ _ hB
        rfl
    · have c2 : m.r2 = ID := by omega
      rw [if_neg c1]
      simp only [PArr.rotationAt_ok hX (hb2 c2), PArr.translationAt_ok hX (hb2 c2), ok_bind]
      cases hf : OMap.find? ltPoseID (⟨m.r1, m.p1⟩ : PoseID) a.neighborPoses with
      | none =>
        refine ⟨fun A i B j hA _ => absurd hA (unk _ c1 hf A i), fun _ => rfl⟩
      | some N =>
        obtain ⟨k1, hN, k2⟩ := kn c1 hf
        simp only [PArr.rotationAt_ok hN zero_lt_one, PArr.translationAt_ok hN zero_lt_one, ok_bind,
          residualOf_ok hdim]
        refine ⟨fun A i B j hA hB => ?_, fun hk => absurd ⟨⟨_, _, k1⟩, _, _, owned c2⟩ hk⟩
        obtain ⟨rfl, rfl⟩ := own c2 hB
        obtain ⟨rfl, rfl⟩ := k2 _ _ hA
        rfl

/-- The new weight of a stored measurement. -/
theorem newWeight_spec (h : AgInv ID p a) (hs : a.state = .INITIALIZED) {log : List (Meas ℝ)}
    (hinv : Inv a.graph log) {m : Meas ℝ} (hm : m ∈ log) {w : Option ℝ} (e : a.newWeight m = ok w) :
    (∀ A i B j, Holds ID a (tailId m) A i → Holds ID a (headId m) B j →
      ∃ x, w = some x ∧ a.cost.weight (resid p.r p.d m A i B j) = ok x) ∧
    (¬ EndsKnown ID a m → w = none) := by
  obtain ⟨h1, h2⟩ := residual_spec h hs hinv hm
  unfold Agent.newWeight at e
  constructor
  · intro A i B j hA hB
    rw [h1 A i B j hA hB, ok_bind] at e
    simp only [bind_eq_ok] at e
    obtain ⟨x, hx, e⟩ := e
    cases e
    exact ⟨x, rfl, hx⟩
  · intro hk
    rw [h2 hk, ok_bind] at e
    cases e; rfl

/-- A weight update of an initialised agent, list by list. -/
theorem updateWeights_lists (h : AgInv ID p a) (hs : a.state = .INITIALIZED)
    (e : a.updateMeasurementWeights = ok a') :
    a'.graph.odometry = a.graph.odometry ∧
    List.Forall₂ (Updated ID p a) a.graph.privateLcs a'.graph.privateLcs ∧
    List.Forall₂ (Updated ID p a) a.graph.sharedLcs a'.graph.sharedLcs ∧
    a'.graph = { a.graph.clearDataMatrices with
      privateLcs := a'.graph.privateLcs, sharedLcs := a'.graph.sharedLcs } := by
  rcases Agent.updateMeasurementWeights_form h.reach e with ⟨c, -⟩ | ⟨-, ps, g, b, hp, hw, -, -, hb, rfl⟩
  · exact absurd hs c
  obtain ⟨⟨log, hinv⟩, hid⟩ := Reachable.inv h.reach
  rw [Agent.reweightStep_wstep] at hw
  obtain ⟨⟨w1⟩, w2, w3⟩ := Agent.wloop_spec (Agent.active_nodup h.reach hp) hw
  have hbg : b.resync.graph = g.clearDataMatrices := by
    rw [Agent.resync_frame]
    rcases Agent.resetTrajectory_form hb with ⟨-, rfl⟩ | ⟨-, -, X, -, rfl⟩ <;> rfl
  rw [hbg]
  have act := hp
  rw [hinv.active_eq] at act
  have act := (Res.ok.inj act).symm
  have hodo : g.odometry = a.graph.odometry := by
    refine List.ext_getElem? fun i => ?_
    have k2 := w2 (.odo i)
    have k3 := w3 (.odo i)
    change a.graph.odometry[i]? = none → g.odometry[i]? = none at k2
    cases hi : a.graph.odometry[i]? with
    | none => exact k2 hi
    | some m =>
      refine (k3 m hi).1 ?_
      rintro ⟨c, -⟩
      obtain ⟨m', -, ⟨_, hq, -⟩ | ⟨_, hq, -⟩⟩ := Agent.active_valid h.reach hp c <;> cases hq
  -- one measurement
  have one : ∀ (q : MPtr) (m : Meas ℝ), a.graph.deref q = some m → m ∈ log →
      (q ∈ ps ↔ Live ID a m) → ∃ m', g.deref q = some m' ∧ Updated ID p a m m' := by
    intro q m hq hm hl
    obtain ⟨k1, k2⟩ := w3 q m hq
    by_cases c : q ∈ ps ∧ m.fixedWeight = false
    · obtain ⟨w, hw, hg⟩ := k2 c.1 c.2
      obtain ⟨n1, n2⟩ := newWeight_spec h hs hinv hm hw
      refine ⟨_, hg, ?_, fun hf hl' A i B j hA hB => ?_⟩
      · rintro (x | x | x)
        · rw [c.2] at x; cases x
        · exact absurd (hl.1 c.1) x
        · rw [n2 x]; rfl
      · obtain ⟨x, rfl, hx⟩ := n1 A i B j hA hB
        exact ⟨x, hx, rfl⟩
    · refine ⟨m, k1 c, fun _ => rfl, fun hf hl' => absurd ⟨hl.2 hl', hf⟩ c⟩
  have fin : ∀ (f : Nat → MPtr) (l l' : List (Meas ℝ)), (∀ i, a.graph.deref (f i) = l[i]?) →
      (∀ i, g.deref (f i) = l'[i]?) → (∀ m ∈ l, m ∈ log) →
      (∀ (i : Nat) m, l[i]? = some m → (f i ∈ ps ↔ Live ID a m)) → List.Forall₂ (Updated ID p a) l l' := by
    intro f l l' h1 h2 h3 h4
    have hlen : l.length = l'.length := by
      have q : ∀ i : Nat, l[i]? = none ↔ l'[i]? = none := by
        intro i
        constructor
        · intro c; rw [← h2]; exact w2 _ (by rw [h1]; exact c)
        · intro c
          by_contra hne
          obtain ⟨m, hm⟩ := Option.ne_none_iff_exists'.1 hne
          obtain ⟨m', hm', -⟩ := one (f i) m (by rw [h1]; exact hm) (h3 m (List.mem_of_getElem? hm))
            (h4 i m hm)
          rw [h2, c] at hm'; cases hm'
      simp only [List.getElem?_eq_none_iff] at q
      have q1 := q l.length
      have q2 := q l'.length
      omega
    refine List.forall₂_iff_get.2 ⟨hlen, fun i hi hi' => ?_⟩
    have hm : l[i]? = some l[i] := List.getElem?_eq_getElem hi
    obtain ⟨m', hm', hu⟩ := one (f i) l[i] (by rw [h1]; exact hm) (h3 _ (List.getElem_mem hi))
      (h4 i _ hm)
    rw [h2, List.getElem?_eq_getElem hi'] at hm'
    cases hm'
    exact hu
  refine ⟨hodo, ?_, ?_, ?_⟩
  · refine fin .priv _ _ (fun _ => rfl) (fun _ => rfl) (fun m hm => ?_) (fun i m hm => ?_)
    · rw [hinv.priv] at hm; exact (List.mem_filter.1 hm).1
    · have hmem := List.mem_of_getElem? hm
      rw [hinv.priv] at hmem
      have hpr := (isPriv_iff _ _).1 (List.mem_filter.1 hmem).2
      refine ⟨fun _ => Or.inl (by omega), fun _ => ?_⟩
      rw [act, List.mem_append]
      refine Or.inl (List.mem_map.2 ⟨i, List.mem_range.2 ?_, rfl⟩)
      exact (List.getElem?_eq_some_iff.1 hm).1
  · refine fin .shared _ _ (fun _ => rfl) (fun _ => rfl) (fun m hm => ?_) (fun i m hm => ?_)
    · rw [hinv.shared] at hm; exact (List.mem_filter.1 hm).1
    · have hmem := List.mem_of_getElem? hm
      rw [hinv.shared] at hmem
      have hsh := (isShared_iff _ _).1 (List.mem_filter.1 hmem).2
      have hact : Live ID a m ↔ a.graph.lcFlag m = true := by
        unfold Live lcFlag
        rw [hinv.isNeighborActive_eq, hid]
        constructor
        · rintro (c | c)
          · omega
          · exact Res.ok.inj c
        · intro c; exact Or.inr (by rw [c])
      rw [hact]
      constructor
      · intro c
        obtain ⟨m', hm', ⟨_, hq, -⟩ | ⟨j, hq, hj, hfl⟩⟩ := Agent.active_valid h.reach hp c
        · cases hq
        · cases hq
          rw [hj] at hm; cases hm
          exact hfl
      · intro c
        rw [act, List.mem_append]
        exact Or.inr ((mem_pick _ _ _ _).2 ⟨i, m, hm, c, by rw [Nat.zero_add]⟩)
  · rw [w1, hodo]; rfl

end Dpgo
