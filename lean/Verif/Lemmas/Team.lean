import Verif.Lemmas.Fresh
import Verif.Spec.Team

/-! # Local against team-wide cost -/

namespace Dpgo

open Finset Res Spec PoseGraph

variable {K : Type}

theorem sum_filter_not [Field K] {α : Type} (l : List α) (p : α → Bool) (f : α → K) :
    (l.map f).sum = ((l.filter p).map f).sum + ((l.filter (fun a => !p a)).map f).sum := by
  induction l with
  | nil => simp
  | cons a l ih =>
    by_cases h : p a = true
    · simp [h, ih, add_assoc]
    · simp [h, ih]; ring

theorem filter_firstWins (p : Meas K → Bool) (hp : ∀ a b, sameEnds a b = true → p a = p b)
    (l : List (Meas K)) : (firstWins l).filter p = firstWins (l.filter p) := by
  induction l with
  | nil => rfl
  | cons m l ih =>
    by_cases h : p m = true
    · simp only [firstWins, List.filter_cons, h, if_true]
      rw [← ih, List.filter_filter, List.filter_filter]
      congr 1
      refine List.filter_congr fun x _ => ?_
      rw [Bool.and_comm]
    · simp only [firstWins, List.filter_cons, h, if_false, Bool.false_eq_true]
      rw [← ih, List.filter_filter]
      refine List.filter_congr fun x _ => ?_
      by_cases hs : sameEnds m x = true
      · rw [← hp m x hs]; simp [h]
      · simp [hs]

theorem sum_buckets [Field K] (id : Nat) (l : List (Meas K)) (hl : ∀ m ∈ l, touches id m = true)
    (f : Meas K → K) : ((buckets id l).map f).sum = (l.map f).sum := by
  unfold buckets
  rw [List.map_append, List.map_append, List.sum_append, List.sum_append]
  induction l with
  | nil => simp
  | cons m l ih =>
    have ih := ih fun x hx => hl x (by simp [hx])
    have ht := (touches_iff id m).1 (hl m (by simp))
    rw [List.map_cons, List.sum_cons, ← ih]
    by_cases c1 : m.r1 = id <;> by_cases c2 : m.r2 = id
    · by_cases c3 : m.p1 + 1 = m.p2
      · simp [isOdo, isPriv, isShared, c1, c2, c3]; ring
      · simp [isOdo, isPriv, isShared, c1, c2, c3]; ring
    · simp [isOdo, isPriv, isShared, c1, c2]; ring
    · simp [isOdo, isPriv, isShared, c1, c2]; ring
    · exact absurd ht (by simp [c1, c2])

theorem edgeCost_congr [Field K] (r d : Nat) (m : Meas K) {A A' B B' : DMat K} {i i' j j' : Nat}
    (hA : ∀ ρ c, ρ < r → c < d + 1 → A.v ρ (i * (d + 1) + c) = A'.v ρ (i' * (d + 1) + c))
    (hB : ∀ ρ c, ρ < r → c < d + 1 → B.v ρ (j * (d + 1) + c) = B'.v ρ (j' * (d + 1) + c)) :
    edgeCost r d m A i B j = edgeCost r d m A' i' B' j' := by
  unfold edgeCost rotRes traRes rot tra
  congr 2
  · congr 1
    refine Finset.sum_congr rfl fun ρ hρ => Finset.sum_congr rfl fun c hc => ?_
    rw [Finset.mem_range] at hρ hc
    rw [hB ρ c hρ (by omega)]
    congr 2
    refine Finset.sum_congr rfl fun s hs => ?_
    rw [Finset.mem_range] at hs
    rw [hA ρ s hρ (by omega)]
  · congr 1
    refine Finset.sum_congr rfl fun ρ hρ => ?_
    rw [Finset.mem_range] at hρ
    rw [hB ρ d hρ (by omega), hA ρ d hρ (by omega)]
    congr 2
    refine Finset.sum_congr rfl fun s hs => ?_
    rw [Finset.mem_range] at hs
    rw [hA ρ s hρ (by omega)]

namespace PoseGraph

/-- The local cost with current neighbour poses is the sum over the robot's edges at the joint
estimate. -/
theorem Inv.graphCost_joint [Field K] {g : PoseGraph K} {log : List (Meas K)} (h : Inv g log)
    (hp : g.priors = []) (hact : allActive g) (X : Joint K)
    (hup : upToDate g.r g.d X g g.neighborPoses) :
    graphCost g (X g.id) = 1 / 2 * (g.measurements.map fun m =>
      edgeCost g.r g.d m (X m.r1) m.p1 (X m.r2) m.p2).sum := by
  unfold graphCost PoseGraph.measurements PoseGraph.localMeasurements
  rw [hp]
  simp only [List.map_nil, List.sum_nil, add_zero]
  rw [List.map_append (l₁ := g.odometry ++ g.privateLcs), List.sum_append]
  congr 2
  · congr 1
    refine List.map_congr_left fun m hm => ?_
    have : m.r1 = g.id ∧ m.r2 = g.id := by
      rw [List.mem_append, h.odo, h.priv, List.mem_filter, List.mem_filter, isOdo_iff,
        isPriv_iff] at hm
      rcases hm with ⟨-, h1, h2, -⟩ | ⟨-, h1, h2, -⟩ <;> exact ⟨h1, h2⟩
    rw [this.1, this.2]
  · congr 1
    refine List.map_congr_left fun m hm => ?_
    rw [h.shared, List.mem_filter] at hm
    obtain ⟨hm, hs⟩ := hm
    have hmem : foreignPose g.id m ∈ g.nbrShared := (h.nbrMem _).2 ⟨m, hm, hs, rfl⟩
    obtain ⟨P, hP, hc⟩ := hup _ hmem
    have hrob : (foreignPose g.id m).robot ∈ g.nbrRobots := (h.robotsMem _).2 ⟨m, hm, hs, rfl⟩
    have hused : usedPose g m = some P := by
      unfold usedPose
      have := hact _ hrob
      change (if g.useInactive = true ∨ g.isNeighborActive (foreignPose g.id m).robot = ok true then _
        else _) = _
      rw [if_pos (Or.inr this)]
      exact hP
    unfold sharedCost
    rw [hused]
    simp only
    unfold foreignPose at hc
    rw [isShared_iff] at hs
    by_cases c : m.r1 = g.id
    · rw [if_pos c] at hc ⊢
      rw [c]
      refine edgeCost_congr _ _ _ (fun _ _ _ _ => rfl) ?_
      intro ρ s hρ hs
      rw [Nat.zero_mul, Nat.zero_add]
      exact hc ρ s hρ hs
    · have c2 : m.r2 = g.id := by omega
      rw [if_neg c] at hc ⊢
      rw [c2]
      refine edgeCost_congr _ _ _ ?_ (fun _ _ _ _ => rfl)
      intro ρ s hρ hs
      rw [Nat.zero_mul, Nat.zero_add]
      exact hc ρ s hρ hs

theorem SameData.graphCost [Field K] {g g' : PoseGraph K} (h : SameData g g') (X : DMat K) :
    Spec.graphCost g' X = Spec.graphCost g X := by
  have hs : ∀ m, sharedCost g' m X = sharedCost g m X := by
    intro m
    unfold sharedCost usedPose
    simp only [h.id, h.r, h.d, h.useInactive, h.isNeighborActive, h.neighborPoses]
  unfold Spec.graphCost PoseGraph.localMeasurements
  simp only [hs, h.r, h.d, h.odometry, h.privateLcs, h.sharedLcs, h.priors]

/-- Changing the robot's own estimate does not make the dictionary out of date. -/
theorem Inv.upToDate_update {g : PoseGraph K} {log : List (Meas K)} (h : Inv g log) (r d : Nat)
    (X : Joint K) (Y : DMat K) (dict : PoseDict K) (hup : upToDate r d X g dict) :
    upToDate r d (Function.update X g.id Y) g dict := by
  intro p hp
  obtain ⟨P, h1, h2⟩ := hup p hp
  refine ⟨P, h1, ?_⟩
  obtain ⟨m, hm, hs, rfl⟩ := (h.nbrMem p).1 hp
  have hne : (foreignPose g.id m).robot ≠ g.id := by
    rw [isShared_iff] at hs
    unfold foreignPose
    split
    · simp only; omega
    · assumption
  intro ρ c hρ hc
  rw [Function.update_of_ne hne]
  exact h2 ρ c hρ hc

/-- Not missing: all needed poses of (active) neighbours are there. -/
theorem Inv.not_missing {g : PoseGraph K} {log : List (Meas K)} (h : Inv g log) (r d : Nat)
    (X : Joint K) (hup : upToDate r d X g g.neighborPoses) : ¬ posesMissing g := by
  rintro ⟨m, hm, hl⟩
  rw [h.lacks_iff] at hl
  rw [h.shared, List.mem_filter] at hm
  obtain ⟨P, h1, -⟩ := hup _ ((h.nbrMem _).2 ⟨m, hm.1, hm.2, rfl⟩)
  have : foreignID g.id m = foreignPose g.id m := rfl
  rw [this, h1] at hl
  cases hl.2

/-- The team cost splits into the edges of a robot and the others. -/
theorem teamCost_split [Field K] (r d a : Nat) (E : List (Meas K)) (X : Joint K) :
    teamCost r d E X = 1 / 2 * ((buckets a (firstWins (E.filter (touches a)))).map fun m =>
        edgeCost r d m (X m.r1) m.p1 (X m.r2) m.p2).sum +
      1 / 2 * (((firstWins E).filter fun m => !(touches a m)).map fun m =>
        edgeCost r d m (X m.r1) m.p1 (X m.r2) m.p2).sum := by
  have hp : ∀ x y : Meas K, sameEnds x y = true → touches a x = touches a y := by
    intro x y h
    rw [sameEnds_iff] at h
    unfold touches
    rw [h.1, h.2.2.1]
  unfold teamCost
  rw [← mul_add, sum_filter_not _ (touches a), filter_firstWins _ hp, sum_buckets]
  intro m hm
  rw [← filter_firstWins _ hp, List.mem_filter] at hm
  exact hm.2

theorem teamCost_diff [Field K] {g : PoseGraph K} {log : List (Meas K)} (h : Inv g log)
    (hp : g.priors = []) (hact : allActive g) (E : List (Meas K))
    (hE : g.measurements = buckets g.id (firstWins (E.filter (touches g.id)))) (X : Joint K)
    (Y : DMat K) (hup : upToDate g.r g.d X g g.neighborPoses) :
    teamCost g.r g.d E (Function.update X g.id Y) - teamCost g.r g.d E X =
      graphCost g Y - graphCost g (X g.id) := by
  have e1 := h.graphCost_joint hp hact X hup
  have e2 := h.graphCost_joint hp hact (Function.update X g.id Y)
    (h.upToDate_update g.r g.d X Y _ hup)
  rw [Function.update_self] at e2
  rw [e1, e2, teamCost_split g.r g.d g.id E X, teamCost_split g.r g.d g.id E (Function.update X g.id Y),
    hE]
  have : (((firstWins E).filter fun m => !(touches g.id m)).map fun m =>
      edgeCost g.r g.d m (Function.update X g.id Y m.r1) m.p1 (Function.update X g.id Y m.r2) m.p2) =
      (((firstWins E).filter fun m => !(touches g.id m)).map fun m =>
      edgeCost g.r g.d m (X m.r1) m.p1 (X m.r2) m.p2) := by
    refine List.map_congr_left fun m hm => ?_
    rw [List.mem_filter] at hm
    have ht : ¬ (m.r1 = g.id ∨ m.r2 = g.id) := by
      rw [← touches_iff]; simpa using hm.2
    rw [Function.update_of_ne (fun c => ht (Or.inl c)), Function.update_of_ne (fun c => ht (Or.inr c))]
  rw [this]
  ring

/-- A current `Q` is what construction from scratch gives, as soon as no pose is missing. -/
theorem BuiltQ.construct [Field K] {g : PoseGraph K} {log : List (Meas K)} (h : Inv g log)
    (hd : 0 < g.d) (hpr : ∀ p ∈ g.priors, p.1 < g.n) (hm : ¬ posesMissing g) {Q : DMat K}
    (hb : BuiltQ g Q) : g.constructQ = ok (some Q) := by
  have hb0 := hb
  obtain ⟨g', hs, hq, hb'⟩ := hb0
  have hl : g'.localMeasurements = g.localMeasurements := by
    unfold PoseGraph.localMeasurements
    rw [show g'.odometry = g.odometry from hs.odometry,
      show g'.privateLcs = g.privateLcs from hs.privateLcs]
  have hd' : g'.d = g.d := hs.d
  have hn' : g'.n = g.n := hs.n
  have hq' := hq
  unfold constructQ at hq'
  rw [hl, hd', hn'] at hq'
  simp only [bind_eq_ok] at hq'
  obtain ⟨L, hL, o, ho, hq'⟩ := hq'
  cases o with
  | none => cases hq'
  | some D =>
    simp only [bind_eq_ok] at hq'
    obtain ⟨D', hD', S, hS, -⟩ := hq'
    have hself : ¬ hasSelfLoop g := by
      rintro ⟨m, hm, e⟩
      rcases connectionLaplacian_cases g.localMeasurements g.d h.localDims with ⟨-, c⟩ | ⟨c, -⟩
      · rw [hL] at c; cases c
      · exact c m hm e
    obtain ⟨l1, l2, -, -⟩ := connectionLaplacian_qform _ _ hL (fun _ => 0)
    have hcov : posesCovered g := by
      rw [h.covered_iff hd, ← l1]
      rw [l2] at hS
      rcases ofTriplets_diag L.rows g.d g.n D' with ⟨s1, -⟩ | ⟨-, s2⟩
      · exact s1
      · rw [hS] at s2; cases s2
    rcases h.constructQ_cases hd hpr with ⟨c, -⟩ | ⟨-, c, -⟩ | ⟨-, -, c, -⟩ | ⟨-, -, -, Q', c⟩
    · exact absurd c hself
    · exact absurd c hm
    · exact absurd hcov c
    · rw [c, BuiltQ.unique hb c]

/-- The objective of a graph whose cached matrices are current. -/
theorem objective_fresh [Field K] (h2 : (2 : K) ≠ 0) {id r d : Nat} {g g' : PoseGraph K}
    (hg : Reachable id r d g) (hd : 0 < g.d) (hf : Fresh g) (hm : ¬ posesMissing g) {X : DMat K}
    {f : K} (e : problemF g X = ok (f, g')) : f = graphCost g X - graphCost g (zeroEst g) := by
  obtain ⟨⟨log, h⟩, -⟩ := Reachable.inv hg
  obtain ⟨Q, G, g1, g2, hQ, hG, rfl, hr, hc, hQr, -, -, -⟩ := problemF_gen e
  have cQ : g.constructQ = ok (some Q) := by
    rcases quadraticMatrix_ok hQ with ⟨hq, -⟩ | ⟨-, hq, -⟩
    · exact (hf.q Q hq).construct h hd (priors_lt hg) hm
    · exact hq
  have cG : g.constructG = ok (some G) := by
    rcases linearMatrix_ok hG with ⟨hq, -⟩ | ⟨-, hq, -⟩
    · exact hf.lin G hq
    · exact hq
  exact h.objective_eq h2 cQ cG hr hc hQr

/-- Evaluating the objective only fills caches. -/
theorem problemF_keeps [Field K] {id r d : Nat} {g g' : PoseGraph K} (hg : Reachable id r d g)
    (hf : Fresh g) {X : DMat K} {f : K} (e : problemF g X = ok (f, g')) :
    SameData g g' ∧ SameBook g g' ∧ Fresh g' ∧ Reachable id r d g' := by
  unfold problemF at e
  rw [bind_eq_ok] at e
  obtain ⟨_, h1, e⟩ := e
  rw [bind_eq_ok] at e
  obtain ⟨_, h2, e⟩ := e
  rw [bind_eq_ok] at e
  obtain ⟨⟨Q, g1⟩, hQ, e⟩ := e
  simp only [bind_eq_ok] at e
  obtain ⟨⟨G, g2⟩, hG, _, h3, e⟩ := e
  cases e
  have sQ : SameData g g1 := by
    rcases quadraticMatrix_ok hQ with ⟨_, rfl⟩ | ⟨_, _, rfl⟩
    · exact SameData.refl _
    · constructor <;> rfl
  have sG : SameData g1 g2 := by
    rcases linearMatrix_ok hG with ⟨_, rfl⟩ | ⟨_, _, rfl⟩
    · exact SameData.refl _
    · constructor <;> rfl
  have hrun : g.run [.quadraticMatrix, .linearMatrix] = ok g2 := by
    unfold PoseGraph.run
    rw [foldl_cons]
    have a1 : g.step .quadraticMatrix = ok g1 := by simp only [PoseGraph.step, hQ, ok_bind]
    have a2 : g1.step .linearMatrix = ok g2 := by simp only [PoseGraph.step, hG, ok_bind]
    rw [a1]
    change Res.foldl PoseGraph.step g1 [.linearMatrix] = _
    rw [foldl_cons, a2]
    rfl
  obtain ⟨f1, f2⟩ := Fresh.run [.quadraticMatrix, .linearMatrix] hg
    (by intro op hop; simp only [List.mem_cons, List.not_mem_nil, or_false] at hop
        rcases hop with rfl | rfl <;> trivial) hf
    (by exact ⟨trivial, fun _ _ => ⟨trivial, fun _ _ => trivial⟩⟩) hrun
  exact ⟨sQ.trans sG, (quadraticMatrix_book hQ).trans (linearMatrix_book hG), f1, f2⟩

theorem Reachable.snoc [Field K] {id r d : Nat} {g g' : PoseGraph K} {op : PGOp K}
    (hg : Reachable id r d g) (hw : OpWF op) (e : g.step op = ok g') : Reachable id r d g' := by
  obtain ⟨a, os, ha, hos, hrun⟩ := hg
  refine ⟨a, os ++ [op], ha, ?_, ?_⟩
  · intro o ho
    rw [List.mem_append, List.mem_singleton] at ho
    rcases ho with ho | ho
    · exact hos o ho
    · rw [ho]; exact hw
  · unfold PoseGraph.run at hrun ⊢
    rw [foldl_append, hrun]
    change Res.bind (g.step op) _ = _
    rw [e]; rfl

/-- All neighbours are active after `setMeasurements`. -/
theorem setMeasurements_active {g g' : PoseGraph K} {ms : List (Meas K)} (hwf : ∀ m ∈ ms, MeasWF m)
    (e : g.setMeasurements ms = ok g') : allActive g' ∧ g'.d = g.d ∧ g'.id = g.id ∧ g'.r = g.r := by
  unfold setMeasurements at e
  have key : ∀ (ms : List (Meas K)) (g₁ : PoseGraph K) (log : List (Meas K)), Inv g₁ log →
      (∀ m ∈ ms, MeasWF m) → allActive g₁ →
      Res.foldl PoseGraph.addMeasurement g₁ ms = ok g' →
        allActive g' ∧ g'.d = g₁.d ∧ g'.id = g₁.id ∧ g'.r = g₁.r := by
    intro ms
    induction ms with
    | nil => intro g₁ log _ _ ha e; simp only [foldl_nil] at e; cases e; exact ⟨ha, rfl, rfl, rfl⟩
    | cons m ms ih =>
      intro g₁ log hinv hw ha e
      simp only [foldl_cons, bind_eq_ok'] at e
      obtain ⟨g₂, h2, e⟩ := e
      have hm := hw m (by simp)
      obtain ⟨hinv2, -⟩ := hinv.addMeasurement m hm h2
      have ha2 : allActive g₂ := by
        intro i hi
        rcases addMeasurement_active hm h2 with ⟨h3, h4⟩ | ⟨hs, h3, h4⟩
        · have := ha i (h4 ▸ hi)
          unfold PoseGraph.isNeighborActive PoseGraph.hasNeighbor at this ⊢
          rw [h3, h4]; exact this
        · have hi' := hi
          rw [h4, OSet.mem_insert strictTotal_ltNat] at hi'
          have hc := (hasNeighbor_iff g₂ i).2 hi
          by_cases c : i = (foreignPose g₁.id m).robot
          · rw [c] at hc ⊢
            simp [isNeighborActive, hc, h3, OMap.find?_insert strictTotal_ltNat]
          · have hi1 := hi'.resolve_left c
            have h5 := ha i hi1
            have hc1 := (hasNeighbor_iff g₁ i).2 hi1
            simp only [isNeighborActive, hc, hc1, h3, OMap.find?_insert strictTotal_ltNat, if_neg c,
              Bool.not_true, Bool.false_eq_true, if_false] at h5 ⊢
            exact h5
      obtain ⟨r1, r2, r3, r4⟩ := ih g₂ _ hinv2 (fun x hx => hw x (by simp [hx])) ha2 e
      obtain ⟨t1, t2, t3⟩ := addMeasurement_d h2
      exact ⟨r1, r2.trans t1, r3.trans t2, r4.trans t3⟩
  exact key ms g.empty [] (inv_empty g) hwf (by intro i hi; cases hi) e

end PoseGraph
end Dpgo
