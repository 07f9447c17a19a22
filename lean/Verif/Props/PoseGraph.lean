import Verif.Lemmas.Measurements
import Mathlib.Algebra.Field.Rat

/-!
# Properties C01–C07, C56: what a pose graph stores

Each theorem quantifies over every history of public calls (`Spec.Reachable`), or over an explicit
list of calls.  The specification (`Verif.Spec.PoseGraph`) is a plain list of edges.
-/

namespace Dpgo.Props

open Res Spec PoseGraph

section
variable {K : Type} [Field K]

/-! ### C01 -/

/-- **C01.** After any history of public calls, the reported measurements are the edges of the
first-write-wins log, as odometry, private loop closures, shared loop closures, each in insertion
order. -/
theorem C01_history (id r d : Nat) (ops : List (PGOp K)) (g₀ g : PoseGraph K)
    (hnew : PoseGraph.new id r d = ok g₀) (hwf : ∀ op ∈ ops, OpWF op) (hrun : g₀.run ops = ok g) :
    g.measurements = buckets id (Spec.run id ops) := by
  obtain ⟨h0, hid⟩ := new_inv hnew
  obtain ⟨h1, hid1⟩ := h0.run hwf hrun
  rw [h1.measurements, hid1, hid]
  rfl

omit [Field K] in
/-- **C01.** `setMeasurements` keeps exactly the relevant edges, the first of every endpoint pair. -/
theorem C01_set (g g' : PoseGraph K) (ms : List (Meas K)) (hwf : ∀ m ∈ ms, MeasWF m)
    (e : g.setMeasurements ms = ok g') :
    g'.measurements = buckets g.id (firstWins (ms.filter (touches g.id))) := by
  obtain ⟨h, hid⟩ := foldl_addMeasurement (g := g.empty) (inv_empty g) hwf e
  rw [h.measurements, foldl_add_nil, hid]
  rfl

omit [Field K] in
/-- **C01.** Setting measurements whose data have the right sizes never fails. -/
theorem C01_set_accepts (g : PoseGraph K) (ms : List (Meas K))
    (hd : ∀ m ∈ ms, m.R.rows = g.d ∧ m.R.cols = g.d ∧ m.t.rows = g.d ∧ m.t.cols = 1) :
    ∃ g', g.setMeasurements ms = ok g' :=
  foldl_addMeasurement_ok (g := g.empty) ms hd

omit [Field K] in
/-- **C01.** Every reported measurement, with all its data, is one that was passed in (no history
with weight writes): nothing is altered or invented. -/
theorem C01_set_unaltered (g g' : PoseGraph K) (ms : List (Meas K)) (hwf : ∀ m ∈ ms, MeasWF m)
    (e : g.setMeasurements ms = ok g') (m : Meas K) :
    m ∈ g'.measurements ↔
      ∃ l₁ l₂, ms = l₁ ++ m :: l₂ ∧ touches g.id m = true ∧ ∀ x ∈ l₁, sameEnds x m = false := by
  rw [C01_set g g' ms hwf e, mem_buckets]
  clear e hwf
  constructor
  · rintro ⟨hm, ht⟩
    induction ms with
    | nil => simp [firstWins] at hm
    | cons a l ih =>
      by_cases ha : touches g.id a = true
      · rw [List.filter_cons_of_pos ha, firstWins, List.mem_cons, List.mem_filter] at hm
        rcases hm with rfl | ⟨hm, hne⟩
        · exact ⟨[], l, rfl, ht, by simp⟩
        · obtain ⟨l₁, l₂, e, -, hx⟩ := ih hm
          refine ⟨a :: l₁, l₂, by rw [e]; rfl, ht, ?_⟩
          intro x hx'
          rcases List.mem_cons.1 hx' with rfl | hx'
          · simpa using hne
          · exact hx x hx'
      · rw [List.filter_cons_of_neg ha] at hm
        obtain ⟨l₁, l₂, e, -, hx⟩ := ih hm
        refine ⟨a :: l₁, l₂, by rw [e]; rfl, ht, ?_⟩
        intro x hx'
        rcases List.mem_cons.1 hx' with rfl | hx'
        · rw [← Bool.not_eq_true, sameEnds_iff]
          rw [touches_iff] at ha ht
          omega
        · exact hx x hx'
  · rintro ⟨l₁, l₂, rfl, ht, hx⟩
    refine ⟨?_, ht⟩
    induction l₁ with
    | nil => rw [List.nil_append, List.filter_cons_of_pos ht, firstWins]; simp
    | cons a l ih =>
      have := ih (fun x hx' => hx x (by simp [hx']))
      by_cases ha : touches g.id a = true
      · rw [List.cons_append, List.filter_cons_of_pos ha, firstWins, List.mem_cons, List.mem_filter]
        refine Or.inr ⟨this, ?_⟩
        simp [hx a (by simp)]
      · rw [List.cons_append, List.filter_cons_of_neg ha]; exact this

/-! ### C02 -/

/-- **C02.** Lookup is exact, never out of range, never aborts. -/
theorem C02_lookup (id r d : Nat) (g : PoseGraph K) (hg : Reachable id r d g) (src dst : PoseID) :
    (g.hasMeasurement src dst = true ↔ ∃ m ∈ g.measurements, hasEnds src dst m = true) ∧
    ((∀ m ∈ g.measurements, hasEnds src dst m = false) → g.findMeasurement src dst = ok none) ∧
    (∀ m ∈ g.measurements, hasEnds src dst m = true →
      ∃ p, g.findMeasurement src dst = ok (some p) ∧ g.deref p = some m) := by
  obtain ⟨⟨log, h⟩, -⟩ := Reachable.inv hg
  have hiff : g.hasMeasurement src dst = true ↔ ∃ po, g.edgeIndex.get? ⟨src, dst⟩ = some po := by
    unfold hasMeasurement; rw [Option.isSome_iff_exists]
  have uniq : ∀ a ∈ log, ∀ b ∈ log, hasEnds src dst a = true → hasEnds src dst b = true → a = b := by
    intro a ha b hb h1 h2
    by_contra hne
    have hs : sameEnds a b = true := by
      rw [hasEnds_iff] at h1 h2; rw [sameEnds_iff]; omega
    obtain ⟨i, hi, rfl⟩ := List.mem_iff_getElem.1 ha
    obtain ⟨j, hj, rfl⟩ := List.mem_iff_getElem.1 hb
    have hp := List.pairwise_iff_getElem.1 h.distinct
    rcases Nat.lt_trichotomy i j with c | c | c
    · have := hp i j hi hj c; rw [hs] at this; cases this
    · subst c; exact hne rfl
    · have := hp j i hj hi c; rw [sameEnds_symm, hs] at this; cases this
  rcases h.find_spec src dst with ⟨e, hn⟩ | ⟨p, m, e, hp, hm, he, -⟩
  · have hnone : g.edgeIndex.get? ⟨src, dst⟩ = none := by
      cases hc : g.edgeIndex.get? ⟨src, dst⟩ with
      | none => rfl
      | some i =>
        simp only [findMeasurement, hc] at e
        split at e
        · cases e
        · simp only [bind_eq_ok] at e
          obtain ⟨-, -, -, -, -, -, -, -, e⟩ := e
          cases e
    refine ⟨?_, fun _ => e, ?_⟩
    · rw [hiff, hnone]
      constructor
      · rintro ⟨_, h⟩; cases h
      · rintro ⟨m, hm, hh⟩
        rw [hn m ((h.mem_measurements m).1 hm)] at hh; cases hh
    · intro m hm hh
      rw [hn m ((h.mem_measurements m).1 hm)] at hh; cases hh
  · have hsome : ∃ po, g.edgeIndex.get? ⟨src, dst⟩ = some po := by
      unfold findMeasurement at e
      split at e
      · cases e
      · exact ⟨_, by assumption⟩
    refine ⟨?_, ?_, ?_⟩
    · rw [hiff]
      exact ⟨fun _ => ⟨m, (h.mem_measurements m).2 hm, he⟩, fun _ => hsome⟩
    · intro hall
      rw [hall m ((h.mem_measurements m).2 hm)] at he; cases he
    · intro m' hm' he'
      have := uniq m' ((h.mem_measurements m').1 hm') m hm he' he
      subst this
      exact ⟨p, e, hp⟩

/-! ### C03 -/

/-- **C03.** Every stored edge is in the right vector. -/
theorem C03_buckets (id r d : Nat) (g : PoseGraph K) (hg : Reachable id r d g) :
    (∀ m ∈ g.odometry, m.r1 = id ∧ m.r2 = id ∧ m.p2 = m.p1 + 1) ∧
    (∀ m ∈ g.privateLcs, m.r1 = id ∧ m.r2 = id ∧ m.p2 ≠ m.p1 + 1) ∧
    (∀ m ∈ g.sharedLcs, (m.r1 = id ∧ m.r2 ≠ id) ∨ (m.r1 ≠ id ∧ m.r2 = id)) ∧
    g.numMeasurements = g.measurements.length ∧
    g.measurements.Pairwise (fun a b => sameEnds a b = false) := by
  obtain ⟨⟨log, h⟩, hid⟩ := Reachable.inv hg
  refine ⟨?_, ?_, ?_, ?_, ?_⟩
  · intro m hm
    rw [h.odo, List.mem_filter, isOdo_iff, hid] at hm; omega
  · intro m hm
    rw [h.priv, List.mem_filter, isPriv_iff, hid] at hm; omega
  · intro m hm
    rw [h.shared, List.mem_filter, isShared_iff, hid] at hm; exact hm.2
  · simp [numMeasurements, PoseGraph.measurements]; omega
  · rw [h.measurements]
    unfold buckets
    rw [List.pairwise_append, List.pairwise_append]
    refine ⟨⟨h.distinct.filter _, h.distinct.filter _, ?_⟩, h.distinct.filter _, ?_⟩
    · intro a ha b hb
      rw [List.mem_filter, isOdo_iff] at ha
      rw [List.mem_filter, isPriv_iff] at hb
      rw [← Bool.not_eq_true, sameEnds_iff]; omega
    · intro a ha b hb
      rw [List.mem_append, List.mem_filter, List.mem_filter, isOdo_iff, isPriv_iff] at ha
      rw [List.mem_filter, isShared_iff] at hb
      rw [← Bool.not_eq_true, sameEnds_iff]; omega

/-! ### C04 -/

/-- **C04.** `n()` is the least bound of the own pose indices that occur. -/
theorem C04_num_poses (id r d : Nat) (g : PoseGraph K) (hg : Reachable id r d g) :
    (∀ m ∈ g.measurements, ∀ i ∈ ownIndices id m, i < g.n) ∧
    (∀ k, (∀ m ∈ g.measurements, ∀ i ∈ ownIndices id m, i < k) → g.n ≤ k) := by
  obtain ⟨⟨log, h⟩, hid⟩ := Reachable.inv hg
  subst hid
  refine ⟨fun m hm => h.n_ub m ((h.mem_measurements m).1 hm), ?_⟩
  intro k hk
  rcases h.n_lub with hz | ⟨m, hm, i, hi, e⟩
  · omega
  · have := hk m ((h.mem_measurements m).2 hm) i hi
    omega

/-! ### C05 -/

/-- **C05.** Public pose ids and neighbour ids are exactly those induced by the shared loop closures,
in increasing order without repetition. -/
theorem C05_public_ids (id r d : Nat) (g : PoseGraph K) (hg : Reachable id r d g) :
    (∀ p, p ∈ g.localShared ↔ ∃ m ∈ g.sharedLcs, ownPose id m = p) ∧
    (∀ p, p ∈ g.nbrShared ↔ ∃ m ∈ g.sharedLcs, foreignPose id m = p) ∧
    (∀ i, i ∈ g.nbrRobots ↔ ∃ m ∈ g.sharedLcs, (foreignPose id m).robot = i) ∧
    (∀ p, g.requireNeighborPose p = true ↔ ∃ m ∈ g.sharedLcs, foreignPose id m = p) ∧
    (∀ i, g.hasNeighbor i = true ↔ ∃ m ∈ g.sharedLcs, (foreignPose id m).robot = i) ∧
    g.nbrRobots.Pairwise (· < ·) ∧ g.localShared.Nodup ∧ g.nbrShared.Nodup ∧
    id ∉ g.nbrRobots := by
  obtain ⟨⟨log, h⟩, hid⟩ := Reachable.inv hg
  subst hid
  have e1 : ∀ (q : Meas K → Prop),
      (∃ m ∈ log, isShared g.id m = true ∧ q m) ↔ ∃ m ∈ g.sharedLcs, q m := by
    intro q
    rw [h.shared]
    simp [List.mem_filter, and_assoc]
  refine ⟨fun p => by rw [h.localMem, e1], fun p => by rw [h.nbrMem, e1],
    fun p => by rw [h.robotsMem, e1], ?_, ?_, ?_, ?_, ?_, ?_⟩
  · intro p
    rw [← e1, ← h.nbrMem]
    exact OSet.contains_iff strictTotal_ltPoseID _ _
  · intro p
    rw [← e1, ← h.robotsMem]
    exact OSet.contains_iff strictTotal_ltNat _ _
  · refine List.Pairwise.imp ?_ h.robotsSorted
    intro a b hab; simpa [ltNat] using hab
  · exact OSet.sorted_nodup strictTotal_ltPoseID h.localSorted
  · exact OSet.sorted_nodup strictTotal_ltPoseID h.nbrSorted
  · rw [h.robotsMem]
    rintro ⟨m, hm, hs, he⟩
    rw [isShared_iff] at hs
    unfold foreignPose at he
    split at he <;> simp only at he <;> omega

/-! ### C06 -/

/-- **C06.** Active and inactive loop closures partition all loop closures; a private one is active,
a shared one is active exactly when its foreign robot is. -/
theorem C06_partition (id r d : Nat) (g : PoseGraph K) (hg : Reachable id r d g) :
    ∃ act ina, g.activeLoopClosures = ok act ∧ g.inactiveLoopClosures = ok ina ∧
      (act ++ ina).Perm g.allLoopClosures ∧ g.allLoopClosures.Nodup ∧
      (∀ i, MPtr.priv i ∈ act ↔ i < g.privateLcs.length) ∧
      (∀ i, MPtr.priv i ∉ ina) ∧
      (∀ i m, g.sharedLcs[i]? = some m →
        (MPtr.shared i ∈ act ↔ g.isNeighborActive (foreignPose id m).robot = ok true) ∧
        (MPtr.shared i ∈ ina ↔ g.isNeighborActive (foreignPose id m).robot = ok false)) := by
  obtain ⟨⟨log, h⟩, hid⟩ := Reachable.inv hg
  subst hid
  refine ⟨_, _, h.active_eq, h.inactive_eq, ?_, ?_, ?_, ?_, ?_⟩
  · rw [List.append_assoc]
    refine List.Perm.append_left _ ?_
    have := pick_perm g.lcFlag 0 g.sharedLcs
    rw [List.range_eq_range']
    exact this
  · unfold allLoopClosures
    rw [List.nodup_append]
    refine ⟨List.Nodup.map (fun a b e => by cases e; rfl) List.nodup_range,
      List.Nodup.map (fun a b e => by cases e; rfl) List.nodup_range, ?_⟩
    intro a ha b hb e
    simp only [List.mem_map] at ha hb
    obtain ⟨_, _, rfl⟩ := ha
    obtain ⟨_, _, rfl⟩ := hb
    cases e
  · intro i
    rw [List.mem_append, mem_pick]
    simp
  · intro i
    rw [mem_pick]
    simp
  · intro i m hi
    rw [h.isNeighborActive_eq, List.mem_append, mem_pick, mem_pick]
    have hnot : MPtr.shared i ∉ (List.range g.privateLcs.length).map MPtr.priv := by simp
    constructor
    · constructor
      · rintro (hh | ⟨j, x, h1, h2, h3⟩)
        · exact absurd hh hnot
        · simp only [Nat.zero_add, MPtr.shared.injEq] at h3
          subst h3
          rw [hi] at h1; cases h1
          exact congrArg ok h2
      · intro hh
        exact Or.inr ⟨i, m, hi, by simpa [lcFlag] using hh, by simp⟩
    · constructor
      · rintro ⟨j, x, h1, h2, h3⟩
        simp only [Nat.zero_add, MPtr.shared.injEq] at h3
        subst h3
        rw [hi] at h1; cases h1
        simp only [Bool.not_eq_true'] at h2
        exact congrArg ok h2
      · intro hh
        exact ⟨i, m, hi, by simpa [lcFlag] using hh, by simp⟩

/-- **C06.** Statistics: they never fail, the total is the number of active loop closures, accepted
ones are the active ones of weight 1, rejected ones those of weight 0, and the three classes add
up with a non-negative number of undecided ones. -/
theorem C06_statistics [DecidableEq K] (id r d : Nat) (g : PoseGraph K) (hg : Reachable id r d g) :
    ∃ act s, g.activeLoopClosures = ok act ∧ g.statistics = ok s ∧
      s.total = act.length ∧ (s.total : Int) = s.accept + s.reject + s.undecided ∧
      s.accept = (act.filter fun p => decide ((g.deref p).map (·.weight) = some 1)).length ∧
      s.reject = (act.filter fun p => decide ((g.deref p).map (·.weight) = some 0)).length ∧
      0 ≤ s.undecided := by
  obtain ⟨⟨log, h⟩, hid⟩ := Reachable.inv hg
  have h01 : (0 : K) ≠ 1 := zero_ne_one
  refine ⟨_, _, h.active_eq, h.statistics_eq h01, ?_, ?_, ?_, ?_, ?_⟩
  · simp [length_pick]
  · simp
  · change (List.filter _ _).length = _
    rw [List.filter_append, List.filter_append, List.length_append, List.length_append,
      filter_ptr_priv g (fun o => decide (o = some 1)) (·.weight),
      filter_ptr_shared g (fun o => decide (o = some 1)) (·.weight)]
    simp only [Option.some.injEq]
  · change (List.filter _ _).length = _
    rw [List.filter_append, List.filter_append, List.length_append, List.length_append,
      filter_ptr_priv g (fun o => decide (o = some 0)) (·.weight),
      filter_ptr_shared g (fun o => decide (o = some 0)) (·.weight)]
    simp only [Option.some.injEq]
  · have := filter_disjoint_length (g.privateLcs ++ g.sharedLcs.filter g.lcFlag)
      (fun m => decide (m.weight = 1)) (fun m => decide (m.weight = 0))
      (by intro m h1 h2; simp only [decide_eq_true_eq] at h1 h2; exact h01 (h2.symm.trans h1))
    simp only
    omega

/-! ### C07 -/

/-- **C07.** Activity queries never throw; a robot that is not a neighbour is not active. -/
theorem C07_query (id r d : Nat) (g : PoseGraph K) (hg : Reachable id r d g) (j : Nat) :
    ∃ b, g.isNeighborActive j = ok b ∧ (j ∉ g.nbrRobots → b = false) := by
  obtain ⟨⟨log, h⟩, -⟩ := Reachable.inv hg
  refine ⟨_, h.isNeighborActive_eq j, ?_⟩
  intro hj
  rw [← hasNeighbor_iff] at hj
  simp [flag, hj]

/-- **C07.** `setNeighborActive` changes the flag of exactly that neighbour, and nothing for a
non-neighbour. -/
theorem C07_set (id r d : Nat) (g : PoseGraph K) (hg : Reachable id r d g) (i : Nat) (a : Bool) :
    ∃ g', g.setNeighborActive i a = ok g' ∧ g'.measurements = g.measurements ∧
      g'.nbrRobots = g.nbrRobots ∧ (i ∉ g.nbrRobots → g' = g) ∧
      (i ∈ g.nbrRobots → g'.isNeighborActive i = ok a) ∧
      ∀ j, j ≠ i → g'.isNeighborActive j = g.isNeighborActive j := by
  obtain ⟨⟨log, h⟩, -⟩ := Reachable.inv hg
  by_cases hi : i ∈ g.nbrRobots
  · obtain ⟨b, hb⟩ := h.find?_active hi
    have hn := (hasNeighbor_iff g i).2 hi
    refine ⟨_, by simp only [setNeighborActive, hn, hb]; rfl, ?_, ?_, ?_, ?_, ?_⟩
    · simp only [PoseGraph.measurements]; split <;> rfl
    · simp only; split <;> rfl
    · exact fun hh => absurd hi hh
    · intro _
      have hn' : OSet.contains ltNat i g.nbrRobots = true := hn
      by_cases c : (b != a) = true <;>
        simp [c, isNeighborActive, hasNeighbor, clearDataMatrices, clearQuadraticMatrix,
          clearLinearMatrix, OMap.find?_insert strictTotal_ltNat, hn']
    · intro j hj
      by_cases c : (b != a) = true <;>
        simp [c, isNeighborActive, hasNeighbor, clearDataMatrices, clearQuadraticMatrix,
          clearLinearMatrix, OMap.find?_insert strictTotal_ltNat, hj]
  · have hn : g.hasNeighbor i = false := by
      rw [← Bool.not_eq_true, hasNeighbor_iff]; exact hi
    refine ⟨g, by simp [setNeighborActive, hn], rfl, rfl, fun _ => rfl, fun hh => absurd hh hi,
      fun _ _ => rfl⟩

/-- **C07.** A robot that becomes a neighbour by an added measurement is active; a robot whose
flag changes by adding a measurement is the foreign robot of that measurement. -/
theorem C07_new_neighbor (id r d : Nat) (g g' : PoseGraph K) (hg : Reachable id r d g) (m : Meas K)
    (hm : MeasWF m) (e : g.addMeasurement m = ok g') (j : Nat) :
    (j ∈ g'.nbrRobots → j ∉ g.nbrRobots → g'.isNeighborActive j = ok true) ∧
    (j ≠ (foreignPose id m).robot → g'.isNeighborActive j = g.isNeighborActive j) := by
  obtain ⟨⟨log, h⟩, hid⟩ := Reachable.inv hg
  subst hid
  rcases addMeasurement_active hm e with ⟨h1, h2⟩ | ⟨hs, h1, h2⟩
  · refine ⟨fun hj hn => absurd (h2 ▸ hj) hn, fun _ => ?_⟩
    simp [isNeighborActive, hasNeighbor, h1, h2]
  · constructor
    · intro hj hn
      have hj' := hj
      rw [h2, OSet.mem_insert strictTotal_ltNat] at hj'
      have : j = (foreignPose g.id m).robot := hj'.resolve_right hn
      have hc := (hasNeighbor_iff g' j).2 hj
      rw [this] at hc ⊢
      simp [isNeighborActive, hc, h1, OMap.find?_insert strictTotal_ltNat]
    · intro hj
      have hc : g'.hasNeighbor j = g.hasNeighbor j := by
        rw [Bool.eq_iff_iff, hasNeighbor_iff, hasNeighbor_iff, h2,
          OSet.mem_insert strictTotal_ltNat]
        exact ⟨fun x => x.resolve_left hj, Or.inr⟩
      simp [isNeighborActive, hc, h1, OMap.find?_insert strictTotal_ltNat, hj]

/-- **C07.** `reset` makes every neighbour active and keeps all measurements. -/
theorem C07_reset (id r d : Nat) (g : PoseGraph K) (hg : Reachable id r d g) :
    g.reset.measurements = g.measurements ∧ g.reset.nbrRobots = g.nbrRobots ∧
    g.reset.n = g.n ∧ g.reset.neighborPoses = [] ∧ g.reset.priors = [] ∧ g.reset.Q = none ∧
    g.reset.G = none ∧ ∀ j ∈ g.nbrRobots, g.reset.isNeighborActive j = ok true := by
  have _ := hg
  have e1 : g.reset.nbrRobots = g.nbrRobots := by
    simp only [PoseGraph.reset, clearNeighborPoses, clearDataMatrices, clearPriors,
      clearQuadraticMatrix, clearLinearMatrix]
  refine ⟨?_, e1, ?_, ?_, ?_, ?_, ?_, ?_⟩
  any_goals simp only [PoseGraph.measurements, PoseGraph.reset, clearNeighborPoses,
    clearDataMatrices, clearPriors, clearQuadraticMatrix, clearLinearMatrix]
  intro j hj
  have hn : OSet.contains ltNat j g.nbrRobots = true := (OSet.contains_iff strictTotal_ltNat _ _).2 hj
  simp only [isNeighborActive, hasNeighbor, hn, find?_foldl_insert, if_pos hj]
  rfl

end

/-! ### Concrete cases -/

section Examples

/-- A 2-D measurement between the given poses. -/
def ex (r1 r2 p1 p2 : Nat) : Meas ℚ :=
  Meas.make r1 r2 p1 p2 (DMat.one 2 2) (DMat.zero 2 1) 1 1

/-- A history: odometry 0-1-2, a loop closure, a duplicate, shared edges with robots 3 and 1, an
irrelevant edge, deactivation of robot 3. -/
def exOps : List (PGOp ℚ) :=
  [.addMeasurement (ex 0 0 0 1), .addMeasurement (ex 0 0 1 2), .addMeasurement (ex 0 0 2 0),
   .addMeasurement (ex 0 0 0 1), .addMeasurement (ex 0 3 2 7), .addMeasurement (ex 1 0 4 1),
   .addMeasurement (ex 5 6 0 1), .writeWeight ⟨0, 2⟩ ⟨0, 0⟩ 0 false, .setNeighborActive 3 false]

/-- The graph reached by `exOps`. -/
def exGraph : Res (PoseGraph ℚ) := do let g ← PoseGraph.new 0 3 2; g.run exOps

theorem exOps_wf : ∀ op ∈ exOps, OpWF op := by
  simp [exOps, OpWF, ex, Meas.make, MeasWF]

theorem exGraph_reachable : ∃ g, exGraph = ok g ∧ Reachable 0 3 2 g :=
  ⟨_, rfl, _, exOps, rfl, exOps_wf, rfl⟩

/-- The hypotheses of C01–C07 hold of a graph with three poses, five edges, two neighbours of which
one is inactive. -/
example : ∃ g, exGraph = ok g ∧ Reachable 0 3 2 g ∧ g.n = 3 ∧
    (g.odometry.length, g.privateLcs.length, g.sharedLcs.length) = (2, 1, 2) ∧
    g.nbrRobots = [1, 3] ∧ g.localShared = [⟨0, 1⟩, ⟨0, 2⟩] ∧ g.nbrShared = [⟨1, 4⟩, ⟨3, 7⟩] ∧
    g.isNeighborActive 3 = ok false ∧ g.isNeighborActive 1 = ok true ∧
    g.activeLoopClosures = ok [.priv 0, .shared 1] ∧ g.inactiveLoopClosures = ok [.shared 0] ∧
    g.findMeasurement ⟨1, 4⟩ ⟨0, 1⟩ = ok (some (.shared 1)) := by
  obtain ⟨g, e, h⟩ := exGraph_reachable
  refine ⟨g, e, h, ?_⟩
  cases e
  refine ⟨rfl, rfl, rfl, rfl, rfl, rfl, rfl, rfl, rfl, rfl⟩

/-- C02 needs the range condition on ids: with frame index `2^32 - 1` the edge is stored as a private
loop closure, but its id looks like odometry after 32-bit wrap-around, and lookup reads outside the
odometry vector. -/
theorem C02_wraparound_out_of_range :
    ∃ g₀ g : PoseGraph ℚ, PoseGraph.new 0 3 2 = ok g₀ ∧
      g₀.addMeasurement (ex 0 0 (2 ^ 32 - 1) 0) = ok g ∧
      g.hasMeasurement ⟨0, 2 ^ 32 - 1⟩ ⟨0, 0⟩ = true ∧
      g.findMeasurement ⟨0, 2 ^ 32 - 1⟩ ⟨0, 0⟩ = ub := by
  refine ⟨_, _, rfl, rfl, ?_, ?_⟩ <;> rfl

/-- Robot ids that differ by `2^32` are confused: the robot becomes its own neighbour. -/
theorem C05_wraparound_own_neighbor :
    ∃ g₀ g : PoseGraph ℚ, PoseGraph.new 0 3 2 = ok g₀ ∧
      g₀.addMeasurement (ex 0 (2 ^ 32) 1 0) = ok g ∧ g.nbrRobots = [0] := by
  refine ⟨_, _, rfl, rfl, rfl⟩

end Examples

/-! ### C56 -/

/-- **C56.** The pose-id order is a strict total order consistent with equality, and lexicographic. -/
theorem C56_poseID_order :
    (∀ a, ltPoseID a a = false) ∧
    (∀ a b c, ltPoseID a b = true → ltPoseID b c = true → ltPoseID a c = true) ∧
    (∀ a b, ltPoseID a b = true ∨ a = b ∨ ltPoseID b a = true) ∧
    (∀ a b, ltPoseID a b = true ↔ a.robot < b.robot ∨ (a.robot = b.robot ∧ a.frame < b.frame)) :=
  ⟨strictTotal_ltPoseID.irrefl, strictTotal_ltPoseID.trans,
    fun a b => by
      cases h1 : ltPoseID a b
      · cases h2 : ltPoseID b a
        · exact Or.inr (Or.inl (strictTotal_ltPoseID.total a b h1 h2))
        · exact Or.inr (Or.inr rfl)
      · exact Or.inl rfl, ltPoseID_iff⟩

/-- **C56.** The edge-id order is a strict total order consistent with equality. -/
theorem C56_edgeID_order :
    (∀ a, ltEdgeID a a = false) ∧
    (∀ a b c, ltEdgeID a b = true → ltEdgeID b c = true → ltEdgeID a c = true) ∧
    (∀ a b, ltEdgeID a b = true ∨ a = b ∨ ltEdgeID b a = true) :=
  ⟨strictTotal_ltEdgeID.irrefl, strictTotal_ltEdgeID.trans,
    fun a b => by
      cases h1 : ltEdgeID a b
      · cases h2 : ltEdgeID b a
        · exact Or.inr (Or.inl (strictTotal_ltEdgeID.total a b h1 h2))
        · exact Or.inr (Or.inr rfl)
      · exact Or.inl rfl⟩

/-- **C56.** Every edge id is exactly one of odometry, private and shared loop closure. -/
theorem C56_kinds_exclusive (e : EdgeID) :
    (e.isOdometry = true ∧ e.isPrivateLoopClosure = false ∧ e.isSharedLoopClosure = false) ∨
    (e.isOdometry = false ∧ e.isPrivateLoopClosure = true ∧ e.isSharedLoopClosure = false) ∨
    (e.isOdometry = false ∧ e.isPrivateLoopClosure = false ∧ e.isSharedLoopClosure = true) := by
  unfold EdgeID.isOdometry EdgeID.isPrivateLoopClosure EdgeID.isSharedLoopClosure
  by_cases h1 : e.src.robot = e.dst.robot <;>
    by_cases h2 : u32 (e.src.frame + 1) = e.dst.frame <;> simp [h1, h2]

example : ltPoseID ⟨0, 9⟩ ⟨1, 2⟩ = true ∧ ltPoseID ⟨1, 2⟩ ⟨1, 3⟩ = true ∧
    ltEdgeID ⟨⟨0, 5⟩, ⟨1, 0⟩⟩ ⟨⟨0, 1⟩, ⟨2, 0⟩⟩ = true := by decide

end Dpgo.Props
