import Verif.Spec.PoseGraph
import Verif.Lemmas.Ids

/-! # Representation invariant of `PoseGraph` -/

namespace Dpgo

open Res Spec

variable {K : Type}

theorem touches_iff (id : Nat) (m : Meas K) : touches id m = true ↔ m.r1 = id ∨ m.r2 = id := by
  simp [touches]

theorem sameEnds_iff (a b : Meas K) :
    sameEnds a b = true ↔ a.r1 = b.r1 ∧ a.p1 = b.p1 ∧ a.r2 = b.r2 ∧ a.p2 = b.p2 := by
  simp [sameEnds, and_assoc]

theorem hasEnds_iff (s t : PoseID) (m : Meas K) :
    hasEnds s t m = true ↔ m.r1 = s.robot ∧ m.p1 = s.frame ∧ m.r2 = t.robot ∧ m.p2 = t.frame := by
  simp [hasEnds, and_assoc]

theorem isOdo_iff (id : Nat) (m : Meas K) :
    isOdo id m = true ↔ m.r1 = id ∧ m.r2 = id ∧ m.p1 + 1 = m.p2 := by simp [isOdo, and_assoc]

theorem isPriv_iff (id : Nat) (m : Meas K) :
    isPriv id m = true ↔ m.r1 = id ∧ m.r2 = id ∧ m.p1 + 1 ≠ m.p2 := by simp [isPriv, and_assoc]

theorem isShared_iff (id : Nat) (m : Meas K) :
    isShared id m = true ↔ (m.r1 = id ∧ m.r2 ≠ id) ∨ (m.r1 ≠ id ∧ m.r2 = id) := by
  simp [isShared]

theorem Spec.MeasWF.src_eq {m : Meas K} (h : MeasWF m) : m.src = ⟨m.r1, m.p1⟩ := by
  unfold MeasWF at h
  unfold Meas.src PoseID.make
  rw [u32_of_lt (by omega), u32_of_lt (by omega)]

theorem Spec.MeasWF.dst_eq {m : Meas K} (h : MeasWF m) : m.dst = ⟨m.r2, m.p2⟩ := by
  unfold MeasWF at h
  unfold Meas.dst PoseID.make
  rw [u32_of_lt (by omega), u32_of_lt (by omega)]

theorem Spec.MeasWF.edge_eq_iff {m : Meas K} (h : MeasWF m) (e : EdgeID) :
    m.edge = e ↔ hasEnds e.src e.dst m = true := by
  unfold Meas.edge
  rw [h.src_eq, h.dst_eq, hasEnds_iff]
  obtain ⟨⟨_, _⟩, ⟨_, _⟩⟩ := e
  simp [and_assoc]

theorem Spec.MeasWF.edge_eq_edge {a b : Meas K} (ha : MeasWF a) (hb : MeasWF b) :
    a.edge = b.edge ↔ sameEnds a b = true := by
  rw [ha.edge_eq_iff, hasEnds_iff, sameEnds_iff]
  unfold Meas.edge
  rw [hb.src_eq, hb.dst_eq]

/-- Edge kind seen through the id: 0 odometry, 1 private, 2 shared. -/
theorem Spec.MeasWF.edge_isOdometry {m : Meas K} (h : MeasWF m) :
    m.edge.isOdometry = true ↔ m.r1 = m.r2 ∧ m.p1 + 1 = m.p2 := by
  unfold Meas.edge EdgeID.isOdometry
  rw [h.src_eq, h.dst_eq]
  unfold MeasWF at h
  simp only [Bool.and_eq_true, beq_iff_eq]
  rw [u32_of_lt (by omega)]

theorem Spec.MeasWF.edge_isPrivate {m : Meas K} (h : MeasWF m) :
    m.edge.isPrivateLoopClosure = true ↔ m.r1 = m.r2 ∧ m.p1 + 1 ≠ m.p2 := by
  unfold Meas.edge EdgeID.isPrivateLoopClosure
  rw [h.src_eq, h.dst_eq]
  unfold MeasWF at h
  simp only [Bool.and_eq_true, beq_iff_eq, bne_iff_ne]
  rw [u32_of_lt (by omega)]

theorem le_foldr_max {l : List Nat} {i : Nat} (hi : i ∈ l) : i ≤ l.foldr max 0 := by
  induction l with
  | nil => simp at hi
  | cons a t ih =>
    rcases List.mem_cons.1 hi with r | r
    · subst r; simp only [List.foldr_cons]; omega
    · have := ih r; simp only [List.foldr_cons]; omega

namespace PoseGraph

/-- Where the index map should point: position in the vector selected by the kind of the edge id. -/
def bucketIdx (g : PoseGraph K) (e : EdgeID) : Option Nat :=
  if e.isOdometry then g.odometry.findIdx? (fun m => decide (m.edge = e))
  else if e.isPrivateLoopClosure then g.privateLcs.findIdx? (fun m => decide (m.edge = e))
  else g.sharedLcs.findIdx? (fun m => decide (m.edge = e))

/-- Size condition on stored data. -/
def MDims (d : Nat) (m : Meas K) : Prop :=
  m.R.rows = d ∧ m.R.cols = d ∧ m.t.rows = d ∧ m.t.cols = 1

theorem dimsOk_iff (g : PoseGraph K) (m : Meas K) : g.dimsOk m = true ↔ MDims g.d m := by
  simp [dimsOk, MDims, and_assoc]

/-- The representation invariant: the state `g` represents the log. -/
structure Inv (g : PoseGraph K) (log : List (Meas K)) : Prop where
  odo : g.odometry = log.filter (isOdo g.id)
  priv : g.privateLcs = log.filter (isPriv g.id)
  shared : g.sharedLcs = log.filter (isShared g.id)
  wf : ∀ m ∈ log, MeasWF m
  dims : ∀ m ∈ log, MDims g.d m
  touch : ∀ m ∈ log, touches g.id m = true
  distinct : log.Pairwise (fun a b => sameEnds a b = false)
  idx : ∀ e, g.edgeIndex.get? e = g.bucketIdx e
  n_ub : ∀ m ∈ log, ∀ i ∈ ownIndices g.id m, i < g.n
  n_lub : g.n = 0 ∨ ∃ m ∈ log, ∃ i ∈ ownIndices g.id m, i + 1 = g.n
  localSorted : OSet.Sorted ltPoseID g.localShared
  nbrSorted : OSet.Sorted ltPoseID g.nbrShared
  robotsSorted : OSet.Sorted ltNat g.nbrRobots
  localMem : ∀ p, p ∈ g.localShared ↔ ∃ m ∈ log, isShared g.id m = true ∧ ownPose g.id m = p
  nbrMem : ∀ p, p ∈ g.nbrShared ↔ ∃ m ∈ log, isShared g.id m = true ∧ foreignPose g.id m = p
  robotsMem : ∀ i, i ∈ g.nbrRobots ↔
    ∃ m ∈ log, isShared g.id m = true ∧ (foreignPose g.id m).robot = i
  activeKeys : OMap.keys g.nbrActive = g.nbrRobots

/-- The invariant only looks at the bookkeeping fields. -/
theorem Inv.congr {g g' : PoseGraph K} {log : List (Meas K)} (h : Inv g log)
    (hid : g'.id = g.id) (hd : g'.d = g.d) (hn : g'.n = g.n)
    (ho : g'.odometry = g.odometry) (hp : g'.privateLcs = g.privateLcs)
    (hs : g'.sharedLcs = g.sharedLcs) (hl : g'.localShared = g.localShared)
    (hnb : g'.nbrShared = g.nbrShared) (hr : g'.nbrRobots = g.nbrRobots)
    (he : g'.edgeIndex = g.edgeIndex)
    (ha : OMap.keys g'.nbrActive = OMap.keys g.nbrActive) : Inv g' log := by
  constructor
  · rw [ho, hid]; exact h.odo
  · rw [hp, hid]; exact h.priv
  · rw [hs, hid]; exact h.shared
  · exact h.wf
  · rw [hd]; exact h.dims
  · rw [hid]; exact h.touch
  · exact h.distinct
  · intro e
    rw [he, h.idx]; unfold bucketIdx; rw [ho, hp, hs]
  · rw [hid, hn]; exact h.n_ub
  · rw [hid, hn]; exact h.n_lub
  · rw [hl]; exact h.localSorted
  · rw [hnb]; exact h.nbrSorted
  · rw [hr]; exact h.robotsSorted
  · rw [hl, hid]; exact h.localMem
  · rw [hnb, hid]; exact h.nbrMem
  · rw [hr, hid]; exact h.robotsMem
  · rw [ha, hr]; exact h.activeKeys

theorem inv_empty (g : PoseGraph K) : Inv g.empty [] := by
  constructor <;> try (simp [PoseGraph.empty, clearPriors, clearDataMatrices, clearNeighborPoses,
    clearLinearMatrix, clearQuadraticMatrix, OSet.Sorted, OMap.keys]; done)
  · intro e
    simp [PoseGraph.empty, clearPriors, clearDataMatrices, clearNeighborPoses,
      clearLinearMatrix, clearQuadraticMatrix, EdgeMap.get?, bucketIdx]

/-- `hasMeasurement` on a well-formed measurement is membership in the log. -/
theorem Inv.hasMeasurement_iff {g : PoseGraph K} {log : List (Meas K)} (h : Inv g log)
    (m : Meas K) (hm : MeasWF m) (ht : touches g.id m = true) :
    g.hasMeasurement m.src m.dst = log.any (sameEnds m) := by
  rw [Bool.eq_iff_iff]
  unfold hasMeasurement
  change (g.edgeIndex.get? m.edge).isSome = true ↔ _
  rw [h.idx, List.any_eq_true]
  rw [touches_iff] at ht
  unfold bucketIdx
  split
  · rename_i ho
    rw [hm.edge_isOdometry] at ho
    rw [List.findIdx?_isSome, List.any_eq_true, h.odo]
    constructor
    · rintro ⟨x, hx, e⟩
      rw [List.mem_filter] at hx
      rw [decide_eq_true_eq, eq_comm, hm.edge_eq_edge (h.wf x hx.1)] at e
      exact ⟨x, hx.1, e⟩
    · rintro ⟨x, hx, e⟩
      refine ⟨x, List.mem_filter.2 ⟨hx, ?_⟩, ?_⟩
      · rw [sameEnds_iff] at e; rw [isOdo_iff]; omega
      · rw [decide_eq_true_eq, eq_comm, hm.edge_eq_edge (h.wf x hx)]; exact e
  · split
    · rename_i ho
      rw [hm.edge_isPrivate] at ho
      rw [List.findIdx?_isSome, List.any_eq_true, h.priv]
      constructor
      · rintro ⟨x, hx, e⟩
        rw [List.mem_filter] at hx
        rw [decide_eq_true_eq, eq_comm, hm.edge_eq_edge (h.wf x hx.1)] at e
        exact ⟨x, hx.1, e⟩
      · rintro ⟨x, hx, e⟩
        refine ⟨x, List.mem_filter.2 ⟨hx, ?_⟩, ?_⟩
        · rw [sameEnds_iff] at e; rw [isPriv_iff]; omega
        · rw [decide_eq_true_eq, eq_comm, hm.edge_eq_edge (h.wf x hx)]; exact e
    · rename_i h1 h2
      rw [hm.edge_isOdometry] at h1
      rw [hm.edge_isPrivate] at h2
      rw [List.findIdx?_isSome, List.any_eq_true, h.shared]
      constructor
      · rintro ⟨x, hx, e⟩
        rw [List.mem_filter] at hx
        rw [decide_eq_true_eq, eq_comm, hm.edge_eq_edge (h.wf x hx.1)] at e
        exact ⟨x, hx.1, e⟩
      · rintro ⟨x, hx, e⟩
        refine ⟨x, List.mem_filter.2 ⟨hx, ?_⟩, ?_⟩
        · rw [sameEnds_iff] at e; rw [isShared_iff]; omega
        · rw [decide_eq_true_eq, eq_comm, hm.edge_eq_edge (h.wf x hx)]; exact e

theorem get?_none_of_not_has {g : PoseGraph K} {m : Meas K}
    (h : g.hasMeasurement m.src m.dst = false) : g.edgeIndex.get? m.edge = none := by
  unfold hasMeasurement at h
  change (g.edgeIndex.get? m.edge).isSome = false at h
  cases hh : g.edgeIndex.get? m.edge <;> simp_all

/-- findIdx? in a list extended by one element. -/
theorem findIdx?_snoc (l : List (Meas K)) (m : Meas K) (e : EdgeID) :
    (l ++ [m]).findIdx? (fun m => decide (m.edge = e)) =
      (l.findIdx? (fun m => decide (m.edge = e))).or (if m.edge = e then some l.length else none) := by
  rw [List.findIdx?_append]
  congr 1
  by_cases h : m.edge = e <;> simp [List.findIdx?_cons, h]

/-- Common part of the three insertions. -/
theorem Inv.snoc {g g' : PoseGraph K} {log : List (Meas K)} (h : Inv g log) (m : Meas K)
    (hm : MeasWF m) (ht : touches g.id m = true) (hd : MDims g.d m)
    (hnot : log.any (sameEnds m) = false)
    (hid : g'.id = g.id) (hdd : g'.d = g.d)
    (hn : g'.n = max g.n ((ownIndices g.id m).foldr max 0 + 1))
    (ho : g'.odometry = g.odometry ++ (if isOdo g.id m then [m] else []))
    (hp : g'.privateLcs = g.privateLcs ++ (if isPriv g.id m then [m] else []))
    (hs : g'.sharedLcs = g.sharedLcs ++ (if isShared g.id m then [m] else []))
    (he : ∀ e, g'.edgeIndex.get? e = if e = m.edge then
        (if isOdo g.id m then some g.odometry.length
         else if isPriv g.id m then some g.privateLcs.length else some g.sharedLcs.length)
        else g.edgeIndex.get? e)
    (hl : g'.localShared = if isShared g.id m then
        OSet.insert ltPoseID (ownPose g.id m) g.localShared else g.localShared)
    (hnb : g'.nbrShared = if isShared g.id m then
        OSet.insert ltPoseID (foreignPose g.id m) g.nbrShared else g.nbrShared)
    (hr : g'.nbrRobots = if isShared g.id m then
        OSet.insert ltNat (foreignPose g.id m).robot g.nbrRobots else g.nbrRobots)
    (ha : OMap.keys g'.nbrActive = if isShared g.id m then
        OSet.insert ltNat (foreignPose g.id m).robot (OMap.keys g.nbrActive)
        else OMap.keys g.nbrActive) :
    Inv g' (log ++ [m]) := by
  have hnone : g.edgeIndex.get? m.edge = none := by
    apply get?_none_of_not_has
    rw [h.hasMeasurement_iff m hm ht, hnot]
  rw [touches_iff] at ht
  constructor
  · rw [ho, hid, List.filter_append, h.odo]; congr 1
    by_cases c : isOdo g.id m = true <;> simp [c]
  · rw [hp, hid, List.filter_append, h.priv]; congr 1
    by_cases c : isPriv g.id m = true <;> simp [c]
  · rw [hs, hid, List.filter_append, h.shared]; congr 1
    by_cases c : isShared g.id m = true <;> simp [c]
  · intro x hx
    rcases List.mem_append.1 hx with hx | hx
    · exact h.wf x hx
    · simp at hx; exact hx ▸ hm
  · intro x hx
    rw [hdd]
    rcases List.mem_append.1 hx with hx | hx
    · exact h.dims x hx
    · simp at hx; exact hx ▸ hd
  · intro x hx
    rw [hid]
    rcases List.mem_append.1 hx with hx | hx
    · exact h.touch x hx
    · simp at hx; rw [hx, touches_iff]; exact ht
  · rw [List.pairwise_append]
    refine ⟨h.distinct, by simp, ?_⟩
    intro a ha' b hb
    simp at hb; subst hb
    rw [List.any_eq_false] at hnot
    have := hnot a ha'
    rw [← Bool.not_eq_true]
    intro hc
    apply this
    rw [sameEnds_iff] at hc ⊢
    omega
  · intro e
    rw [he]
    by_cases hee : e = m.edge
    · rw [if_pos hee]
      subst hee
      have hb := h.idx m.edge
      rw [hnone] at hb
      unfold bucketIdx at hb ⊢
      by_cases c1 : m.edge.isOdometry = true
      · simp only [c1, if_true] at hb ⊢
        have c1' := hm.edge_isOdometry.1 c1
        have c2 : isOdo g.id m = true := by rw [isOdo_iff]; omega
        rw [ho]; simp only [c2, if_true]
        rw [findIdx?_snoc, ← hb]; simp
      · simp only [c1, Bool.false_eq_true, if_false] at hb ⊢
        have c1' := mt hm.edge_isOdometry.2 c1
        have c2 : isOdo g.id m = false := by
          rw [← Bool.not_eq_true, isOdo_iff]; omega
        simp only [c2, Bool.false_eq_true, if_false]
        by_cases c3 : m.edge.isPrivateLoopClosure = true
        · simp only [c3, if_true] at hb ⊢
          have c3' := hm.edge_isPrivate.1 c3
          have c4 : isPriv g.id m = true := by rw [isPriv_iff]; omega
          rw [hp]; simp only [c4, if_true]
          rw [findIdx?_snoc, ← hb]; simp
        · simp only [c3, Bool.false_eq_true, if_false] at hb ⊢
          have c3' := mt hm.edge_isPrivate.2 c3
          have c4 : isPriv g.id m = false := by
            rw [← Bool.not_eq_true, isPriv_iff]; omega
          have c5 : isShared g.id m = true := by
            rw [isShared_iff]; omega
          rw [hs]; simp only [c4, c5, if_true, Bool.false_eq_true, if_false]
          rw [findIdx?_snoc, ← hb]; simp
    · rw [if_neg hee, h.idx]
      have hne : ¬ m.edge = e := fun x => hee x.symm
      unfold bucketIdx
      split
      · rw [ho]
        split
        · rw [findIdx?_snoc, if_neg hne]; simp
        · simp
      · split
        · rw [hp]
          split
          · rw [findIdx?_snoc, if_neg hne]; simp
          · simp
        · rw [hs]
          split
          · rw [findIdx?_snoc, if_neg hne]; simp
          · simp
  · intro x hx i hi
    rw [hid] at hi
    rw [hn]
    rcases List.mem_append.1 hx with hx | hx
    · have := h.n_ub x hx i hi; omega
    · simp at hx; subst hx
      have := le_foldr_max hi
      omega
  · right
    rw [hid, hn]
    by_cases hle : (ownIndices g.id m).foldr max 0 + 1 ≤ g.n
    · rcases h.n_lub with hz | ⟨x, hx, i, hi, e⟩
      · omega
      · exact ⟨x, by simp [hx], i, hi, by omega⟩
    · have : ∃ i ∈ ownIndices g.id m, i = (ownIndices g.id m).foldr max 0 := by
        unfold ownIndices
        rcases ht with ht | ht
        · by_cases h2 : m.r2 = g.id
          · simp only [ht, h2, if_true]
            rcases Nat.le_total m.p1 m.p2 with hh | hh
            · exact ⟨m.p2, by simp, by simp; omega⟩
            · exact ⟨m.p1, by simp, by simp; omega⟩
          · exact ⟨m.p1, by simp [ht, h2], by simp [ht, h2]⟩
        · by_cases h2 : m.r1 = g.id
          · simp only [ht, h2, if_true]
            rcases Nat.le_total m.p1 m.p2 with hh | hh
            · exact ⟨m.p2, by simp, by simp; omega⟩
            · exact ⟨m.p1, by simp, by simp; omega⟩
          · exact ⟨m.p2, by simp [ht, h2], by simp [ht, h2]⟩
      obtain ⟨i, hi, e⟩ := this
      exact ⟨m, by simp, i, hi, by omega⟩
  · rw [hl]; split
    · exact OSet.sorted_insert strictTotal_ltPoseID _ _ h.localSorted
    · exact h.localSorted
  · rw [hnb]; split
    · exact OSet.sorted_insert strictTotal_ltPoseID _ _ h.nbrSorted
    · exact h.nbrSorted
  · rw [hr]; split
    · exact OSet.sorted_insert strictTotal_ltNat _ _ h.robotsSorted
    · exact h.robotsSorted
  · intro p
    rw [hl, hid]
    split
    · rename_i c
      rw [OSet.mem_insert strictTotal_ltPoseID, h.localMem]
      constructor
      · rintro (r | ⟨x, hx, hh⟩)
        · exact ⟨m, by simp, c, r.symm⟩
        · exact ⟨x, by simp [hx], hh⟩
      · rintro ⟨x, hx, hh⟩
        rcases List.mem_append.1 hx with hx | hx
        · exact Or.inr ⟨x, hx, hh⟩
        · simp at hx; subst hx; exact Or.inl hh.2.symm
    · rename_i c
      rw [h.localMem]
      constructor
      · rintro ⟨x, hx, hh⟩; exact ⟨x, by simp [hx], hh⟩
      · rintro ⟨x, hx, hh⟩
        rcases List.mem_append.1 hx with hx | hx
        · exact ⟨x, hx, hh⟩
        · simp at hx; subst hx; exact absurd hh.1 c
  · intro p
    rw [hnb, hid]
    split
    · rename_i c
      rw [OSet.mem_insert strictTotal_ltPoseID, h.nbrMem]
      constructor
      · rintro (r | ⟨x, hx, hh⟩)
        · exact ⟨m, by simp, c, r.symm⟩
        · exact ⟨x, by simp [hx], hh⟩
      · rintro ⟨x, hx, hh⟩
        rcases List.mem_append.1 hx with hx | hx
        · exact Or.inr ⟨x, hx, hh⟩
        · simp at hx; subst hx; exact Or.inl hh.2.symm
    · rename_i c
      rw [h.nbrMem]
      constructor
      · rintro ⟨x, hx, hh⟩; exact ⟨x, by simp [hx], hh⟩
      · rintro ⟨x, hx, hh⟩
        rcases List.mem_append.1 hx with hx | hx
        · exact ⟨x, hx, hh⟩
        · simp at hx; subst hx; exact absurd hh.1 c
  · intro p
    rw [hr, hid]
    split
    · rename_i c
      rw [OSet.mem_insert strictTotal_ltNat, h.robotsMem]
      constructor
      · rintro (r | ⟨x, hx, hh⟩)
        · exact ⟨m, by simp, c, r.symm⟩
        · exact ⟨x, by simp [hx], hh⟩
      · rintro ⟨x, hx, hh⟩
        rcases List.mem_append.1 hx with hx | hx
        · exact Or.inr ⟨x, hx, hh⟩
        · simp at hx; subst hx; exact Or.inl hh.2.symm
    · rename_i c
      rw [h.robotsMem]
      constructor
      · rintro ⟨x, hx, hh⟩; exact ⟨x, by simp [hx], hh⟩
      · rintro ⟨x, hx, hh⟩
        rcases List.mem_append.1 hx with hx | hx
        · exact ⟨x, hx, hh⟩
        · simp at hx; subst hx; exact absurd hh.1 c
  · rw [ha, hr, h.activeKeys]

/-- Adding a well-formed measurement preserves the invariant (and follows the specification). -/
theorem Inv.addMeasurement {g g' : PoseGraph K} {log : List (Meas K)} (h : Inv g log) (m : Meas K)
    (hm : MeasWF m) (e : g.addMeasurement m = ok g') : Inv g' (Spec.add g.id log m) ∧ g'.id = g.id := by
  unfold PoseGraph.addMeasurement at e
  by_cases c0 : (m.r1 != g.id && m.r2 != g.id) = true
  · rw [if_pos c0] at e
    cases e
    have : touches g.id m = false := by
      rw [← Bool.not_eq_true, touches_iff]
      simp at c0; omega
    simp [Spec.add, this, h]
  · rw [if_neg c0] at e
    have ht : touches g.id m = true := by
      rw [touches_iff]; simp at c0; omega
    have hh := h.hasMeasurement_iff m hm ht
    have hwf := hm
    unfold MeasWF at hwf
    by_cases dup : log.any (sameEnds m) = true
    · have : Spec.add g.id log m = log := by simp [Spec.add, dup]
      rw [this]
      rw [dup] at hh
      have : g' = g := by
        split at e
        · split at e
          · simp [addOdometry, hh] at e; exact e.symm
          · simp [addPrivateLoopClosure, hh] at e; exact e.symm
        · simp [addSharedLoopClosure, hh] at e; exact e.symm
      subst this; exact ⟨h, rfl⟩
    · have dup' : log.any (sameEnds m) = false := by simpa using dup
      have hadd : Spec.add g.id log m = log ++ [m] := by simp [Spec.add, dup', ht]
      rw [hadd]
      rw [dup'] at hh
      have hnone := get?_none_of_not_has hh
      by_cases c1 : (m.r1 == g.id && m.r2 == g.id) = true
      · rw [if_pos c1] at e
        simp only [Bool.and_eq_true, beq_iff_eq] at c1
        have hns : isShared g.id m = false := by
          rw [← Bool.not_eq_true, isShared_iff]; omega
        by_cases c2 : (u64 (m.p1 + 1) == m.p2) = true
        · rw [if_pos c2] at e
          rw [u64_of_lt (by omega)] at c2
          simp only [beq_iff_eq] at c2
          have hod : isOdo g.id m = true := by rw [isOdo_iff]; omega
          have hnp : isPriv g.id m = false := by
            rw [← Bool.not_eq_true, isPriv_iff]; omega
          unfold addOdometry at e
          rw [hh] at e
          simp only [Bool.false_eq_true, if_false, bind_eq_ok, check_eq_ok, exists_and_left,
            exists_const] at e
          obtain ⟨-, -, -, hdim, e⟩ := e
          rw [dimsOk_iff] at hdim
          cases e
          refine ⟨h.snoc m hm ht hdim dup' rfl rfl ?_ ?_ ?_ ?_ ?_ ?_ ?_ ?_ ?_, rfl⟩
          · simp only [ownIndices, c1.1, c1.2, if_true]
            rw [u32_of_lt (x := m.p2) (by omega), u32_of_lt (by omega)]
            simp; omega
          · simp [hod]
          · simp [hnp]
          · simp [hns]
          · intro e
            simp only
            rw [EdgeMap.get?_emplace_of_none _ _ _ _ hnone]
            simp [hod]
          · simp [hns]
          · simp [hns]
          · simp [hns]
          · simp [hns]
        · rw [if_neg c2] at e
          rw [u64_of_lt (by omega)] at c2
          simp only [beq_iff_eq] at c2
          have hod : isOdo g.id m = false := by
            rw [← Bool.not_eq_true, isOdo_iff]; omega
          have hnp : isPriv g.id m = true := by
            rw [isPriv_iff]; omega
          unfold addPrivateLoopClosure at e
          rw [hh] at e
          simp only [Bool.false_eq_true, if_false, bind_eq_ok, check_eq_ok, exists_and_left,
            exists_const] at e
          obtain ⟨-, -, hdim, e⟩ := e
          rw [dimsOk_iff] at hdim
          cases e
          refine ⟨h.snoc m hm ht hdim dup' rfl rfl ?_ ?_ ?_ ?_ ?_ ?_ ?_ ?_ ?_, rfl⟩
          · simp only [ownIndices, c1.1, c1.2, if_true]
            rw [u64_of_lt (x := m.p2 + 1) (by omega), u64_of_lt (by omega), u32_of_lt (by omega)]
            simp
          · simp [hod]
          · simp [hnp]
          · simp [hns]
          · intro e
            simp only
            rw [EdgeMap.get?_emplace_of_none _ _ _ _ hnone]
            simp [hod, hnp]
          · simp [hns]
          · simp [hns]
          · simp [hns]
          · simp [hns]
      · rw [if_neg c1] at e
        simp only [Bool.and_eq_true, beq_iff_eq] at c1
        rw [touches_iff] at ht
        have hsh : isShared g.id m = true := by rw [isShared_iff]; omega
        have hod : isOdo g.id m = false := by
          rw [← Bool.not_eq_true, isOdo_iff]; omega
        have hnp : isPriv g.id m = false := by
          rw [← Bool.not_eq_true, isPriv_iff]; omega
        unfold addSharedLoopClosure at e
        rw [hh] at e
        simp only [Bool.false_eq_true, if_false, bind_eq_ok, check_eq_ok, exists_and_left,
          exists_const] at e
        obtain ⟨hdim, e⟩ := e
        rw [dimsOk_iff] at hdim
        by_cases c3 : (m.r1 == g.id) = true
        · rw [if_pos c3] at e
          simp only [beq_iff_eq] at c3
          simp only [bind_eq_ok, check_eq_ok, exists_and_left, exists_const] at e
          obtain ⟨-, e⟩ := e
          cases e
          have h2 : m.r2 ≠ g.id := by omega
          refine ⟨h.snoc m hm ((touches_iff _ _).2 ht) hdim dup' rfl rfl ?_ ?_ ?_ ?_ ?_ ?_ ?_ ?_ ?_, rfl⟩
          · simp only [ownIndices, c3, h2, if_true, if_false]
            rw [u32_of_lt (x := m.p1) (by omega), u32_of_lt (by omega)]
            simp
          · simp [hod]
          · simp [hnp]
          · simp [hsh]
          · intro e
            simp only
            rw [EdgeMap.get?_emplace_of_none _ _ _ _ hnone]
            simp [hod, hnp]
          · simp only [hsh, if_true, ownPose, c3]
            have := hm.src_eq; unfold Meas.src at this; rw [c3] at this; rw [this]
          · simp only [hsh, if_true, foreignPose, c3]
            have := hm.dst_eq; unfold Meas.dst at this; rw [this]
          · simp only [hsh, if_true, foreignPose, c3]
            rw [u32_of_lt (by omega)]
          · simp only [hsh, if_true, foreignPose, c3]
            rw [u32_of_lt (by omega), OMap.keys_insert]
        · rw [if_neg c3] at e
          simp only [beq_iff_eq] at c3
          simp only [bind_eq_ok, check_eq_ok, exists_and_left, exists_const, beq_iff_eq] at e
          obtain ⟨h2, e⟩ := e
          cases e
          refine ⟨h.snoc m hm ((touches_iff _ _).2 ht) hdim dup' rfl rfl ?_ ?_ ?_ ?_ ?_ ?_ ?_ ?_ ?_, rfl⟩
          · simp only [ownIndices, c3, h2, if_true, if_false]
            rw [u32_of_lt (x := m.p2) (by omega), u32_of_lt (by omega)]
            simp
          · simp [hod]
          · simp [hnp]
          · simp [hsh]
          · intro e
            simp only
            rw [EdgeMap.get?_emplace_of_none _ _ _ _ hnone]
            simp [hod, hnp]
          · simp only [hsh, if_true, ownPose, c3, if_false]
            have := hm.dst_eq; unfold Meas.dst at this; rw [this]
          · simp only [hsh, if_true, foreignPose, c3, if_false]
            have := hm.src_eq; unfold Meas.src at this; rw [this]
          · simp only [hsh, if_true, foreignPose, c3, if_false]
            rw [u32_of_lt (by omega)]
          · simp only [hsh, if_true, foreignPose, c3, if_false]
            rw [u32_of_lt (by omega), OMap.keys_insert]

end PoseGraph
end Dpgo
