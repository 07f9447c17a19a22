import Verif.Lemmas.PoseGraph

/-! # The representation invariant along histories -/

namespace Dpgo

open Res Spec

theorem OSet.insert_of_mem {κ : Type} {lt : κ → κ → Bool} (h : StrictTotal lt) {k : κ} {s : OSet κ}
    (hs : OSet.Sorted lt s) (hk : k ∈ s) : OSet.insert lt k s = s := by
  apply OSet.sorted_ext h (OSet.sorted_insert h _ _ hs) hs
  intro x
  rw [OSet.mem_insert h]
  constructor
  · rintro (r | r)
    · exact r ▸ hk
    · exact r
  · exact Or.inr

theorem OMap.keys_insert_of_mem {κ β : Type} {lt : κ → κ → Bool} (h : StrictTotal lt) {k : κ}
    {v : β} {m : OMap κ β} (hs : OMap.Sorted lt m) (hk : k ∈ OMap.keys m) :
    OMap.keys (OMap.insert lt k v m) = OMap.keys m := by
  rw [OMap.keys_insert, OSet.insert_of_mem h hs hk]

namespace PoseGraph
variable {K : Type}

theorem keys_foldl_insert (l : List Nat) (m : OMap Nat Bool) (hs : OMap.Sorted ltNat m)
    (hl : ∀ i ∈ l, i ∈ OMap.keys m) :
    OMap.keys (l.foldl (fun m i => OMap.insert ltNat i true m) m) = OMap.keys m := by
  induction l generalizing m with
  | nil => rfl
  | cons a t ih =>
    rw [List.foldl_cons]
    have hk := OMap.keys_insert_of_mem (v := true) strictTotal_ltNat hs (hl a (by simp))
    rw [ih _ (OMap.sorted_insert strictTotal_ltNat _ _ _ hs), hk]
    intro i hi
    rw [hk]
    exact hl i (by simp [hi])

theorem Inv.nbrActive_sorted {g : PoseGraph K} {log : List (Meas K)} (h : Inv g log) :
    OMap.Sorted ltNat g.nbrActive := by
  unfold OMap.Sorted
  rw [h.activeKeys]
  exact h.robotsSorted

theorem Inv.reset {g : PoseGraph K} {log : List (Meas K)} (h : Inv g log) : Inv g.reset log := by
  refine Inv.congr (g' := g.reset) h ?_ ?_ ?_ ?_ ?_ ?_ ?_ ?_ ?_ ?_ ?_
  iterate 10 (simp only [PoseGraph.reset, clearNeighborPoses, clearDataMatrices,
    clearLinearMatrix, clearQuadraticMatrix, clearPriors])
  refine keys_foldl_insert _ _ h.nbrActive_sorted ?_
  intro i hi
  show i ∈ OMap.keys g.nbrActive
  rw [h.activeKeys]
  exact hi

theorem foldl_addMeasurement {ms : List (Meas K)} {g g' : PoseGraph K} {log : List (Meas K)}
    (h : Inv g log) (hm : ∀ m ∈ ms, MeasWF m) (e : Res.foldl addMeasurement g ms = ok g') :
    Inv g' (ms.foldl (Spec.add g.id) log) ∧ g'.id = g.id := by
  induction ms generalizing g log with
  | nil => simp at e; subst e; exact ⟨h, rfl⟩
  | cons m t ih =>
    rw [foldl_cons, bind_eq_ok'] at e
    obtain ⟨g1, e1, e⟩ := e
    obtain ⟨h1, hid⟩ := h.addMeasurement m (hm m (by simp)) e1
    have := ih h1 (fun x hx => hm x (by simp [hx])) e
    rw [hid] at this
    exact this

/-- The bucket an edge id points into (by its ids), for stored well-formed edges. -/
theorem Inv.find_spec {g : PoseGraph K} {log : List (Meas K)} (h : Inv g log) (src dst : PoseID) :
    (g.findMeasurement src dst = ok none ∧ (∀ m ∈ log, hasEnds src dst m = false)) ∨
    (∃ p m, g.findMeasurement src dst = ok (some p) ∧ g.deref p = some m ∧ m ∈ log ∧
      hasEnds src dst m = true ∧
      ((isOdo g.id m = true ∧ ∃ i, p = .odo i) ∨ (isPriv g.id m = true ∧ ∃ i, p = .priv i) ∨
       (isShared g.id m = true ∧ ∃ i, p = .shared i))) := by
  have hidx := h.idx ⟨src, dst⟩
  unfold findMeasurement
  cases hg : g.edgeIndex.get? ⟨src, dst⟩ with
  | none =>
    left
    refine ⟨rfl, ?_⟩
    intro m hm
    rw [hg] at hidx
    rw [← Bool.not_eq_true]
    intro hc
    have hwf := h.wf m hm
    have he : m.edge = ⟨src, dst⟩ := (hwf.edge_eq_iff _).2 hc
    have ht := h.touch m hm
    rw [touches_iff] at ht
    rw [← he] at hidx
    unfold bucketIdx at hidx
    split at hidx
    · rename_i c
      rw [hwf.edge_isOdometry] at c
      have := List.findIdx?_eq_none_iff.1 hidx.symm m
        (by rw [h.odo]; exact List.mem_filter.2 ⟨hm, by rw [isOdo_iff]; omega⟩)
      simp at this
    · rename_i c
      rw [hwf.edge_isOdometry] at c
      split at hidx
      · rename_i c2
        rw [hwf.edge_isPrivate] at c2
        have := List.findIdx?_eq_none_iff.1 hidx.symm m
          (by rw [h.priv]; exact List.mem_filter.2 ⟨hm, by rw [isPriv_iff]; omega⟩)
        simp at this
      · rename_i c2
        rw [hwf.edge_isPrivate] at c2
        have := List.findIdx?_eq_none_iff.1 hidx.symm m
          (by rw [h.shared]; exact List.mem_filter.2 ⟨hm, by rw [isShared_iff]; omega⟩)
        simp at this
  | some i =>
    right
    rw [hg] at hidx
    have key : ∀ m, m ∈ log → decide (m.edge = ⟨src, dst⟩) = true → hasEnds src dst m = true := by
      intro m hm hd
      rw [decide_eq_true_eq] at hd
      exact ((h.wf m hm).edge_eq_iff ⟨src, dst⟩).1 hd
    simp only
    unfold bucketIdx at hidx
    by_cases c : (EdgeID.mk src dst).isOdometry = true
    · simp only [c, if_true] at hidx ⊢
      obtain ⟨hlt, hp, -⟩ := List.findIdx?_eq_some_iff_getElem.1 hidx.symm
      have hmem : g.odometry[i] ∈ log.filter (isOdo g.id) := by
        rw [← h.odo]; exact List.getElem_mem _
      rw [List.mem_filter] at hmem
      have he := key _ hmem.1 hp
      refine ⟨.odo i, g.odometry[i], ?_, ?_, hmem.1, he, Or.inl ⟨hmem.2, i, rfl⟩⟩
      · simp only [deref, List.getElem?_eq_getElem hlt]
        rw [hasEnds_iff] at he
        simp [he.1, he.2.1, he.2.2.1, he.2.2.2]
      · simp only [deref, List.getElem?_eq_getElem hlt]
    · simp only [c, Bool.false_eq_true, if_false] at hidx ⊢
      by_cases c2 : (EdgeID.mk src dst).isPrivateLoopClosure = true
      · simp only [c2, if_true] at hidx ⊢
        obtain ⟨hlt, hp, -⟩ := List.findIdx?_eq_some_iff_getElem.1 hidx.symm
        have hmem : g.privateLcs[i] ∈ log.filter (isPriv g.id) := by
          rw [← h.priv]; exact List.getElem_mem _
        rw [List.mem_filter] at hmem
        have he := key _ hmem.1 hp
        refine ⟨.priv i, g.privateLcs[i], ?_, ?_, hmem.1, he, Or.inr (Or.inl ⟨hmem.2, i, rfl⟩)⟩
        · simp only [deref, List.getElem?_eq_getElem hlt]
          rw [hasEnds_iff] at he
          simp [he.1, he.2.1, he.2.2.1, he.2.2.2]
        · simp only [deref, List.getElem?_eq_getElem hlt]
      · simp only [c2, Bool.false_eq_true, if_false] at hidx ⊢
        obtain ⟨hlt, hp, -⟩ := List.findIdx?_eq_some_iff_getElem.1 hidx.symm
        have hmem : g.sharedLcs[i] ∈ log.filter (isShared g.id) := by
          rw [← h.shared]; exact List.getElem_mem _
        rw [List.mem_filter] at hmem
        have he := key _ hmem.1 hp
        refine ⟨.shared i, g.sharedLcs[i], ?_, ?_, hmem.1, he, Or.inr (Or.inr ⟨hmem.2, i, rfl⟩)⟩
        · simp only [deref, List.getElem?_eq_getElem hlt]
          rw [hasEnds_iff] at he
          simp [he.1, he.2.1, he.2.2.1, he.2.2.2]
        · simp only [deref, List.getElem?_eq_getElem hlt]

theorem setWeight_fields (src dst : PoseID) (w : K) (f : Bool) (m : Meas K) :
    (setWeight src dst w f m).r1 = m.r1 ∧ (setWeight src dst w f m).r2 = m.r2 ∧
    (setWeight src dst w f m).p1 = m.p1 ∧ (setWeight src dst w f m).p2 = m.p2 ∧
    (setWeight src dst w f m).R = m.R ∧ (setWeight src dst w f m).t = m.t := by
  unfold setWeight; split <;> simp

/-- A map that keeps endpoints commutes with filters that only look at endpoints. -/
theorem filter_map_comm (f : Meas K → Meas K) (q : Meas K → Bool) (hq : ∀ m, q (f m) = q m)
    (l : List (Meas K)) : (l.map f).filter q = (l.filter q).map f := by
  rw [List.filter_map]
  congr 1
  exact List.filter_congr (fun x _ => hq x)

/-- Modifying position `i` of a list with distinct endpoints = mapping. -/
theorem modify_eq_map (l : List (Meas K)) (i : Nat) (src dst : PoseID) (w : K) (f : Bool)
    (hd : l.Pairwise (fun a b => sameEnds a b = false)) (m : Meas K) (hi : l[i]? = some m)
    (he : hasEnds src dst m = true) :
    l.modify i (fun m => { m with weight := w, fixedWeight := f }) =
      l.map (setWeight src dst w f) := by
  apply List.ext_getElem
  · simp
  · intro j h1 h2
    rw [List.getElem_modify, List.getElem_map]
    have hil : i < l.length := by
      rw [List.getElem?_eq_some_iff] at hi; exact hi.1
    have hm : l[i] = m := by
      rw [List.getElem?_eq_some_iff] at hi; exact hi.2
    have hj : j < l.length := by simpa using h2
    split
    · rename_i c
      subst c
      rw [hm]; simp [setWeight, he]
    · rename_i c
      unfold setWeight
      rw [if_neg]
      intro hc
      rw [hasEnds_iff] at he hc
      rw [← hm] at he
      rcases Nat.lt_or_ge i j with h | h
      · have := List.pairwise_iff_getElem.1 hd i j hil hj h
        rw [← Bool.not_eq_true, sameEnds_iff] at this
        omega
      · have := List.pairwise_iff_getElem.1 hd j i hj hil (by omega)
        rw [← Bool.not_eq_true, sameEnds_iff] at this
        omega

theorem map_setWeight_eq_self (l : List (Meas K)) (src dst : PoseID) (w : K) (f : Bool)
    (h : ∀ m ∈ l, hasEnds src dst m = false) : l.map (setWeight src dst w f) = l := by
  conv_rhs => rw [← List.map_id l]
  apply List.map_congr_left
  intro m hm
  simp [setWeight, h m hm]

theorem findIdx?_map_setWeight (l : List (Meas K)) (src dst : PoseID) (w : K) (f : Bool) (e : EdgeID) :
    (l.map (setWeight src dst w f)).findIdx? (fun m => decide (m.edge = e)) =
      l.findIdx? (fun m => decide (m.edge = e)) := by
  rw [List.findIdx?_map]
  congr 1
  funext m
  have F := setWeight_fields src dst w f m
  have : (setWeight src dst w f m).edge = m.edge := by
    simp only [Meas.edge, Meas.src, Meas.dst, F.1, F.2.1, F.2.2.1, F.2.2.2.1]
  simp only [Function.comp, this]

/-- Mapping the log with a weight change keeps the invariant. -/
theorem Inv.mapWeight {g g' : PoseGraph K} {log : List (Meas K)} (h : Inv g log)
    (src dst : PoseID) (w : K) (f : Bool)
    (ho : g'.odometry = g.odometry.map (setWeight src dst w f))
    (hp : g'.privateLcs = g.privateLcs.map (setWeight src dst w f))
    (hs : g'.sharedLcs = g.sharedLcs.map (setWeight src dst w f))
    (hid : g'.id = g.id) (hd : g'.d = g.d) (hn : g'.n = g.n)
    (hl : g'.localShared = g.localShared)
    (hnb : g'.nbrShared = g.nbrShared) (hr : g'.nbrRobots = g.nbrRobots)
    (he : g'.edgeIndex = g.edgeIndex)
    (ha : OMap.keys g'.nbrActive = OMap.keys g.nbrActive) :
    Inv g' (log.map (setWeight src dst w f)) := by
  have F := setWeight_fields (K := K) src dst w f
  have own : ∀ m, ownIndices g.id (setWeight src dst w f m) = ownIndices g.id m := by
    intro m; simp [ownIndices, F m]
  have sh : ∀ m, isShared g.id (setWeight src dst w f m) = isShared g.id m := by
    intro m; simp [isShared, F m]
  constructor
  · rw [ho, hid, h.odo, filter_map_comm]; intro m; simp [isOdo, F m]
  · rw [hp, hid, h.priv, filter_map_comm]; intro m; simp [isPriv, F m]
  · rw [hs, hid, h.shared, filter_map_comm]; exact sh
  · intro m hm
    obtain ⟨x, hx, rfl⟩ := List.mem_map.1 hm
    have := h.wf x hx
    unfold MeasWF at *; rw [(F x).1, (F x).2.1, (F x).2.2.1, (F x).2.2.2.1]; exact this
  · intro m hm
    obtain ⟨x, hx, rfl⟩ := List.mem_map.1 hm
    have := h.dims x hx
    rw [hd]; unfold MDims at *; rw [(F x).2.2.2.2.1, (F x).2.2.2.2.2]; exact this
  · intro m hm
    obtain ⟨x, hx, rfl⟩ := List.mem_map.1 hm
    have := h.touch x hx
    rw [hid]; unfold touches at *; rw [(F x).1, (F x).2.1]; exact this
  · rw [List.pairwise_map]
    refine h.distinct.imp ?_
    intro a b hab
    unfold sameEnds at *
    rw [(F a).1, (F a).2.1, (F a).2.2.1, (F a).2.2.2.1, (F b).1, (F b).2.1, (F b).2.2.1, (F b).2.2.2.1]
    exact hab
  · intro e
    rw [he, h.idx]
    unfold bucketIdx
    rw [ho, hp, hs]
    simp only [findIdx?_map_setWeight]
  · intro m hm i hi
    obtain ⟨x, hx, rfl⟩ := List.mem_map.1 hm
    rw [hid, own] at hi
    rw [hn]; exact h.n_ub x hx i hi
  · rw [hn, hid]
    rcases h.n_lub with r | ⟨m, hm, i, hi, e⟩
    · exact Or.inl r
    · exact Or.inr ⟨_, List.mem_map.2 ⟨m, hm, rfl⟩, i, by rw [own]; exact hi, e⟩
  · rw [hl]; exact h.localSorted
  · rw [hnb]; exact h.nbrSorted
  · rw [hr]; exact h.robotsSorted
  · intro p
    rw [hl, hid, h.localMem]
    constructor
    · rintro ⟨m, hm, a, b⟩
      exact ⟨_, List.mem_map.2 ⟨m, hm, rfl⟩, by rw [sh]; exact a, by simpa [ownPose, F m] using b⟩
    · rintro ⟨m, hm, a, b⟩
      obtain ⟨x, hx, rfl⟩ := List.mem_map.1 hm
      exact ⟨x, hx, by rw [sh] at a; exact a, by simpa [ownPose, F x] using b⟩
  · intro p
    rw [hnb, hid, h.nbrMem]
    constructor
    · rintro ⟨m, hm, a, b⟩
      exact ⟨_, List.mem_map.2 ⟨m, hm, rfl⟩, by rw [sh]; exact a, by simpa [foreignPose, F m] using b⟩
    · rintro ⟨m, hm, a, b⟩
      obtain ⟨x, hx, rfl⟩ := List.mem_map.1 hm
      exact ⟨x, hx, by rw [sh] at a; exact a, by simpa [foreignPose, F x] using b⟩
  · intro p
    rw [hr, hid, h.robotsMem]
    constructor
    · rintro ⟨m, hm, a, b⟩
      exact ⟨_, List.mem_map.2 ⟨m, hm, rfl⟩, by rw [sh]; exact a, by simpa [foreignPose, F m] using b⟩
    · rintro ⟨m, hm, a, b⟩
      obtain ⟨x, hx, rfl⟩ := List.mem_map.1 hm
      exact ⟨x, hx, by rw [sh] at a; exact a, by simpa [foreignPose, F x] using b⟩
  · rw [ha, hr]; exact h.activeKeys

/-- Distinctness is inherited by the three vectors. -/
theorem Inv.distinct_filter {g : PoseGraph K} {log : List (Meas K)} (h : Inv g log)
    (q : Meas K → Bool) : (log.filter q).Pairwise (fun a b => sameEnds a b = false) :=
  h.distinct.sublist List.filter_sublist

/-- Writing a weight through the found pointer. -/
theorem Inv.writeWeight {g : PoseGraph K} {log : List (Meas K)} (h : Inv g log)
    (src dst : PoseID) (w : K) (f : Bool) (p : MPtr) (m : Meas K) (hp : g.deref p = some m)
    (_hm : m ∈ log) (he : hasEnds src dst m = true)
    (hk : (isOdo g.id m = true ∧ ∃ i, p = .odo i) ∨ (isPriv g.id m = true ∧ ∃ i, p = .priv i) ∨
       (isShared g.id m = true ∧ ∃ i, p = .shared i)) :
    Inv (g.writeWeight p w f) (log.map (setWeight src dst w f)) := by
  rw [hasEnds_iff] at he
  have other : ∀ (q q' : Meas K → Bool), (∀ x, x.r1 = m.r1 → x.r2 = m.r2 → x.p1 = m.p1 →
      x.p2 = m.p2 → q x = q m) → q m = false → ∀ x ∈ log.filter q, hasEnds src dst x = false := by
    intro q _ hq hqm x hx
    rw [← Bool.not_eq_true]
    intro hc
    rw [hasEnds_iff] at hc
    rw [List.mem_filter] at hx
    have := hq x (by omega) (by omega) (by omega) (by omega)
    rw [hqm] at this
    rw [this] at hx
    exact absurd hx.2 (by simp)
  have co : ∀ x : Meas K, x.r1 = m.r1 → x.r2 = m.r2 → x.p1 = m.p1 → x.p2 = m.p2 →
      isOdo g.id x = isOdo g.id m := by intro x a b c d; simp [isOdo, a, b, c, d]
  have cp : ∀ x : Meas K, x.r1 = m.r1 → x.r2 = m.r2 → x.p1 = m.p1 → x.p2 = m.p2 →
      isPriv g.id x = isPriv g.id m := by intro x a b c d; simp [isPriv, a, b, c, d]
  have cs : ∀ x : Meas K, x.r1 = m.r1 → x.r2 = m.r2 → x.p1 = m.p1 → x.p2 = m.p2 →
      isShared g.id x = isShared g.id m := by intro x a b c d; simp [isShared, a, b]
  have he' : hasEnds src dst m = true := by rw [hasEnds_iff]; exact he
  rcases hk with ⟨hk, i, rfl⟩ | ⟨hk, i, rfl⟩ | ⟨hk, i, rfl⟩
  · have n1 : isPriv g.id m = false := by
      rw [isOdo_iff] at hk; rw [← Bool.not_eq_true, isPriv_iff]; omega
    have n2 : isShared g.id m = false := by
      rw [isOdo_iff] at hk; rw [← Bool.not_eq_true, isShared_iff]; omega
    refine h.mapWeight src dst w f ?_ ?_ ?_ rfl rfl rfl rfl rfl rfl rfl rfl
    · exact modify_eq_map _ _ _ _ _ _ (by rw [h.odo]; exact h.distinct_filter _) m hp he'
    · show g.privateLcs = _
      rw [map_setWeight_eq_self]
      rw [h.priv]; exact other _ (isPriv g.id) cp n1
    · show g.sharedLcs = _
      rw [map_setWeight_eq_self]
      rw [h.shared]; exact other _ (isPriv g.id) cs n2
  · have n1 : isOdo g.id m = false := by
      rw [isPriv_iff] at hk; rw [← Bool.not_eq_true, isOdo_iff]; omega
    have n2 : isShared g.id m = false := by
      rw [isPriv_iff] at hk; rw [← Bool.not_eq_true, isShared_iff]; omega
    refine h.mapWeight src dst w f ?_ ?_ ?_ rfl rfl rfl rfl rfl rfl rfl rfl
    · show g.odometry = _
      rw [map_setWeight_eq_self]
      rw [h.odo]; exact other _ (isPriv g.id) co n1
    · exact modify_eq_map _ _ _ _ _ _ (by rw [h.priv]; exact h.distinct_filter _) m hp he'
    · show g.sharedLcs = _
      rw [map_setWeight_eq_self]
      rw [h.shared]; exact other _ (isPriv g.id) cs n2
  · have n1 : isOdo g.id m = false := by
      rw [isShared_iff] at hk; rw [← Bool.not_eq_true, isOdo_iff]; omega
    have n2 : isPriv g.id m = false := by
      rw [isShared_iff] at hk; rw [← Bool.not_eq_true, isPriv_iff]; omega
    refine h.mapWeight src dst w f ?_ ?_ ?_ rfl rfl rfl rfl rfl rfl rfl rfl
    · show g.odometry = _
      rw [map_setWeight_eq_self]
      rw [h.odo]; exact other _ (isPriv g.id) co n1
    · show g.privateLcs = _
      rw [map_setWeight_eq_self]
      rw [h.priv]; exact other _ (isPriv g.id) cp n2
    · exact modify_eq_map _ _ _ _ _ _ (by rw [h.shared]; exact h.distinct_filter _) m hp he'

variable [Field K]

/-- Fields that no matrix construction touches. -/
structure SameBook (g g' : PoseGraph K) : Prop where
  id : g'.id = g.id
  r : g'.r = g.r
  d : g'.d = g.d
  n : g'.n = g.n
  odometry : g'.odometry = g.odometry
  privateLcs : g'.privateLcs = g.privateLcs
  sharedLcs : g'.sharedLcs = g.sharedLcs
  localShared : g'.localShared = g.localShared
  nbrShared : g'.nbrShared = g.nbrShared
  nbrRobots : g'.nbrRobots = g.nbrRobots
  nbrActive : g'.nbrActive = g.nbrActive
  neighborPoses : g'.neighborPoses = g.neighborPoses
  edgeIndex : g'.edgeIndex = g.edgeIndex
  useInactive : g'.useInactive = g.useInactive
  priors : g'.priors = g.priors

omit [Field K] in
theorem SameBook.refl (g : PoseGraph K) : SameBook g g := by constructor <;> rfl

omit [Field K] in
theorem SameBook.trans {a b c : PoseGraph K} (h : SameBook a b) (h' : SameBook b c) :
    SameBook a c := by
  constructor
  · rw [h'.id, h.id]
  · rw [h'.r, h.r]
  · rw [h'.d, h.d]
  · rw [h'.n, h.n]
  · rw [h'.odometry, h.odometry]
  · rw [h'.privateLcs, h.privateLcs]
  · rw [h'.sharedLcs, h.sharedLcs]
  · rw [h'.localShared, h.localShared]
  · rw [h'.nbrShared, h.nbrShared]
  · rw [h'.nbrRobots, h.nbrRobots]
  · rw [h'.nbrActive, h.nbrActive]
  · rw [h'.neighborPoses, h.neighborPoses]
  · rw [h'.edgeIndex, h.edgeIndex]
  · rw [h'.useInactive, h.useInactive]
  · rw [h'.priors, h.priors]

omit [Field K] in
theorem Inv.sameBook {g g' : PoseGraph K} {log : List (Meas K)} (h : Inv g log)
    (s : SameBook g g') : Inv g' log :=
  h.congr s.id s.d s.n s.odometry s.privateLcs s.sharedLcs s.localShared s.nbrShared s.nbrRobots
    s.edgeIndex (by rw [s.nbrActive])

theorem quadraticMatrix_book {g g' : PoseGraph K} {Q : DMat K}
    (e : g.quadraticMatrix = ok (Q, g')) : SameBook g g' := by
  unfold quadraticMatrix at e
  split at e
  · cases e; exact SameBook.refl _
  · rw [bind_eq_ok] at e
    obtain ⟨q, -, e⟩ := e
    cases q with
    | none => cases e
    | some q => cases e; constructor <;> rfl

theorem linearMatrix_book {g g' : PoseGraph K} {Q : DMat K}
    (e : g.linearMatrix = ok (Q, g')) : SameBook g g' := by
  unfold linearMatrix at e
  split at e
  · cases e; exact SameBook.refl _
  · rw [bind_eq_ok] at e
    obtain ⟨q, -, e⟩ := e
    cases q with
    | none => cases e
    | some q => cases e; constructor <;> rfl

theorem ensureQ_book {g g' : PoseGraph K} {b : Bool} (e : g.ensureQ = ok (b, g')) :
    SameBook g g' := by
  unfold ensureQ at e
  split at e
  · cases e; exact SameBook.refl _
  · rw [bind_eq_ok] at e
    obtain ⟨q, -, e⟩ := e
    cases q with
    | none => cases e; exact SameBook.refl _
    | some q => cases e; constructor <;> rfl

theorem ensureG_book {g g' : PoseGraph K} {b : Bool} (e : g.ensureG = ok (b, g')) :
    SameBook g g' := by
  unfold ensureG at e
  split at e
  · cases e; exact SameBook.refl _
  · rw [bind_eq_ok] at e
    obtain ⟨q, -, e⟩ := e
    cases q with
    | none => cases e; exact SameBook.refl _
    | some q => cases e; constructor <;> rfl

theorem constructDataMatrices_book {g g' : PoseGraph K} {b : Bool}
    (e : g.constructDataMatrices = ok (b, g')) : SameBook g g' := by
  unfold constructDataMatrices at e
  rw [bind_eq_ok] at e
  obtain ⟨⟨okQ, g1⟩, e1, e⟩ := e
  have s1 := ensureQ_book e1
  cases okQ with
  | false => cases e; exact s1
  | true => exact s1.trans (ensureG_book e)

theorem hasPreconditioner_book {g g' : PoseGraph K} {b : Bool} {chol : DMat K → Bool}
    (e : g.hasPreconditioner chol = ok (b, g')) : SameBook g g' := by
  unfold hasPreconditioner at e
  split at e
  · cases e; exact SameBook.refl _
  · rw [bind_eq_ok] at e
    obtain ⟨⟨Q, g1⟩, e1, e⟩ := e
    have s1 := quadraticMatrix_book e1
    simp only at e
    split at e
    · cases e; exact s1.trans (by constructor <;> rfl)
    · cases e; exact s1

omit [Field K] in
theorem setNeighborActive_inv {g g' : PoseGraph K} {log : List (Meas K)} (h : Inv g log) (nid : Nat)
    (a : Bool) (e : g.setNeighborActive nid a = ok g') : Inv g' log ∧ g'.id = g.id := by
  unfold setNeighborActive at e
  split at e
  · cases e; exact ⟨h, rfl⟩
  · rename_i c
    split at e
    · cases e
    · have hk : nid ∈ OMap.keys g.nbrActive := by
        rw [h.activeKeys]
        simp only [Bool.not_eq_true', Bool.not_eq_false, hasNeighbor] at c
        exact (OSet.contains_iff strictTotal_ltNat _ _).1 c
      rename_i b _
      have hk2 := OMap.keys_insert_of_mem (v := a) strictTotal_ltNat h.nbrActive_sorted hk
      cases e
      cases hb : (b != a)
      · exact ⟨h.congr rfl rfl rfl rfl rfl rfl rfl rfl rfl rfl hk2, rfl⟩
      · exact ⟨h.congr rfl rfl rfl rfl rfl rfl rfl rfl rfl rfl hk2, rfl⟩

/-- Every call keeps the invariant and follows the specification. -/
theorem Inv.step {g g' : PoseGraph K} {log : List (Meas K)} (h : Inv g log) (op : PGOp K)
    (hw : OpWF op) (e : g.step op = ok g') : Inv g' (Spec.step g.id log op) ∧ g'.id = g.id := by
  cases op with
  | addMeasurement m => exact h.addMeasurement m hw e
  | setMeasurements ms => exact foldl_addMeasurement (g := g.empty) (inv_empty g) hw e
  | empty => cases e; exact ⟨inv_empty g, rfl⟩
  | reset => cases e; exact ⟨h.reset, rfl⟩
  | clearNeighborPoses =>
    cases e; exact ⟨h.congr rfl rfl rfl rfl rfl rfl rfl rfl rfl rfl rfl, rfl⟩
  | clearPriors => cases e; exact ⟨h.congr rfl rfl rfl rfl rfl rfl rfl rfl rfl rfl rfl, rfl⟩
  | setPrior i X =>
    simp only [PoseGraph.step, setPrior, bind_eq_ok, check_eq_ok, exists_and_left, exists_const] at e
    obtain ⟨-, -, -, e⟩ := e
    cases e
    exact ⟨h.congr rfl rfl rfl rfl rfl rfl rfl rfl rfl rfl rfl, rfl⟩
  | setNeighborPoses dict =>
    cases e; exact ⟨h.congr rfl rfl rfl rfl rfl rfl rfl rfl rfl rfl rfl, rfl⟩
  | setNeighborActive nid a => exact setNeighborActive_inv h nid a e
  | useInactiveNeighbors u =>
    cases e; exact ⟨h.congr rfl rfl rfl rfl rfl rfl rfl rfl rfl rfl rfl, rfl⟩
  | writeWeight src dst w f =>
    simp only [PoseGraph.step, bind_eq_ok] at e
    obtain ⟨q, e1, e⟩ := e
    rcases h.find_spec src dst with ⟨hf, hno⟩ | ⟨p, m, hf, hp, hm, he, hk⟩
    · rw [hf] at e1; cases e1; cases e
      refine ⟨?_, rfl⟩
      show Inv _ (log.map (setWeight src dst w f))
      rw [map_setWeight_eq_self _ _ _ _ _ hno]; exact h
    · rw [hf] at e1; cases e1; cases e
      refine ⟨h.writeWeight src dst w f p m hp hm he hk, ?_⟩
      cases p <;> rfl
  | quadraticMatrix =>
    simp only [PoseGraph.step, bind_eq_ok] at e
    obtain ⟨⟨Q, g1⟩, e1, e⟩ := e
    cases e
    have s := quadraticMatrix_book e1
    exact ⟨h.sameBook s, s.id⟩
  | linearMatrix =>
    simp only [PoseGraph.step, bind_eq_ok] at e
    obtain ⟨⟨Q, g1⟩, e1, e⟩ := e
    cases e
    have s := linearMatrix_book e1
    exact ⟨h.sameBook s, s.id⟩
  | constructDataMatrices =>
    simp only [PoseGraph.step, bind_eq_ok] at e
    obtain ⟨⟨Q, g1⟩, e1, e⟩ := e
    cases e
    have s := constructDataMatrices_book e1
    exact ⟨h.sameBook s, s.id⟩
  | hasPreconditioner chol =>
    simp only [PoseGraph.step, bind_eq_ok] at e
    obtain ⟨⟨Q, g1⟩, e1, e⟩ := e
    cases e
    have s := hasPreconditioner_book e1
    exact ⟨h.sameBook s, s.id⟩
  | clearQuadraticMatrix => cases e; exact ⟨h.congr rfl rfl rfl rfl rfl rfl rfl rfl rfl rfl rfl, rfl⟩
  | clearLinearMatrix => cases e; exact ⟨h.congr rfl rfl rfl rfl rfl rfl rfl rfl rfl rfl rfl, rfl⟩
  | clearDataMatrices => cases e; exact ⟨h.congr rfl rfl rfl rfl rfl rfl rfl rfl rfl rfl rfl, rfl⟩

theorem Inv.run {ops : List (PGOp K)} {g g' : PoseGraph K} {log : List (Meas K)} (h : Inv g log)
    (hw : ∀ op ∈ ops, OpWF op) (e : g.run ops = ok g') :
    Inv g' (ops.foldl (Spec.step g.id) log) ∧ g'.id = g.id := by
  unfold PoseGraph.run at e
  induction ops generalizing g log with
  | nil => simp at e; subst e; exact ⟨h, rfl⟩
  | cons op t ih =>
    rw [foldl_cons, bind_eq_ok'] at e
    obtain ⟨g1, e1, e⟩ := e
    obtain ⟨h1, hid⟩ := h.step op (hw op (by simp)) e1
    have := ih h1 (fun x hx => hw x (by simp [hx])) e
    rw [hid] at this
    exact this

omit [Field K] in
theorem new_inv {id r d : Nat} {g : PoseGraph K} (e : PoseGraph.new id r d = ok g) :
    Inv g [] ∧ g.id = id := by
  simp only [PoseGraph.new, bind_eq_ok, check_eq_ok, exists_and_left, exists_const] at e
  obtain ⟨-, e⟩ := e
  cases e
  exact ⟨inv_empty _, rfl⟩

/-- Reachable graphs satisfy the invariant for some log. -/
theorem Reachable.inv {id r d : Nat} {g : PoseGraph K} (h : Reachable id r d g) :
    (∃ log, Inv g log) ∧ g.id = id := by
  obtain ⟨g0, ops, e0, hw, e⟩ := h
  obtain ⟨h0, hid⟩ := new_inv e0
  obtain ⟨h1, hid1⟩ := h0.run hw e
  exact ⟨⟨_, h1⟩, hid1.trans hid⟩

end PoseGraph
end Dpgo
