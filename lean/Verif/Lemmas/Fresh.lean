import Verif.Lemmas.Assembly

/-! # Freshness of the cached matrices along coherent histories -/

namespace Dpgo

open Res Spec

variable {K : Type} [Field K]

omit [Field K] in
theorem OMap.insert_self {κ β : Type} {lt : κ → κ → Bool} (h : StrictTotal lt) {k : κ} {v : β}
    {m : OMap κ β} (hs : OMap.Sorted lt m) (e : OMap.find? lt k m = some v) :
    OMap.insert lt k v m = m := by
  induction m with
  | nil => simp [OMap.find?] at e
  | cons p t ih =>
    obtain ⟨q, w⟩ := p
    have hmem := OMap.mem_of_find? h e
    unfold OMap.Sorted OSet.Sorted OMap.keys at hs
    rw [List.map_cons, List.pairwise_cons] at hs
    simp only [OMap.find?] at e
    unfold OMap.insert
    split at e
    · rename_i hc
      simp only [Bool.and_eq_true, Bool.not_eq_true'] at hc
      have := h.total _ _ hc.1 hc.2
      subst this
      cases e
      simp [h.irrefl]
    · have hm := OMap.mem_of_find? h e
      have hlt : lt q k = true := hs.1 k (List.mem_map.2 ⟨(k, v), hm, rfl⟩)
      have hge : lt k q = false := by
        by_contra hc
        have := h.trans _ _ _ hlt (by simpa using hc)
        simp [h.irrefl] at this
      rw [hge, hlt]
      simp only [Bool.false_eq_true, if_false, if_true]
      rw [ih hs.2 e]

namespace PoseGraph

/-- With inactive neighbours unused, the neighbour poses matter for `Q` only through presence. -/
theorem qShared_indep {g g' : PoseGraph K} (hu : g.useInactive = false)
    (hs : SameData g { g' with neighborPoses := g.neighborPoses }) (l : List (Meas K))
    (D D1 D2 : DMat K) (h1 : g.qShared l D = ok (some D1)) (h2 : g'.qShared l D = ok (some D2)) :
    D1 = D2 := by
  have hd : g'.d = g.d := hs.d
  have hid : g'.id = g.id := hs.id
  have hu' : g'.useInactive = false := hs.useInactive.trans hu
  have hact : ∀ i, g'.isNeighborActive i = g.isNeighborActive i := fun i => by
    have := hs.isNeighborActive i
    exact this
  induction l generalizing D with
  | nil =>
    simp only [qShared] at h1 h2
    cases h1; cases h2; rfl
  | cons m l ih =>
    simp only [qShared, bind_eq_ok] at h1 h2
    obtain ⟨u1, c1, h1⟩ := h1
    obtain ⟨u2, c2, h2⟩ := h2
    have hc : (u1 = .skip ∧ u2 = .skip) ∨ (∃ i X Y, u1 = .out i X ∧ u2 = .out i Y) ∨
        (∃ i X Y, u1 = .inc i X ∧ u2 = .inc i Y) ∨ u1 = .missing ∨ u2 = .missing := by
      unfold classify at c1 c2
      rw [hid, hu'] at c2
      rw [hu] at c1
      simp only [hact] at c2
      split at c1
      · rename_i c
        rw [if_pos c] at c2
        simp only [bind_eq_ok] at c1 c2
        obtain ⟨_, -, a1, e1, c1⟩ := c1
        obtain ⟨_, -, a2, e2, c2⟩ := c2
        rw [e1] at e2
        cases e2
        cases a1
        · left
          constructor
          · cases hp : OMap.find? ltPoseID (PoseID.make m.r2 m.p2) g.neighborPoses with
            | none => rw [hp] at c1; cases c1; rfl
            | some X => rw [hp] at c1; cases c1; rfl
          · cases hp : OMap.find? ltPoseID (PoseID.make m.r2 m.p2) g'.neighborPoses with
            | none => rw [hp] at c2; cases c2; rfl
            | some X => rw [hp] at c2; cases c2; rfl
        · right
          cases hp : OMap.find? ltPoseID (PoseID.make m.r2 m.p2) g.neighborPoses with
          | none => rw [hp] at c1; cases c1; simp
          | some X =>
            rw [hp] at c1; cases c1
            cases hp : OMap.find? ltPoseID (PoseID.make m.r2 m.p2) g'.neighborPoses with
            | none => rw [hp] at c2; cases c2; simp
            | some Y => rw [hp] at c2; cases c2; left; exact ⟨_, _, _, rfl, rfl⟩
      · rename_i c
        rw [if_neg c] at c2
        simp only [bind_eq_ok] at c1 c2
        obtain ⟨_, -, a1, e1, c1⟩ := c1
        obtain ⟨_, -, a2, e2, c2⟩ := c2
        rw [e1] at e2
        cases e2
        cases a1
        · left
          constructor
          · cases hp : OMap.find? ltPoseID (PoseID.make m.r1 m.p1) g.neighborPoses with
            | none => rw [hp] at c1; cases c1; rfl
            | some X => rw [hp] at c1; cases c1; rfl
          · cases hp : OMap.find? ltPoseID (PoseID.make m.r1 m.p1) g'.neighborPoses with
            | none => rw [hp] at c2; cases c2; rfl
            | some X => rw [hp] at c2; cases c2; rfl
        · right
          cases hp : OMap.find? ltPoseID (PoseID.make m.r1 m.p1) g.neighborPoses with
          | none => rw [hp] at c1; cases c1; simp
          | some X =>
            rw [hp] at c1; cases c1
            cases hp : OMap.find? ltPoseID (PoseID.make m.r1 m.p1) g'.neighborPoses with
            | none => rw [hp] at c2; cases c2; simp
            | some Y => rw [hp] at c2; cases c2; right; left; exact ⟨_, _, _, rfl, rfl⟩
    rcases hc with ⟨rfl, rfl⟩ | ⟨i, X, Y, rfl, rfl⟩ | ⟨i, X, Y, rfl, rfl⟩ | rfl | rfl
    · exact ih D h1 h2
    · simp only [bind_eq_ok] at h1 h2
      obtain ⟨E1, a1, h1⟩ := h1
      obtain ⟨E2, a2, h2⟩ := h2
      rw [hd, a1] at a2
      cases a2
      exact ih E1 h1 h2
    · simp only [bind_eq_ok] at h1 h2
      obtain ⟨E1, a1, h1⟩ := h1
      obtain ⟨E2, a2, h2⟩ := h2
      rw [hd, a1] at a2
      cases a2
      exact ih E1 h1 h2
    · cases h1
    · cases h2

theorem constructQ_indep {g g' : PoseGraph K} (hu : g.useInactive = false)
    (hs : SameData g { g' with neighborPoses := g.neighborPoses })
    (Q1 Q2 : DMat K) (h1 : g.constructQ = ok (some Q1)) (h2 : g'.constructQ = ok (some Q2)) :
    Q1 = Q2 := by
  have hd : g'.d = g.d := hs.d
  have hn : g'.n = g.n := hs.n
  have hp : g'.priors = g.priors := hs.priors
  have hsh : g'.sharedLcs = g.sharedLcs := hs.sharedLcs
  have hl : g'.localMeasurements = g.localMeasurements := by
    unfold PoseGraph.localMeasurements
    rw [show g'.odometry = g.odometry from hs.odometry,
      show g'.privateLcs = g.privateLcs from hs.privateLcs]
  unfold constructQ at h1 h2
  rw [hd, hn, hp, hsh, hl] at h2
  simp only [bind_eq_ok] at h1 h2
  obtain ⟨L1, l1, s1, e1, h1⟩ := h1
  obtain ⟨L2, l2, s2, e2, h2⟩ := h2
  rw [l1] at l2
  cases l2
  cases s1 with
  | none => cases h1
  | some D1 =>
    cases s2 with
    | none => cases h2
    | some D2 =>
      have := qShared_indep hu hs _ _ _ _ e1 e2
      subst this
      rw [h1] at h2
      cases h2
      rfl

/-- `Q` was built from the current data, up to a later exchange of neighbour poses (only when inactive
neighbours are not used). -/
def BuiltQ (g : PoseGraph K) (Q : DMat K) : Prop :=
  ∃ g' : PoseGraph K, SameData g { g' with neighborPoses := g.neighborPoses } ∧
    g'.constructQ = ok (some Q) ∧ (g.useInactive = true → g'.neighborPoses = g.neighborPoses)

/-- The cached matrices are current. -/
structure Fresh (g : PoseGraph K) : Prop where
  q : ∀ Q, g.Q = some Q → BuiltQ g Q
  lin : ∀ G, g.G = some G → g.constructG = ok (some G)
  p : ∀ P, g.precon = some P → ∃ Q, P = precondMatrix Q ∧ BuiltQ g Q

theorem BuiltQ.unique {g : PoseGraph K} {Q Q' : DMat K} (h : BuiltQ g Q)
    (e : g.constructQ = ok (some Q')) : Q' = Q := by
  obtain ⟨g', hs, h1, h2⟩ := h
  cases hu : g.useInactive with
  | false => exact constructQ_indep hu hs Q' Q e h1
  | true =>
    have hnp := h2 hu
    have hsd : SameData g g' := by
      obtain ⟨a1, a2, a3, a4, a5, a6, a7, a8, a9, a10, a11, a12⟩ := hs
      exact ⟨a1, a2, a3, a4, a5, a6, a7, a8, a9, hnp, a11, a12⟩
    rw [hsd.constructQ, e] at h1
    cases h1; rfl

theorem BuiltQ.of_construct {g : PoseGraph K} {Q : DMat K} (h : g.constructQ = ok (some Q)) :
    BuiltQ g Q := ⟨g, SameData.refl g, h, fun _ => rfl⟩

theorem BuiltQ.congr {g h : PoseGraph K} {Q : DMat K} (hb : BuiltQ g Q) (hs : SameData g h) :
    BuiltQ h Q := by
  obtain ⟨g', a, b, c⟩ := hb
  refine ⟨g', ?_, b, ?_⟩
  · have := hs.symm.trans a
    obtain ⟨a1, a2, a3, a4, a5, a6, a7, a8, a9, a10, a11, a12⟩ := this
    exact ⟨a1, a2, a3, a4, a5, a6, a7, a8, a9, rfl, a11, a12⟩
  · intro hu
    rw [hs.useInactive] at hu
    rw [hs.neighborPoses]; exact c hu

/-- Exchanging neighbour poses keeps `Q` current when inactive neighbours are not used. -/
theorem BuiltQ.poses {g : PoseGraph K} {Q : DMat K} (hb : BuiltQ g Q) (hu : g.useInactive = false)
    (np : PoseDict K) (G : Option (DMat K)) : BuiltQ { g with neighborPoses := np, G := G } Q := by
  obtain ⟨g', a, b, c⟩ := hb
  refine ⟨g', ?_, b, ?_⟩
  · obtain ⟨a1, a2, a3, a4, a5, a6, a7, a8, a9, a10, a11, a12⟩ := a
    exact ⟨a1, a2, a3, a4, a5, a6, a7, a8, a9, rfl, a11, a12⟩
  · intro h
    exact absurd (hu.symm.trans h) (by simp)

theorem Fresh.of_uncached {g : PoseGraph K} (h : uncached g) : Fresh g := by
  obtain ⟨h1, h2, h3⟩ := h
  constructor
  · intro Q e; rw [h1] at e; cases e
  · intro Q e; rw [h2] at e; cases e
  · intro Q e; rw [h3] at e; cases e

theorem Fresh.congr {g h : PoseGraph K} (hf : Fresh g) (hs : SameData g h) (hQ : h.Q = g.Q)
    (hG : h.G = g.G) (hP : h.precon = g.precon) : Fresh h := by
  constructor
  · intro Q e; exact (hf.q Q (hQ ▸ e)).congr hs
  · intro G e; rw [hs.constructG]; exact hf.lin G (hG ▸ e)
  · intro P e
    obtain ⟨Q, h1, h2⟩ := hf.p P (hP ▸ e)
    exact ⟨Q, h1, h2.congr hs⟩

theorem Fresh.fillQ {g : PoseGraph K} {Q : DMat K} (hf : Fresh g) (hb : BuiltQ g Q) :
    Fresh { g with Q := some Q } := by
  have hs : SameData g { g with Q := some Q } := by constructor <;> rfl
  constructor
  · intro Q' e; cases e; exact hb.congr hs
  · intro G e; rw [hs.constructG]; exact hf.lin G e
  · intro P e
    obtain ⟨Q, h1, h2⟩ := hf.p P e
    exact ⟨Q, h1, h2.congr hs⟩

theorem Fresh.fillG {g : PoseGraph K} {G : DMat K} (hf : Fresh g) (hb : g.constructG = ok (some G)) :
    Fresh { g with G := some G } := by
  have hs : SameData g { g with G := some G } := by constructor <;> rfl
  constructor
  · intro Q e; exact (hf.q Q e).congr hs
  · intro G' e; cases e; rw [hs.constructG]; exact hb
  · intro P e
    obtain ⟨Q, h1, h2⟩ := hf.p P e
    exact ⟨Q, h1, h2.congr hs⟩

theorem Fresh.fillP {g : PoseGraph K} {Q : DMat K} (hf : Fresh g) (hb : BuiltQ g Q) :
    Fresh { g with precon := some (precondMatrix Q) } := by
  have hs : SameData g { g with precon := some (precondMatrix Q) } := by constructor <;> rfl
  constructor
  · intro Q' e; exact (hf.q Q' e).congr hs
  · intro G e; rw [hs.constructG]; exact hf.lin G e
  · intro P e
    cases e
    exact ⟨Q, rfl, hb.congr hs⟩

theorem Fresh.quadraticMatrix {g g' : PoseGraph K} {Q : DMat K} (hf : Fresh g)
    (e : g.quadraticMatrix = ok (Q, g')) : Fresh g' ∧ BuiltQ g' Q := by
  rcases quadraticMatrix_ok e with ⟨h, rfl⟩ | ⟨_, h, rfl⟩
  · exact ⟨hf, hf.q Q h⟩
  · have := hf.fillQ (BuiltQ.of_construct h)
    exact ⟨this, this.q Q rfl⟩

theorem Fresh.step {id r d : Nat} {g g' : PoseGraph K} {op : PGOp K} (hr : Reachable id r d g)
    (hf : Fresh g) (hc : coherentOp g op) (e : g.step op = ok g') : Fresh g' := by
  cases op with
  | addMeasurement m =>
    obtain ⟨h1, h2, h3⟩ := hc
    obtain ⟨k1, k2, k3, -⟩ := addMeasurement_caches e
    exact Fresh.of_uncached ⟨k1.trans h1, k2.trans h2, k3.trans h3⟩
  | setMeasurements ms =>
    obtain ⟨k1, k2, k3, -⟩ := setMeasurements_caches e
    exact Fresh.of_uncached ⟨k1, k2, k3⟩
  | empty => cases e; exact Fresh.of_uncached ⟨rfl, rfl, rfl⟩
  | reset =>
    cases e
    apply Fresh.of_uncached
    unfold uncached
    simp only [PoseGraph.reset, PoseGraph.clearNeighborPoses, PoseGraph.clearDataMatrices,
      PoseGraph.clearPriors, PoseGraph.clearQuadraticMatrix, PoseGraph.clearLinearMatrix, and_self]
  | clearNeighborPoses =>
    cases e
    rcases hc with hu | ⟨h1, h2⟩
    · constructor
      · intro Q e; exact (hf.q Q e).poses hu _ _
      · intro G e; cases e
      · intro P e
        obtain ⟨Q, h1, h2⟩ := hf.p P e
        exact ⟨Q, h1, h2.poses hu _ _⟩
    · exact Fresh.of_uncached ⟨h1, rfl, h2⟩
  | clearPriors => cases e; exact Fresh.of_uncached hc
  | setPrior i X =>
    simp only [PoseGraph.step, PoseGraph.setPrior, bind_eq_ok] at e
    obtain ⟨_, _, _, _, _, _, e⟩ := e
    cases e
    exact Fresh.of_uncached hc
  | setNeighborPoses dict =>
    cases e
    rcases hc with hu | ⟨h1, h2⟩
    · constructor
      · intro Q e; exact (hf.q Q e).poses hu _ _
      · intro G e; cases e
      · intro P e
        obtain ⟨Q, h1, h2⟩ := hf.p P e
        exact ⟨Q, h1, h2.poses hu _ _⟩
    · exact Fresh.of_uncached ⟨h1, rfl, h2⟩
  | setNeighborActive nid a =>
    obtain ⟨⟨log, hinv⟩, -⟩ := PoseGraph.Reachable.inv hr
    simp only [PoseGraph.step, PoseGraph.setNeighborActive] at e
    split at e
    · cases e; exact hf
    · split at e
      · cases e
      · rename_i b hb
        split at e
        · cases e; exact Fresh.of_uncached ⟨rfl, rfl, rfl⟩
        · rename_i hba
          have : b = a := by simpa using hba
          subst this
          cases e
          refine hf.congr ?_ rfl rfl rfl
          have hsorted : OMap.Sorted ltNat g.nbrActive := by
            have := hinv.robotsSorted
            unfold OMap.Sorted
            rw [hinv.activeKeys]; exact this
          constructor <;> try rfl
          exact OMap.insert_self strictTotal_ltNat hsorted hb
  | useInactiveNeighbors u => cases e; exact Fresh.of_uncached ⟨rfl, rfl, rfl⟩
  | writeWeight src dst w f =>
    simp only [PoseGraph.step, bind_eq_ok] at e
    obtain ⟨p, _, e⟩ := e
    cases p with
    | none => cases e; exact hf
    | some p =>
      cases e
      obtain ⟨h1, h2, h3, -⟩ := writeWeight_caches g p w f
      exact Fresh.of_uncached ⟨h1.trans hc.1, h2.trans hc.2.1, h3.trans hc.2.2⟩
  | quadraticMatrix =>
    simp only [PoseGraph.step, bind_eq_ok] at e
    obtain ⟨⟨Q, g1⟩, h, e⟩ := e
    cases e
    exact (hf.quadraticMatrix h).1
  | linearMatrix =>
    simp only [PoseGraph.step, bind_eq_ok] at e
    obtain ⟨⟨Q, g1⟩, h, e⟩ := e
    cases e
    rcases linearMatrix_ok h with ⟨_, rfl⟩ | ⟨_, hb, rfl⟩
    · exact hf
    · exact hf.fillG hb
  | constructDataMatrices =>
    simp only [PoseGraph.step, bind_eq_ok] at e
    obtain ⟨⟨b, g1⟩, h, e⟩ := e
    cases e
    obtain ⟨b1, g2, h1, h2⟩ := constructDataMatrices_ok h
    have hf2 : Fresh g2 := by
      rcases ensureQ_ok h1 with ⟨Q, _, rfl, _⟩ | ⟨Q, _, h, rfl, _⟩ | ⟨_, _, rfl, _⟩
      · exact hf
      · exact hf.fillQ (BuiltQ.of_construct h)
      · exact hf
    rcases h2 with ⟨_, h2⟩ | ⟨_, _, rfl⟩
    · rcases ensureG_ok h2 with ⟨Q, _, rfl, _⟩ | ⟨Q, _, hb, rfl, _⟩ | ⟨_, _, rfl, _⟩
      · exact hf2
      · exact hf2.fillG hb
      · exact hf2
    · exact hf2
  | hasPreconditioner chol =>
    simp only [PoseGraph.step, bind_eq_ok] at e
    obtain ⟨⟨b, g1⟩, h, e⟩ := e
    cases e
    rcases hasPreconditioner_ok h with ⟨P, _, rfl, _⟩ | ⟨Q, g2, _, h1, _, rfl⟩
    · exact hf
    · obtain ⟨a, b⟩ := hf.quadraticMatrix h1
      split
      · exact a.fillP b
      · exact a
  | clearQuadraticMatrix =>
    cases e
    constructor
    · intro Q e; cases e
    · intro G e
      exact (sameData_caches g none g.G none).constructG ▸ hf.lin G e
    · intro P e; cases e
  | clearLinearMatrix =>
    cases e
    have hs : SameData g g.clearLinearMatrix := by constructor <;> rfl
    constructor
    · intro Q e; exact (hf.q Q e).congr hs
    · intro G e; cases e
    · intro P e
      obtain ⟨Q, h1, h2⟩ := hf.p P e
      exact ⟨Q, h1, h2.congr hs⟩
  | clearDataMatrices => cases e; exact Fresh.of_uncached ⟨rfl, rfl, rfl⟩

theorem Fresh.run {id r d : Nat} (ops : List (PGOp K)) {g g' : PoseGraph K}
    (hr : Reachable id r d g) (hw : ∀ op ∈ ops, OpWF op) (hf : Fresh g) (hc : coherent g ops)
    (e : g.run ops = ok g') : Fresh g' ∧ Reachable id r d g' := by
  induction ops generalizing g with
  | nil =>
    simp only [PoseGraph.run, foldl_nil] at e
    cases e
    exact ⟨hf, hr⟩
  | cons op ops ih =>
    simp only [PoseGraph.run, foldl_cons, bind_eq_ok'] at e
    obtain ⟨g₂, h2, e⟩ := e
    refine ih ?_ (fun o ho => hw o (by simp [ho])) (hf.step hr hc.1 h2) (hc.2 g₂ h2) e
    obtain ⟨a, os, ha, hos, hrun⟩ := hr
    refine ⟨a, os ++ [op], ha, ?_, ?_⟩
    · intro o ho
      rw [List.mem_append, List.mem_singleton] at ho
      rcases ho with ho | ho
      · exact hos o ho
      · rw [ho]; exact hw op (by simp)
    · unfold PoseGraph.run at hrun ⊢
      rw [foldl_append, hrun]
      change Res.bind (g.step op) _ = _
      rw [h2]; rfl

end PoseGraph
end Dpgo
