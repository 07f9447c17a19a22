import Verif.Model.DataMatrices

/-! # The data matrices depend only on measurements, activity, neighbour poses and priors -/

namespace Dpgo

open Res

variable {K : Type} [Field K]

namespace PoseGraph

omit [Field K] in
/-- Agreement on everything the assembly of the data matrices reads. -/
structure SameData (g g' : PoseGraph K) : Prop where
  id : g'.id = g.id
  r : g'.r = g.r
  d : g'.d = g.d
  n : g'.n = g.n
  odometry : g'.odometry = g.odometry
  privateLcs : g'.privateLcs = g.privateLcs
  sharedLcs : g'.sharedLcs = g.sharedLcs
  nbrRobots : g'.nbrRobots = g.nbrRobots
  nbrActive : g'.nbrActive = g.nbrActive
  neighborPoses : g'.neighborPoses = g.neighborPoses
  useInactive : g'.useInactive = g.useInactive
  priors : g'.priors = g.priors

omit [Field K] in
theorem SameData.refl (g : PoseGraph K) : SameData g g := by constructor <;> rfl

omit [Field K] in
theorem SameData.symm {g g' : PoseGraph K} (h : SameData g g') : SameData g' g := by
  obtain ⟨h1, h2, h3, h4, h5, h6, h7, h8, h9, h10, h11, h12⟩ := h
  constructor <;> simp [*]

omit [Field K] in
theorem SameData.trans {a b c : PoseGraph K} (h : SameData a b) (h' : SameData b c) :
    SameData a c := by
  obtain ⟨h1, h2, h3, h4, h5, h6, h7, h8, h9, h10, h11, h12⟩ := h
  obtain ⟨k1, k2, k3, k4, k5, k6, k7, k8, k9, k10, k11, k12⟩ := h'
  constructor <;> simp [*]

omit [Field K] in
theorem SameData.isNeighborActive {g g' : PoseGraph K} (h : SameData g g') (i : Nat) :
    g'.isNeighborActive i = g.isNeighborActive i := by
  unfold PoseGraph.isNeighborActive PoseGraph.hasNeighbor
  rw [h.nbrRobots, h.nbrActive]

omit [Field K] in
theorem SameData.classify {g g' : PoseGraph K} (h : SameData g g') (m : Meas K) :
    g'.classify m = g.classify m := by
  unfold PoseGraph.classify
  simp only [h.id, h.neighborPoses, h.isNeighborActive, h.useInactive]

theorem SameData.qShared {g g' : PoseGraph K} (h : SameData g g') (l : List (Meas K))
    (D : DMat K) : g'.qShared l D = g.qShared l D := by
  induction l generalizing D with
  | nil => rfl
  | cons m l ih => simp only [PoseGraph.qShared, h.classify, h.d, ih]

theorem SameData.gShared {g g' : PoseGraph K} (h : SameData g g') (l : List (Meas K))
    (D : DMat K) : g'.gShared l D = g.gShared l D := by
  induction l generalizing D with
  | nil => rfl
  | cons m l ih => simp only [PoseGraph.gShared, h.classify, h.d, ih, PoseGraph.nbrDims, h.r]

theorem SameData.gPriors {g g' : PoseGraph K} (h : SameData g g') (l : OMap Nat (PArr K))
    (D : DMat K) : g'.gPriors l D = g.gPriors l D := by
  induction l generalizing D with
  | nil => rfl
  | cons p l ih => obtain ⟨i, P⟩ := p; simp only [PoseGraph.gPriors, h.d, ih, PoseGraph.nbrDims, h.r]

theorem SameData.constructQ {g g' : PoseGraph K} (h : SameData g g') :
    g'.constructQ = g.constructQ := by
  unfold PoseGraph.constructQ PoseGraph.localMeasurements
  simp only [h.odometry, h.privateLcs, h.qShared, h.sharedLcs, h.d, h.n, h.priors]

theorem SameData.constructG {g g' : PoseGraph K} (h : SameData g g') :
    g'.constructG = g.constructG := by
  unfold PoseGraph.constructG
  simp only [h.gShared, h.gPriors, h.sharedLcs, h.d, h.n, h.r, h.priors]

omit [Field K] in
theorem sameData_caches (g : PoseGraph K) (Q G P : Option (DMat K)) :
    SameData g { g with Q := Q, G := G, precon := P } := by constructor <;> rfl

end PoseGraph
end Dpgo
