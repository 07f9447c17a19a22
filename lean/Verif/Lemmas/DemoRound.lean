import Verif.Lemmas.DemoMember
import Verif.Lemmas.PartitionCost
import Verif.Lemmas.AgentTotal

/-! # One round of the team in the demo -/

namespace Dpgo

open Res Spec PoseGraph

/-! ### The lists of a robot's graph -/

theorem kinds_excl {K : Type} [Field K] (id : Nat) (m : Meas K) :
    (isOdo id m = true → isPriv id m = false ∧ isShared id m = false) ∧
    (isPriv id m = true → isOdo id m = false ∧ isShared id m = false) ∧
    (isShared id m = true → isOdo id m = false ∧ isPriv id m = false) := by
  unfold isOdo isPriv isShared
  by_cases h1 : m.r1 = id <;> by_cases h2 : m.r2 = id <;> by_cases h3 : m.p1 + 1 = m.p2 <;>
    simp [h1, h2, h3]

theorem filter_none {α : Type} {l : List α} {p q : α → Bool} (h : ∀ a, p a = true → q a = false) :
    (l.filter p).filter q = [] := by
  rw [List.filter_eq_nil_iff]
  intro a ha
  rw [h a (List.mem_filter.1 ha).2]; simp

theorem filter_same {α : Type} {l : List α} {p : α → Bool} : (l.filter p).filter p = l.filter p := by
  simp

theorem buckets_kinds {K : Type} [Field K] (id : Nat) (l : List (Meas K)) :
    (buckets id l).filter (isOdo id) = l.filter (isOdo id) ∧
    (buckets id l).filter (isPriv id) = l.filter (isPriv id) ∧
    (buckets id l).filter (isShared id) = l.filter (isShared id) := by
  unfold buckets
  simp only [List.filter_append]
  have k := kinds_excl (K := K) id
  rw [filter_none (fun m h => ((k m).1 h).1), filter_none (fun m h => ((k m).1 h).2),
    filter_none (fun m h => ((k m).2.1 h).1), filter_none (fun m h => ((k m).2.1 h).2),
    filter_none (fun m h => ((k m).2.2 h).1), filter_none (fun m h => ((k m).2.2 h).2)]
  simp only [filter_same, List.append_nil, List.nil_append, and_self]

theorem TeamInv.lists {r d i : Nat} {E : List (Meas ℝ)} {g : PoseGraph ℝ} (h : TeamInv r d E i g) :
    g.odometry = (firstWins E).filter (isOdo i) ∧ g.privateLcs = (firstWins E).filter (isPriv i) ∧
      g.sharedLcs = (firstWins E).filter (isShared i) := by
  obtain ⟨⟨log, hi⟩, rfl⟩ := Reachable.inv h.reach
  have e := h.edges
  rw [hi.measurements] at e
  obtain ⟨a1, a2, a3⟩ := buckets_kinds g.id log
  obtain ⟨b1, b2, b3⟩ := buckets_kinds g.id (firstWins (E.filter (touches g.id)))
  have ht : ∀ x y : Meas ℝ, sameEnds x y = true → touches g.id x = touches g.id y := by
    intro x y hxy
    rw [sameEnds_iff] at hxy
    unfold touches
    rw [hxy.1, hxy.2.2.1]
  have sub : ∀ f : Meas ℝ → Bool, (∀ m, f m = true → touches g.id m = true) →
      (firstWins (E.filter (touches g.id))).filter f = (firstWins E).filter f := by
    intro f hf
    rw [← filter_firstWins _ ht, List.filter_filter]
    refine List.filter_congr fun m _ => ?_
    by_cases c : f m = true
    · rw [c, hf m c]; rfl
    · rw [Bool.not_eq_true] at c; rw [c]; rfl
  refine ⟨?_, ?_, ?_⟩
  · rw [hi.odo, ← a1, e, b1]
    refine sub _ fun m hm => ?_
    simp only [isOdo, touches, Bool.and_eq_true, Bool.or_eq_true] at hm ⊢
    exact Or.inl hm.1.1
  · rw [hi.priv, ← a2, e, b2]
    refine sub _ fun m hm => ?_
    simp only [isPriv, touches, Bool.and_eq_true, Bool.or_eq_true] at hm ⊢
    exact Or.inl hm.1.1
  · rw [hi.shared, ← a3, e, b3]
    refine sub _ fun m hm => ?_
    simp only [isShared, touches, Bool.and_eq_true, Bool.or_eq_true] at hm ⊢
    tauto

/-- What robot `i` needs from robot `j`, robot `j` has public. -/
theorem TeamInv.public {r d i j : Nat} {E : List (Meas ℝ)} {g g' : PoseGraph ℝ} (h : TeamInv r d E i g)
    (h' : TeamInv r d E j g') {q : PoseID} (hq : q ∈ g.nbrShared) (hj : q.robot = j) (hij : j ≠ i) :
    IsPublic j g' q := by
  obtain ⟨m, hm, rfl⟩ := ((Props.C05_public_ids i r d g h.reach).2.1 q).1 hq
  rw [h.lists.2.2, List.mem_filter] at hm
  obtain ⟨hm, hs⟩ := hm
  unfold foreignPose at hj
  simp only [isShared, Bool.or_eq_true, Bool.and_eq_true, beq_iff_eq, bne_iff_ne] at hs
  refine ⟨m, ?_, ?_⟩
  · rw [h'.lists.2.2, List.mem_filter]
    refine ⟨hm, ?_⟩
    simp only [isShared, Bool.or_eq_true, Bool.and_eq_true, beq_iff_eq, bne_iff_ne]
    split at hj <;> simp only at hj <;> omega
  · unfold ownPose foreignPose
    rcases hs with ⟨h1, h2⟩ | ⟨h1, h2⟩
    · rw [if_neg (by omega), if_pos h1]
    · rw [if_neg h1] at hj ⊢
      rw [if_pos hj]

theorem TeamInv.robots {r d i N : Nat} {E : List (Meas ℝ)} {g : PoseGraph ℝ} (h : TeamInv r d E i g)
    (hE : ∀ m ∈ E, m.r1 < N ∧ m.r2 < N) {q : PoseID} (hq : q ∈ g.nbrShared) : q.robot < N ∧ q.robot ≠ i := by
  obtain ⟨m, hm, rfl⟩ := ((Props.C05_public_ids i r d g h.reach).2.1 q).1 hq
  rw [h.lists.2.2, List.mem_filter] at hm
  have := hE m (Example.mem_firstWins hm.1)
  have hs := hm.2
  simp only [isShared, Bool.or_eq_true, Bool.and_eq_true, beq_iff_eq, bne_iff_ne] at hs
  unfold foreignPose
  split <;> simp only <;> omega

/-! ### A message -/

theorem copies_value {r d i : Nat} {B P : PArr ℝ} (h : Copies r d B i P) {ρ c : Nat} (hρ : ρ < r)
    (hc : c < d + 1) : P.X.v ρ c = B.X.v ρ (i * (d + 1) + c) := by
  obtain ⟨-, h1, h2⟩ := h
  by_cases hcd : c < d
  · have := congrFun (congrFun h1 ⟨ρ, hρ⟩) ⟨c, hcd⟩
    simpa [rotM] using this
  · have hc' : c = d := by omega
    subst hc'
    have := congrFun h2 ⟨ρ, hρ⟩
    simpa [traV] using this

theorem storePoses_ok {a : Agent} {nid : Nat} : ∀ {dict store : PoseDict ℝ},
    (∀ kv ∈ dict, kv.1.robot = nid ∧ kv.2.r = a.r ∧ kv.2.d = a.d) →
    a.storePoses nid store dict = ok (Agent.stored a.graph store dict)
  | [], _, _ => rfl
  | kv :: dict, store, h => by
    obtain ⟨h1, h2, h3⟩ := h kv (by simp)
    have := storePoses_ok (a := a) (nid := nid) (dict := dict)
      (store := if a.graph.requireNeighborPose kv.1 then OMap.insert ltPoseID kv.1 kv.2 store else store)
      fun x hx => h x (by simp [hx])
    unfold Agent.storePoses at this ⊢
    rw [foldl_cons]
    simp only [h1, h2, h3, beq_self_eq_true, check_true, ok_bind]
    exact this

section
variable {o : AgentOracles} {p : AgentParams} {E : List (Meas ℝ)} {sh : Nat → Nat} {i j k l : Nat}
  {a b : Agent}

theorem Member.status (h : Member o p E sh i k a) : Member o p E sh i k a.getStatus.2 := by
  have : AgReach o i p a.getStatus.2 := agReach_snoc (op := .getStatus) h.reach trivial rfl
  exact ⟨this, h.team, h.state, h.inst, h.iter, h.lift, h.noSelf, h.covered, h.size⟩

theorem dict_wf {r d : Nat} {ids : PoseID → Prop} {B : PArr ℝ} {m : PoseDict ℝ} (h : DictOf r d ids B m) :
    DictWF m := by
  obtain ⟨h1, -, h3⟩ := h
  refine ⟨h1, fun kv hkv => ?_⟩
  obtain ⟨hA, -, -⟩ := h3 kv.1 kv.2 hkv
  rw [hA.1, hA.2.1]; exact hA

/-- What both kinds of messages have in common. -/
theorem Member.message (h : Member o p E sh i k a) (hb : Member o p E sh j l b)
    {B : PArr ℝ} {m : PoseDict ℝ} (hm : DictOf p.r p.d (IsPublic j b.graph) B m) :
    (a.setNeighborStatus b.getStatus.1).acceptsFrom b.id = true ∧
      ∀ kv ∈ m, kv.1.robot = b.id ∧ kv.2.r = a.r ∧ kv.2.d = a.d := by
  have ai := agReach_inv h.reach
  constructor
  · rw [Agent.acceptsFrom_iff]
    refine ⟨h.lift, b.getStatus.1, ?_, hb.state⟩
    show OMap.find? ltNat b.id (OMap.insert ltNat b.id b.getStatus.1 a.teamStatus) = _
    rw [OMap.find?_insert strictTotal_ltNat, if_pos rfl]
  · intro kv hkv
    obtain ⟨⟨hr, hd, -⟩, -⟩ := hm.2.2 kv.1 kv.2 hkv
    obtain ⟨e, he, hk⟩ := (hm.2.1 kv.1).1 ⟨kv.2, hkv⟩
    have := (own_lt hb.team.reach he).1
    rw [hk] at this
    exact ⟨this.trans hb.id.symm, hr.trans ai.r.symm, hd.trans ai.d.symm⟩

/-- Agent `i` receives the public poses of agent `j`. -/
theorem Member.receive (h : Member o p E sh i k a) (hb : Member o p E sh j l b) (hij : j ≠ i) :
    ∃ dict a', b.getSharedPoseDict = ok (some dict) ∧
      (a.setNeighborStatus b.getStatus.1).updateNeighborPoses o b.id dict = ok a' ∧
      Member o p E sh i k a' ∧ a'.X = a.X ∧ a'.graph = a.graph ∧
      (∀ q ∈ a.graph.nbrShared, q.robot = j → ∃ P, OMap.find? ltPoseID q a'.neighborPoses = some P ∧
        Copies p.r p.d b.X q.frame P) ∧
      (∀ q, q.robot ≠ j → OMap.find? ltPoseID q a'.neighborPoses = OMap.find? ltPoseID q a.neighborPoses) := by
  obtain ⟨dict, e, hm⟩ := (Props.C37_dict hb.reach hb.state).1
  obtain ⟨hacc, hkv⟩ := h.message hb hm
  have ai := agReach_inv h.reach
  have e' : (a.setNeighborStatus b.getStatus.1).updateNeighborPoses o b.id dict =
      ok { a.setNeighborStatus b.getStatus.1 with
        neighborPoses := Agent.stored a.graph a.neighborPoses dict } := by
    unfold Agent.updateNeighborPoses
    have hne : (b.id != (a.setNeighborStatus b.getStatus.1).id) = true := by
      rw [bne_iff_ne, hb.id]
      exact fun c => hij (c.trans h.id)
    have hst : (a.setNeighborStatus b.getStatus.1).state = .INITIALIZED := h.state
    have ht : (a.setNeighborStatus b.getStatus.1).tryInitialize o b.id dict =
        ok (a.setNeighborStatus b.getStatus.1) := by
      unfold Agent.tryInitialize
      rw [if_neg (by rw [hst]; decide)]
    rw [hne, check_true, ok_bind, hacc]
    simp only [Bool.not_true, Bool.false_eq_true, if_false, ht, ok_bind]
    rw [if_neg (by rw [hst]; decide)]
    have hs := storePoses_ok (a := a.setNeighborStatus b.getStatus.1) (nid := b.id)
      (store := (a.setNeighborStatus b.getStatus.1).neighborPoses) hkv
    rw [hs, ok_bind]
    rfl
  have hr1 : AgReach o i p (a.setNeighborStatus b.getStatus.1) :=
    agReach_snoc (op := .setNeighborStatus b.getStatus.1) h.reach trivial rfl
  have hr2 := agReach_snoc (op := .updateNeighborPoses b.id dict) hr1 (dict_wf hm) e'
  refine ⟨dict, _, e, e', ⟨hr2, h.team, h.state, h.inst, h.iter, h.lift, h.noSelf, h.covered, h.size⟩, rfl,
    rfl, ?_, ?_⟩
  · intro q hq hj
    have hpub := h.team.public hb.team hq hj hij
    obtain ⟨P, hP⟩ := (hm.2.1 q).2 hpub
    refine ⟨P, ?_, hm.2.2 q P hP⟩
    rw [show OMap.find? ltPoseID q (Agent.stored a.graph a.neighborPoses dict) = some P from
      (stored_find q P hm.1).2 (Or.inl ⟨?_, hP⟩)]
    exact (OSet.contains_iff strictTotal_ltPoseID _ _).2 hq
  · intro q hq
    have no : ¬ ∃ P', a.graph.requireNeighborPose q = true ∧ (q, P') ∈ dict := by
      rintro ⟨P', -, hP⟩
      have := (hkv _ hP).1
      exact hq (this.trans hb.id)
    show OMap.find? ltPoseID q (Agent.stored a.graph a.neighborPoses dict) = _
    refine Option.ext fun P => ?_
    rw [stored_find q P hm.1]
    constructor
    · rintro (⟨h1, h2⟩ | ⟨-, h2⟩)
      · exact absurd ⟨P, h1, h2⟩ no
      · exact h2
    · exact fun h2 => Or.inr ⟨no, h2⟩

/-- Agent `i` receives the auxiliary poses of agent `j`. -/
theorem Member.receiveAux (hp : p.acceleration = true) (h : Member o p E sh i k a)
    (hb : Member o p E sh j l b) (hij : j ≠ i) :
    ∃ dict a', b.getAuxSharedPoseDict = ok (some dict) ∧
      (a.setNeighborStatus b.getStatus.1).updateAuxNeighborPoses b.id dict = ok a' ∧
      Member o p E sh i k a' ∧ a'.X = a.X := by
  obtain ⟨dict, e, hm⟩ := (Props.C37_dict hb.reach hb.state).2 hp
  obtain ⟨hacc, hkv⟩ := h.message hb hm
  have ai := agReach_inv h.reach
  have e' : (a.setNeighborStatus b.getStatus.1).updateAuxNeighborPoses b.id dict =
      ok { a.setNeighborStatus b.getStatus.1 with
        neighborAuxPoses := Agent.stored a.graph a.neighborAuxPoses dict } := by
    unfold Agent.updateAuxNeighborPoses
    have hne : (b.id != (a.setNeighborStatus b.getStatus.1).id) = true := by
      rw [bne_iff_ne, hb.id]
      exact fun c => hij (c.trans h.id)
    have hst : (a.setNeighborStatus b.getStatus.1).state = .INITIALIZED := h.state
    have hpa : (a.setNeighborStatus b.getStatus.1).params.acceleration = true := by
      show a.params.acceleration = true
      rw [h.params]; exact hp
    rw [hpa, check_true, ok_bind, hne, check_true, ok_bind, hacc]
    simp only [Bool.not_true, Bool.false_eq_true, if_false]
    rw [if_neg (by rw [hst]; decide)]
    have hs := storePoses_ok (a := a.setNeighborStatus b.getStatus.1) (nid := b.id)
      (store := (a.setNeighborStatus b.getStatus.1).neighborAuxPoses) hkv
    rw [hs, ok_bind]
    rfl
  have hr1 : AgReach o i p (a.setNeighborStatus b.getStatus.1) :=
    agReach_snoc (op := .setNeighborStatus b.getStatus.1) h.reach trivial rfl
  have hr2 := agReach_snoc (op := .updateAuxNeighborPoses b.id dict) hr1 (dict_wf hm) e'
  exact ⟨dict, _, e, e', ⟨hr2, h.team, h.state, h.inst, h.iter, h.lift, h.noSelf, h.covered, h.size⟩, rfl⟩

end

end Dpgo
