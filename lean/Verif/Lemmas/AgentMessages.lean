import Verif.Spec.Messages
import Verif.Lemmas.AgentHist
import Verif.Props.Queries
import Verif.Props.PoseGraph

/-! # What the stores of neighbour poses contain -/

namespace Dpgo

open Res Spec PoseGraph

namespace OMap
variable {κ : Type} {β : Type} {lt : κ → κ → Bool}

theorem find?_erase [DecidableEq κ] (h : StrictTotal lt) (k k' : κ) (m : OMap κ β) (hs : Sorted lt m) :
    find? lt k (erase lt k' m) = if k = k' then none else find? lt k m := by
  induction m with
  | nil => simp [erase, find?]
  | cons p t ih =>
    obtain ⟨q, w⟩ := p
    have hs' : (∀ x ∈ keys t, lt q x = true) ∧ Sorted lt t := List.pairwise_cons.1 hs
    by_cases c : (!(lt k' q) && !(lt q k')) = true
    · have hq : k' = q := by
        simp only [Bool.and_eq_true, Bool.not_eq_true'] at c
        exact h.total _ _ c.1 c.2
      subst hq
      simp only [erase, c, if_true]
      by_cases e : k = k'
      · subst e
        rw [if_pos rfl, find?_eq_none_iff h]
        intro hk
        have := hs'.1 k hk
        rw [h.irrefl] at this
        cases this
      · rw [if_neg e]
        simp only [find?]
        rw [if_neg]
        intro c
        simp only [Bool.and_eq_true, Bool.not_eq_true'] at c
        exact e (h.total _ _ c.1 c.2)
    · simp only [erase, c, Bool.false_eq_true, if_false, find?]
      split
      · rename_i c'
        simp only [Bool.and_eq_true, Bool.not_eq_true'] at c'
        have : k = q := h.total _ _ c'.1 c'.2
        subst this
        rw [if_neg]
        rintro rfl
        exact c (by simp [h.irrefl])
      · exact ih hs'.2

theorem sorted_erase (k : κ) {m : OMap κ β} (hs : Sorted lt m) : Sorted lt (erase lt k m) :=
  List.Pairwise.sublist ((keys_erase_sublist k m).map Prod.fst) hs

theorem find?_eraseAll [DecidableEq κ] (h : StrictTotal lt) (k : κ) :
    ∀ (ids : List κ) (m : OMap κ β), Sorted lt m →
      find? lt k (ids.foldl (fun m i => erase lt i m) m) = if k ∈ ids then none else find? lt k m
  | [], m, _ => by simp
  | i :: ids, m, hs => by
    rw [List.foldl_cons, find?_eraseAll h k ids _ (sorted_erase i hs), find?_erase h _ _ _ hs]
    by_cases c : k ∈ ids
    · simp [c]
    · by_cases c' : k = i <;> simp [c, c']

end OMap

/-- Storing a message. -/
theorem stored_find {g : PoseGraph ℝ} (k : PoseID) (P : PArr ℝ) :
    ∀ {dict s : PoseDict ℝ}, OMap.Sorted ltPoseID dict →
      (OMap.find? ltPoseID k (Agent.stored g s dict) = some P ↔
        (g.requireNeighborPose k = true ∧ (k, P) ∈ dict) ∨
        ((¬ ∃ P', g.requireNeighborPose k = true ∧ (k, P') ∈ dict) ∧
          OMap.find? ltPoseID k s = some P))
  | [], s, _ => by simp [Agent.stored]
  | (q, w) :: t, s, hs => by
    have hs' : (∀ x ∈ OMap.keys t, ltPoseID q x = true) ∧ OMap.Sorted ltPoseID t :=
      List.pairwise_cons.1 hs
    have hq : ∀ v, (q, v) ∉ t := fun v hv => by
      have := hs'.1 q (List.mem_map_of_mem (f := Prod.fst) hv)
      rw [strictTotal_ltPoseID.irrefl] at this
      cases this
    have ih := stored_find (g := g) k P (dict := t)
      (s := if g.requireNeighborPose q = true then OMap.insert ltPoseID q w s else s) hs'.2
    have hun : Agent.stored g s ((q, w) :: t) = Agent.stored g
      (if g.requireNeighborPose q = true then OMap.insert ltPoseID q w s else s) t := rfl
    rw [hun, ih]
    by_cases hk : k = q
    · subst hk
      by_cases hr : g.requireNeighborPose k = true
      · simp [hr, hq, OMap.find?_insert strictTotal_ltPoseID, eq_comm]
      · simp [hr]
    · have hfind : OMap.find? ltPoseID k
          (if g.requireNeighborPose q = true then OMap.insert ltPoseID q w s else s) =
          OMap.find? ltPoseID k s := by
        split
        · rw [OMap.find?_insert strictTotal_ltPoseID, if_neg hk]
        · rfl
      rw [hfind]
      simp [hk]

variable {o : AgentOracles} {ID : Nat} {p : AgentParams} {a a' : Agent}

theorem required_iff (hi : AgInv ID p a) (k : PoseID) :
    a.graph.requireNeighborPose k = true ↔ Required ID a k :=
  (Props.C05_public_ids ID p.r p.d a.graph hi.reach).2.2.2.1 k

theorem clearActive_find (hi : AgInv ID p a) {s : PoseDict ℝ} (hs : StoreOk p.r p.d a.graph s)
    {ids : List PoseID} (e : a.graph.activeNeighborPublicPoseIDs = ok ids) (k : PoseID) (P : PArr ℝ) :
    OMap.find? ltPoseID k (ids.foldl (fun m k => OMap.erase ltPoseID k m) s) = some P ↔
      a.graph.isNeighborActive k.robot ≠ ok true ∧ OMap.find? ltPoseID k s = some P := by
  obtain ⟨out, e', -, hm⟩ := Props.C63_active_poses ID p.r p.d a.graph hi.reach
  rw [e] at e'
  cases e'
  rw [OMap.find?_eraseAll strictTotal_ltPoseID _ _ _ hs.sorted]
  by_cases hk : k ∈ ids
  · rw [if_pos hk]
    simp [((hm k).1 hk).2]
  · rw [if_neg hk]
    refine ⟨fun h => ⟨fun c => hk ((hm k).2 ⟨?_, c⟩), h⟩, fun h => h.2⟩
    exact (hs.mem _ (OMap.mem_of_find? strictTotal_ltPoseID h)).1

theorem weights_stores (hi : AgInv ID p a) (e : a.updateMeasurementWeights = ok a') :
    (a.state = .INITIALIZED ∧ a.trajectoryResetCount < a.params.numResets ∧ a'.neighborPoses = [] ∧
      a'.neighborAuxPoses = []) ∨
    (¬ (a.state = .INITIALIZED ∧ a.trajectoryResetCount < a.params.numResets) ∧
      a'.neighborPoses = a.neighborPoses ∧ a'.neighborAuxPoses = a.neighborAuxPoses) := by
  rcases Agent.updateMeasurementWeights_form hi.reach e with ⟨h, rfl⟩ | ⟨h, ps, g, b, -, -, -, -, hb, rfl⟩
  · exact Or.inr ⟨fun c => h c.1, rfl, rfl⟩
  · rw [Agent.resync_frame]
    rcases Agent.resetTrajectory_form hb with ⟨c, rfl⟩ | ⟨c, -, X, -, rfl⟩
    · exact Or.inr ⟨fun x => c x.2, rfl, rfl⟩
    · exact Or.inl ⟨h, c, rfl, rfl⟩

/-- One call and the store of neighbour poses. -/
theorem step_store (hi : AgInv ID p a) {op : AgOp} (hw : AgOpWF op) (e : a.step o op = ok a')
    (k : PoseID) (P : PArr ℝ) :
    OMap.find? ltPoseID k a'.neighborPoses = some P ↔ Delivers ID k P ⟨a, op, a'⟩ ∨
      ((¬ ((∃ P', Delivers ID k P' ⟨a, op, a'⟩) ∨ Clears k ⟨a, op, a'⟩)) ∧
        OMap.find? ltPoseID k a.neighborPoses = some P) := by
  have f := congrArg Agent.neighborPoses (Agent.step_frame hi e)
  cases op with
  | init T =>
    have h1 : a'.neighborPoses = a.neighborPoses := by
      rcases Agent.init_form hi.reach e with ⟨-, rfl⟩ | ⟨-, -, rfl⟩ | ⟨hs, -, T', S, X, b, c, hT, -, -, hc, he⟩
      · rfl
      · rfl
      · rw [(hi.notInit (by rw [hs]; decide)).2.1]
        obtain ⟨-, g', kk, hg1, rfl, -⟩ := Agent.chooseTrajectory_form hT
        have h2 : c.neighborPoses = [] := by
          rcases hc with ⟨-, rfl⟩ | ⟨-, I, -, hc⟩
          · exact (hi.notInit (by rw [hs]; decide)).2.1
          · rw [(Agent.initGlobal_frame (by
              exact (hg1.mono Agent.weighting_quiet).reach quiet_wf hi.reach) hc).1]
        rcases he with ⟨-, rfl⟩ | ⟨-, he⟩
        · exact h2
        · rw [(Agent.startOptimizationLoop_form he).2]; exact h2
    rw [h1]; simp [Delivers, Clears]
  | initializeInGlobalFrame T =>
    rw [f]
    simp [Agent.frame, OMap.find?, Delivers, Clears]
  | reset =>
    rw [f]
    simp [Agent.frame, OMap.find?, Delivers, Clears]
  | clearNeighborPoses =>
    rw [f]
    simp [Agent.frame, OMap.find?, Delivers, Clears]
  | clearActiveNeighborPoses =>
    obtain ⟨ids, hids, rfl⟩ := Agent.clearActiveNeighborPoses_form e
    rw [clearActive_find hi hi.nbr hids]
    simp [Delivers, Clears]
  | updateMeasurementWeights =>
    rcases weights_stores hi e with ⟨h1, h2, h3, -⟩ | ⟨h1, h2, -⟩
    · rw [h3]
      simp [Delivers, Clears, h1, h2, OMap.find?]
    · rw [h2]
      simpa [Delivers, Clears] using fun _ hs => by
        by_contra c
        exact h1 ⟨hs, by simpa using c⟩
  | updateNeighborPoses nid dict =>
    have hw' : DictWF dict := hw
    have hcl : ¬ Clears k ⟨a, .updateNeighborPoses nid dict, a'⟩ := by simp [Clears]
    have hd : ∀ Q, Delivers ID k Q ⟨a, .updateNeighborPoses nid dict, a'⟩ ↔
        nid = k.robot ∧ (k, Q) ∈ dict ∧ Required ID a k ∧ a.acceptsFrom nid = true ∧
          a'.state = .INITIALIZED := by
      intro Q
      rw [Agent.acceptsFrom_iff]
      unfold Delivers KnownInitialized
      constructor
      · rintro ⟨_, h1, h2, h3, h4, h5, h6⟩
        simp only [AgOp.updateNeighborPoses.injEq] at h1
        obtain ⟨rfl, rfl⟩ := h1
        exact ⟨rfl, h2, h3, ⟨h5, h4⟩, h6⟩
      · rintro ⟨rfl, h2, h3, ⟨h5, h4⟩, h6⟩
        exact ⟨dict, rfl, h2, h3, h4, h5, h6⟩
    obtain ⟨-, ⟨hacc, rfl⟩ | ⟨hacc, b, hb, he⟩⟩ := Agent.updateNeighborPoses_form e
    · simp [hd, hacc, hcl]
    · have hbn : b.neighborPoses = a.neighborPoses ∧ b.graph.nbrShared = a.graph.nbrShared := by
        rcases Agent.tryInitialize_form hb with ⟨-, rfl⟩ | ⟨-, -, rfl⟩ | ⟨hs, T, -, hb⟩
        · exact ⟨rfl, rfl⟩
        · exact ⟨rfl, rfl⟩
        · obtain ⟨f1, f2⟩ := Agent.initGlobal_frame hi.reach hb
          refine ⟨?_, ((f2.mono Agent.weighting_quiet).topology fun _ h => h).nbrShared⟩
          rw [(hi.notInit (by rw [hs]; decide)).2.1, f1]
      rcases he with ⟨hst, rfl⟩ | ⟨hst, hall, he⟩
      · rw [hbn.1]
        simp [hd, hst, hcl]
      · have hreq : b.graph.requireNeighborPose k = true ↔ Required ID a k := by
          rw [← required_iff hi k]
          unfold requireNeighborPose
          rw [hbn.2]
        have h1 : a'.neighborPoses = Agent.stored b.graph b.neighborPoses dict := by rw [he]
        have h2 : a'.state = .INITIALIZED := by rw [he]; exact hst
        simp only [h1, stored_find k P hw'.1, hreq, hbn.1, hd, hacc, h2, hcl, or_false, and_true]
        have hrob : ∀ Q, (k, Q) ∈ dict → nid = k.robot := fun Q hQ => (hall _ hQ).1.symm
        constructor
        · rintro (⟨h1, h2⟩ | ⟨h1, h2⟩)
          · exact Or.inl ⟨hrob _ h2, h2, h1⟩
          · exact Or.inr ⟨fun ⟨Q, _, h3, h4⟩ => h1 ⟨Q, h4, h3⟩, h2⟩
        · rintro (⟨-, h2, h1⟩ | ⟨h1, h2⟩)
          · exact Or.inl ⟨h1, h2⟩
          · exact Or.inr ⟨fun ⟨Q, h3, h4⟩ => h1 ⟨Q, hrob _ h4, h4, h3⟩, h2⟩
  | _ =>
    rw [f]
    simp [Agent.frame, Delivers, Clears]

/-- One call and the store of auxiliary poses. -/
theorem step_auxStore (hi : AgInv ID p a) {op : AgOp} (hw : AgOpWF op) (e : a.step o op = ok a')
    (k : PoseID) (P : PArr ℝ) :
    OMap.find? ltPoseID k a'.neighborAuxPoses = some P ↔ DeliversAux ID k P ⟨a, op, a'⟩ ∨
      ((¬ ((∃ P', DeliversAux ID k P' ⟨a, op, a'⟩) ∨ Clears k ⟨a, op, a'⟩)) ∧
        OMap.find? ltPoseID k a.neighborAuxPoses = some P) := by
  have f := congrArg Agent.neighborAuxPoses (Agent.step_frame hi e)
  cases op with
  | init T =>
    have h1 : a'.neighborAuxPoses = a.neighborAuxPoses := by
      rcases Agent.init_form hi.reach e with ⟨-, rfl⟩ | ⟨-, -, rfl⟩ | ⟨hs, -, T', S, X, b, c, hT, -, -, hc, he⟩
      · rfl
      · rfl
      · rw [(hi.notInit (by rw [hs]; decide)).2.2]
        obtain ⟨-, g', kk, hg1, rfl, -⟩ := Agent.chooseTrajectory_form hT
        have h2 : c.neighborAuxPoses = [] := by
          rcases hc with ⟨-, rfl⟩ | ⟨-, I, -, hc⟩
          · exact (hi.notInit (by rw [hs]; decide)).2.2
          · rw [(Agent.initGlobal_frame (by
              exact (hg1.mono Agent.weighting_quiet).reach quiet_wf hi.reach) hc).1]
        rcases he with ⟨-, rfl⟩ | ⟨-, he⟩
        · exact h2
        · rw [(Agent.startOptimizationLoop_form he).2]; exact h2
    rw [h1]; simp [DeliversAux, Clears]
  | initializeInGlobalFrame T =>
    rw [f]
    simp [Agent.frame, OMap.find?, DeliversAux, Clears]
  | reset =>
    rw [f]
    simp [Agent.frame, OMap.find?, DeliversAux, Clears]
  | clearNeighborPoses =>
    rw [f]
    simp [Agent.frame, OMap.find?, DeliversAux, Clears]
  | clearActiveNeighborPoses =>
    obtain ⟨ids, hids, rfl⟩ := Agent.clearActiveNeighborPoses_form e
    rw [clearActive_find hi hi.aux hids]
    simp [DeliversAux, Clears]
  | updateMeasurementWeights =>
    rcases weights_stores hi e with ⟨h1, h2, -, h3⟩ | ⟨h1, -, h2⟩
    · rw [h3]
      simp [DeliversAux, Clears, h1, h2, OMap.find?]
    · rw [h2]
      simpa [DeliversAux, Clears] using fun _ hs => by
        by_contra c
        exact h1 ⟨hs, by simpa using c⟩
  | updateNeighborPoses nid dict =>
    have h1 : a'.neighborAuxPoses = a.neighborAuxPoses := by
      obtain ⟨-, ⟨hacc, rfl⟩ | ⟨hacc, b, hb, he⟩⟩ := Agent.updateNeighborPoses_form e
      · rfl
      · have hbn : b.neighborAuxPoses = a.neighborAuxPoses := by
          rcases Agent.tryInitialize_form hb with ⟨-, rfl⟩ | ⟨-, -, rfl⟩ | ⟨hs, T, -, hb⟩
          · rfl
          · rfl
          · rw [(hi.notInit (by rw [hs]; decide)).2.2, (Agent.initGlobal_frame hi.reach hb).1]
        rcases he with ⟨hst, rfl⟩ | ⟨hst, hall, rfl⟩ <;> exact hbn
    rw [h1]; simp [DeliversAux, Clears]
  | updateAuxNeighborPoses nid dict =>
    have hw' : DictWF dict := hw
    have hcl : ¬ Clears k ⟨a, .updateAuxNeighborPoses nid dict, a'⟩ := by simp [Clears]
    have hd : ∀ Q, DeliversAux ID k Q ⟨a, .updateAuxNeighborPoses nid dict, a'⟩ ↔
        nid = k.robot ∧ (k, Q) ∈ dict ∧ Required ID a k ∧ a.acceptsFrom nid = true ∧
          a'.state = .INITIALIZED := by
      intro Q
      rw [Agent.acceptsFrom_iff]
      unfold DeliversAux KnownInitialized
      constructor
      · rintro ⟨_, h1, h2, h3, h4, h5, h6⟩
        simp only [AgOp.updateAuxNeighborPoses.injEq] at h1
        obtain ⟨rfl, rfl⟩ := h1
        exact ⟨rfl, h2, h3, ⟨h5, h4⟩, h6⟩
      · rintro ⟨rfl, h2, h3, ⟨h5, h4⟩, h6⟩
        exact ⟨dict, rfl, h2, h3, h4, h5, h6⟩
    obtain ⟨-, -, ⟨hno, rfl⟩ | ⟨hacc, hst, hall, he⟩⟩ := Agent.updateAuxNeighborPoses_form e
    · have : ∀ Q, ¬ DeliversAux ID k Q ⟨a', .updateAuxNeighborPoses nid dict, a'⟩ := by
        intro Q hQ
        obtain ⟨-, -, -, h4, h5⟩ := (hd Q).1 hQ
        exact hno ⟨h4, h5⟩
      simp [this, hcl]
    · have h1 : a'.neighborAuxPoses = Agent.stored a.graph a.neighborAuxPoses dict := by rw [he]
      have h2 : a'.state = .INITIALIZED := by rw [he]; exact hst
      simp only [h1, stored_find k P hw'.1, required_iff hi k, hd, hacc, h2, hcl, or_false, and_true]
      have hrob : ∀ Q, (k, Q) ∈ dict → nid = k.robot := fun Q hQ => (hall _ hQ).1.symm
      constructor
      · rintro (⟨h1, h2⟩ | ⟨h1, h2⟩)
        · exact Or.inl ⟨hrob _ h2, h2, h1⟩
        · exact Or.inr ⟨fun ⟨Q, _, h3, h4⟩ => h1 ⟨Q, h4, h3⟩, h2⟩
      · rintro (⟨-, h2, h1⟩ | ⟨h1, h2⟩)
        · exact Or.inl ⟨h1, h2⟩
        · exact Or.inr ⟨fun ⟨Q, h3, h4⟩ => h1 ⟨Q, hrob _ h4, h4, h3⟩, h2⟩
  | _ =>
    rw [f]
    simp [Agent.frame, DeliversAux, Clears]

end Dpgo
