import Verif.Spec.Shared
import Verif.Lemmas.AgentInv
import Verif.Props.Queries
import Verif.Props.PoseGraph
import Verif.Props.Poses

/-! # The loops filling shared pose dictionaries -/

namespace Dpgo

open Res Spec PoseGraph PArr

noncomputable section

/-- Pose `i` of `B` as an object of its own. -/
def single (r d : Nat) (B : PArr ℝ) (i : Nat) : PArr ℝ := ⟨r, d, 1, B.X.block 0 (i * (d + 1)) r (d + 1)⟩

theorem single_copies (r d : Nat) (B : PArr ℝ) (i : Nat) : Copies r d B i (single r d B i) := by
  refine ⟨⟨rfl, rfl, rfl, rfl, by simp [single, DMat.block]⟩, ?_, ?_⟩
  · ext a c; simp [single, DMat.block, rotM]
  · ext a; simp [single, DMat.block, traV]

theorem single_step {r d n i : Nat} {B : PArr ℝ} (h : ArrOk r d n B) (hi : i < n) (hrd : d ≤ r) :
    (do let M ← B.poseAt i
        PArr.ofLifted M) = ok (single r d B i) := by
  rw [poseAt_ok h hi, ok_bind, ofLifted_ok ⟨rfl, rfl⟩ hrd]
  rfl

/-- What the loops have collected after the keys `ks`. -/
def Collected (r d : Nat) (B : PArr ℝ) (ks : PoseID → Prop) (m : PoseDict ℝ) : Prop :=
  OMap.Sorted ltPoseID m ∧ (∀ k, ks k → OMap.find? ltPoseID k m = some (single r d B k.frame)) ∧
    ∀ k, ¬ ks k → OMap.find? ltPoseID k m = none

theorem Collected.nil (r d : Nat) (B : PArr ℝ) : Collected r d B (fun _ => False) [] :=
  ⟨by simp [OMap.Sorted, OMap.keys, OSet.Sorted], by simp, fun _ _ => rfl⟩

theorem Collected.emplace {r d : Nat} {B : PArr ℝ} {ks : PoseID → Prop} {m : PoseDict ℝ}
    (h : Collected r d B ks m) (x : PoseID) :
    Collected r d B (fun k => ks k ∨ k = x) (OMap.emplace ltPoseID x (single r d B x.frame) m) := by
  obtain ⟨h1, h2, h3⟩ := h
  unfold OMap.emplace
  split
  · rename_i c
    have hx : ks x := by
      by_contra hx
      rw [h3 x hx] at c; cases c
    refine ⟨h1, ?_, fun k hk => h3 k fun c => hk (Or.inl c)⟩
    rintro k (hk | rfl)
    · exact h2 k hk
    · exact h2 k hx
  · refine ⟨OMap.sorted_insert strictTotal_ltPoseID _ _ _ h1, ?_, ?_⟩
    · intro k hk
      rw [OMap.find?_insert strictTotal_ltPoseID]
      split
      · rename_i c; rw [c]
      · rename_i c; exact h2 k (hk.resolve_right c)
    · intro k hk
      rw [OMap.find?_insert strictTotal_ltPoseID, if_neg fun c => hk (Or.inr c)]
      exact h3 k fun c => hk (Or.inl c)

theorem Collected.congr {r d : Nat} {B : PArr ℝ} {ks ks' : PoseID → Prop} {m : PoseDict ℝ}
    (h : Collected r d B ks m) (e : ∀ k, ks k ↔ ks' k) : Collected r d B ks' m := by
  have : ks = ks' := funext fun k => propext (e k)
  rw [← this]; exact h

theorem Collected.dictOf {r d : Nat} {B : PArr ℝ} {ks : PoseID → Prop} {m : PoseDict ℝ}
    (h : Collected r d B ks m) : DictOf r d ks B m := by
  obtain ⟨h1, h2, h3⟩ := h
  have key : ∀ k P, (k, P) ∈ m → ks k ∧ P = single r d B k.frame := by
    intro k P hk
    have := OMap.find?_of_mem strictTotal_ltPoseID h1 hk
    by_cases c : ks k
    · rw [h2 k c] at this
      exact ⟨c, (Option.some.inj this).symm⟩
    · rw [h3 k c] at this; cases this
  refine ⟨h1, fun k => ⟨fun ⟨P, hP⟩ => (key k P hP).1, fun hk =>
    ⟨_, OMap.mem_of_find? strictTotal_ltPoseID (h2 k hk)⟩⟩, fun k P hk => ?_⟩
  rw [(key k P hk).2]
  exact single_copies _ _ _ _

theorem collect_loop {ι : Type} {r d : Nat} {B : PArr ℝ} {key : ι → PoseID}
    {f : PoseDict ℝ → ι → Res (PoseDict ℝ)} : ∀ {l : List ι} {ks : PoseID → Prop} {m : PoseDict ℝ},
    (∀ x ∈ l, ∀ m, f m x = ok (OMap.emplace ltPoseID (key x) (single r d B (key x).frame) m)) →
    Collected r d B ks m →
    ∃ m', Res.foldl f m l = ok m' ∧ Collected r d B (fun k => ks k ∨ ∃ x ∈ l, key x = k) m'
  | [], ks, m, _, h => ⟨m, rfl, h.congr fun k => by simp⟩
  | x :: l, ks, m, hf, h => by
    obtain ⟨m', e, h'⟩ := collect_loop (l := l) (fun y hy => hf y (by simp [hy])) (h.emplace (key x))
    refine ⟨m', ?_, h'.congr fun k => ?_⟩
    · rw [foldl_cons, hf x (by simp), ok_bind']
      exact e
    · simp only [List.mem_cons, exists_eq_or_imp]
      constructor
      · rintro ((a | a) | a)
        · exact Or.inl a
        · exact Or.inr (Or.inl a.symm)
        · exact Or.inr (Or.inr a)
      · rintro (a | a | a)
        · exact Or.inl (Or.inl a)
        · exact Or.inl (Or.inr a.symm)
        · exact Or.inr a

variable {ID : Nat} {p : AgentParams} {a : Agent} {B : PArr ℝ}

theorem own_lt {id r d : Nat} {g : PoseGraph ℝ} (hg : Reachable id r d g) {m : Meas ℝ}
    (hm : m ∈ g.sharedLcs) : (ownPose id m).robot = id ∧ (ownPose id m).frame < g.n ∧ MeasWF m ∧
      (m.r1 = id ∨ m.r2 = id) := by
  obtain ⟨⟨log, h⟩, rfl⟩ := Reachable.inv hg
  have h1 := h.own_lt hm
  rw [h.shared, List.mem_filter] at hm
  have hs := (isShared_iff _ _).1 hm.2
  unfold ownPose
  split
  · rename_i c
    rw [if_pos c] at h1
    exact ⟨c, h1, h.wf _ hm.1, by omega⟩
  · rename_i c
    rw [if_neg c] at h1
    exact ⟨by simp only; omega, h1, h.wf _ hm.1, by omega⟩

theorem sharedDict_ok (h : AgInv ID p a) (hs : a.state = .INITIALIZED)
    (hB : ArrOk p.r p.d a.graph.n B) :
    ∃ m, a.sharedDictOf B = ok (some m) ∧ Collected p.r p.d B (IsPublic ID a.graph) m := by
  have hloc := (Props.C05_public_ids ID p.r p.d a.graph h.reach).1
  obtain ⟨m', e, h'⟩ := collect_loop (B := B) (key := fun k => k) (f := fun m pid => do
      check (pid.robot == a.id)
      let M ← B.poseAt pid.frame
      let L ← PArr.ofLifted M
      ok (OMap.emplace ltPoseID pid L m)) (l := a.graph.localShared) (fun k hk m => by
    obtain ⟨e, he, rfl⟩ := (hloc k).1 hk
    obtain ⟨h1, h2, -⟩ := own_lt h.reach he
    rw [h1, h.id, beq_self_eq_true, check_true, ok_bind]
    have := single_step hB h2 h.dims.2.2.2
    rw [bind_eq_ok] at this
    obtain ⟨M, hM, hL⟩ := this
    rw [hM, ok_bind, hL, ok_bind]) (.nil p.r p.d B)
  refine ⟨m', ?_, h'.congr fun k => ?_⟩
  · unfold Agent.sharedDictOf
    rw [if_neg (by simp [hs]), e, ok_bind]
  · simp only [false_or, exists_eq_right]
    exact hloc k

theorem neighborDict_ok (h : AgInv ID p a) (hs : a.state = .INITIALIZED)
    (hB : ArrOk p.r p.d a.graph.n B) {j : Nat} (hj : j ≠ ID) :
    ∃ m, a.neighborDictOf B j = ok (some m) ∧ Collected p.r p.d B (NeededBy ID j a.graph) m := by
  have hf := Props.C63_shared_with ID p.r p.d a.graph h.reach j hj
  obtain ⟨m', e, h'⟩ := collect_loop (B := B) (key := ownPose ID) (f := a.neighborDictStep B)
    (l := a.graph.sharedLoopClosuresWithRobot j) (fun e he m => by
    rw [hf, List.mem_filter] at he
    obtain ⟨h1, h2, ⟨w1, w2, w3, w4⟩, h3⟩ := own_lt h.reach he.1
    have := single_step hB h2 h.dims.2.2.2
    rw [bind_eq_ok] at this
    obtain ⟨M, hM, hL⟩ := this
    unfold Agent.neighborDictStep
    have hu : ∀ x, x < 2 ^ 32 - 1 → u32 x = x := fun x hx => Nat.mod_eq_of_lt (by omega)
    rw [h.id]
    unfold ownPose at hM hL ⊢
    split
    · rename_i c
      rw [if_pos c] at hM hL
      rw [hu _ w3]
      simp only at hM hL ⊢
      rw [hM, ok_bind, hL, ok_bind]
      unfold PoseID.make
      rw [hu _ w1, hu _ w3]
    · rename_i c
      rw [if_neg c] at hM hL
      rw [if_pos (h3.resolve_left c), hu _ w4]
      simp only at hM hL ⊢
      rw [hM, ok_bind, hL, ok_bind]
      unfold PoseID.make
      rw [hu _ w2, hu _ w4]) (.nil p.r p.d B)
  refine ⟨m', ?_, h'.congr fun k => ?_⟩
  · unfold Agent.neighborDictOf
    rw [if_neg (by simp [hs]), e, ok_bind]
  · rw [hf]
    simp only [false_or, List.mem_filter, decide_eq_true_eq, NeededBy, and_assoc]

end

end Dpgo
