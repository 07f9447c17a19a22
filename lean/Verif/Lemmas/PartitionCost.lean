import Verif.Lemmas.Partition
import Verif.Lemmas.TeamInv

/-!
# The split of the example leaves the cost unchanged
-/

namespace Dpgo.Example

open Res Spec Finset

variable {K : Type} [Field K]

/-- The centralised array holds every pose of the joint estimate. -/
def Joins (r d n : Nat) (f : Nat → PoseID) (X : Joint K) (Y : DMat K) : Prop :=
  ∀ i, i < n → ∀ ρ c, ρ < r → c < d + 1 →
    Y.v ρ (i * (d + 1) + c) = (X (f i).robot).v ρ ((f i).frame * (d + 1) + c)

theorem edgeCost_relabel {r d n : Nat} {f : Nat → PoseID} {X : Joint K} {Y : DMat K}
    (h : Joins r d n f X Y) {m : Meas K} (hm : EndsBelow n m) (hw : m.weight = 1) :
    edgeCost r d (relabel f m) (X (relabel f m).r1) (relabel f m).p1 (X (relabel f m).r2)
      (relabel f m).p2 = edgeCost r d m Y m.p1 Y m.p2 := by
  have rotE : ∀ i, i < n → ∀ ρ ∈ range r, ∀ c ∈ range d,
      rot d (X (f i).robot) (f i).frame ρ c = rot d Y i ρ c := fun i hi ρ hρ c hc =>
    (h i hi ρ c (mem_range.1 hρ) (by have := mem_range.1 hc; omega)).symm
  have traE : ∀ i, i < n → ∀ ρ ∈ range r,
      tra d (X (f i).robot) (f i).frame ρ = tra d Y i ρ := fun i hi ρ hρ =>
    (h i hi ρ d (mem_range.1 hρ) (by omega)).symm
  unfold edgeCost
  simp only [relabel, hw]
  congr 2
  · congr 1
    unfold rotRes
    apply sum_congr rfl
    intro ρ hρ
    apply sum_congr rfl
    intro c hc
    rw [rotE _ hm.2 ρ hρ c hc]
    congr 2
    apply sum_congr rfl
    intro s hs
    rw [rotE _ hm.1 ρ hρ s hs]
  · congr 1
    unfold traRes
    apply sum_congr rfl
    intro ρ hρ
    rw [traE _ hm.2 ρ hρ, traE _ hm.1 ρ hρ]
    congr 2
    apply sum_congr rfl
    intro s hs
    rw [rotE _ hm.1 ρ hρ s hs]

omit [Field K] in
theorem mem_firstWins {l : List (Meas K)} {m : Meas K} (h : m ∈ firstWins l) : m ∈ l := by
  induction l with
  | nil => simp [firstWins] at h
  | cons a l ih =>
    rw [firstWins, List.mem_cons, List.mem_filter] at h
    rcases h with rfl | ⟨h, _⟩
    · simp
    · exact List.mem_cons_of_mem _ (ih h)

theorem firstWins_relabel {n : Nat} {f : Nat → PoseID}
    (hf : ∀ i j, i < n → j < n → f i = f j → i = j) :
    ∀ D : List (Meas K), (∀ m ∈ D, EndsBelow n m ∧ m.r1 = 0 ∧ m.r2 = 0) →
      firstWins (D.map (relabel f)) = (firstWins D).map (relabel f) := by
  intro D
  induction D with
  | nil => intro _; rfl
  | cons m D ih =>
    intro h
    rw [List.map_cons, firstWins, firstWins, ih (fun x hx => h x (by simp [hx])), List.map_cons,
      List.filter_map]
    congr 2
    apply List.filter_congr
    intro x hx
    obtain ⟨⟨a1, a2⟩, a3, a4⟩ := h m (by simp)
    obtain ⟨⟨b1, b2⟩, b3, b4⟩ := h x (by simp [mem_firstWins hx])
    have e1 : ∀ i j, i < n → j < n →
        (((f i).robot == (f j).robot) && ((f i).frame == (f j).frame)) = (i == j) := by
      intro i j hi hj
      by_cases e : i = j
      · subst e; simp
      · have : ¬ ((f i).robot = (f j).robot ∧ (f i).frame = (f j).frame) := by
          rintro ⟨h1, h2⟩
          apply e
          apply hf _ _ hi hj
          cases hh : f i; cases hh' : f j
          rw [hh, hh'] at h1 h2
          simp_all
        have e' : (i == j) = false := by simpa using e
        rw [e']
        rw [Bool.eq_false_iff]
        simpa using this
    simp only [Function.comp, sameEnds, relabel, a3, a4, b3, b4]
    rw [e1 _ _ a1 b1, Bool.and_assoc, e1 _ _ a2 b2]
    simp

theorem teamCost_relabel {r d n : Nat} {f : Nat → PoseID}
    (hf : ∀ i j, i < n → j < n → f i = f j → i = j) {D : List (Meas K)}
    (hD : ∀ m ∈ D, EndsBelow n m ∧ m.r1 = 0 ∧ m.r2 = 0) (hw : ∀ m ∈ D, m.weight = 1)
    {X : Joint K} {Y : DMat K} (h : Joins r d n f X Y) :
    teamCost r d (D.map (relabel f)) X = teamCost r d D (fun _ => Y) := by
  unfold teamCost
  rw [firstWins_relabel hf D hD, List.map_map]
  congr 2
  apply List.map_congr_left
  intro m hm
  have := mem_firstWins hm
  exact edgeCost_relabel h (hD m this).1 (hw m this)

/-! ### Lists of one robot -/

omit [Field K] in
theorem isOdo_congr (id : Nat) (a b : Meas K) (h : sameEnds a b = true) : isOdo id a = isOdo id b := by
  rw [sameEnds_iff] at h
  obtain ⟨h1, h2, h3, h4⟩ := h
  simp [isOdo, h1, h2, h3, h4]

omit [Field K] in
theorem isPriv_congr (id : Nat) (a b : Meas K) (h : sameEnds a b = true) :
    isPriv id a = isPriv id b := by
  rw [sameEnds_iff] at h
  obtain ⟨h1, h2, h3, h4⟩ := h
  simp [isPriv, h1, h2, h3, h4]

omit [Field K] in
theorem isShared_congr (id : Nat) (a b : Meas K) (h : sameEnds a b = true) :
    isShared id a = isShared id b := by
  rw [sameEnds_iff] at h
  obtain ⟨h1, h2, h3, h4⟩ := h
  simp [isShared, h1, h3]

omit [Field K] in
/-- Handing over the three lists of a robot, one after the other, is handing over the whole list. -/
theorem buckets_lists (a : Nat) (E : List (Meas K)) :
    buckets a (firstWins ((E.filter (isOdo a) ++ E.filter (isPriv a) ++ E.filter (isShared a)).filter
      (touches a))) = buckets a (firstWins (E.filter (touches a))) := by
  unfold buckets
  simp only [filter_firstWins _ (isOdo_congr a), filter_firstWins _ (isPriv_congr a),
    filter_firstWins _ (isShared_congr a), List.filter_append, List.filter_filter]
  have kinds : ∀ m : Meas K,
      (isOdo a m && touches a m) = isOdo a m ∧ (isPriv a m && touches a m) = isPriv a m ∧
      (isShared a m && touches a m) = isShared a m ∧ (isOdo a m && isPriv a m) = false ∧
      (isOdo a m && isShared a m) = false ∧ (isPriv a m && isShared a m) = false := by
    intro m
    simp only [isOdo, isPriv, isShared, touches, bne]
    cases (m.r1 == a) <;> cases (m.r2 == a) <;> cases (m.p1 + 1 == m.p2) <;> simp
  have key : ∀ p q : Meas K → Bool, (∀ m, p m = q m) → E.filter p = E.filter q :=
    fun p q h => List.filter_congr fun m _ => h m
  have none : ∀ p : Meas K → Bool, (∀ m, p m = false) → E.filter p = [] := by
    intro p h; rw [List.filter_eq_nil_iff]; intro m _; simp [h m]
  congr 1
  · congr 1
    · congr 1
      rw [key (fun m => isOdo a m && (touches a m && isOdo a m)) (fun m => isOdo a m && touches a m)
          (fun m => by cases isOdo a m <;> cases touches a m <;> rfl),
        none (fun m => isOdo a m && (touches a m && isPriv a m))
          (fun m => by
            have := (kinds m).2.2.2.1; revert this
            cases isOdo a m <;> cases touches a m <;> cases isPriv a m <;> simp),
        none (fun m => isOdo a m && (touches a m && isShared a m))
          (fun m => by
            have := (kinds m).2.2.2.2.1; revert this
            cases isOdo a m <;> cases touches a m <;> cases isShared a m <;> simp)]
      simp
    · congr 1
      rw [key (fun m => isPriv a m && (touches a m && isPriv a m))
          (fun m => isPriv a m && touches a m)
          (fun m => by cases isPriv a m <;> cases touches a m <;> rfl),
        none (fun m => isPriv a m && (touches a m && isOdo a m))
          (fun m => by
            have := (kinds m).2.2.2.1; revert this
            cases isOdo a m <;> cases touches a m <;> cases isPriv a m <;> simp),
        none (fun m => isPriv a m && (touches a m && isShared a m))
          (fun m => by
            have := (kinds m).2.2.2.2.2; revert this
            cases isPriv a m <;> cases touches a m <;> cases isShared a m <;> simp)]
      simp
  · congr 1
    rw [key (fun m => isShared a m && (touches a m && isShared a m))
        (fun m => isShared a m && touches a m)
        (fun m => by cases isShared a m <;> cases touches a m <;> rfl),
      none (fun m => isShared a m && (touches a m && isOdo a m))
        (fun m => by
          have := (kinds m).2.2.2.2.1; revert this
          cases isOdo a m <;> cases touches a m <;> cases isShared a m <;> simp),
      none (fun m => isShared a m && (touches a m && isPriv a m))
        (fun m => by
          have := (kinds m).2.2.2.2.2; revert this
          cases isPriv a m <;> cases touches a m <;> cases isShared a m <;> simp)]
    simp

end Dpgo.Example
