import Verif.Model.Partition
import Verif.Spec.Partition
import Verif.Lemmas.Ids

/-!
# The pose map of the example and the split of the edges
-/

namespace Dpgo.Example

open Res Spec

variable {K : Type}

/-- The map as a function of the global index. -/
def place (N k i : Nat) : PoseID := ⟨min (i / k) (N - 1), i - min (i / k) (N - 1) * k⟩

theorem find?_assign_aux (a start : Nat) (ha : a < 2 ^ 32) (i : Nat) :
    ∀ (l s : Nat) (M : OMap Nat PoseID), start ≤ s → s + l ≤ 2 ^ 32 →
      OMap.find? ltNat i ((List.range' s l).foldl
        (fun M idx => OMap.insert ltNat idx (PoseID.make a (idx - start)) M) M) =
      if s ≤ i ∧ i < s + l then some ⟨a, i - start⟩ else OMap.find? ltNat i M := by
  intro l
  induction l with
  | zero => intro s M _ _; simp
  | succ l ih =>
    intro s M hs hl
    rw [List.range'_succ, List.foldl_cons, ih (s + 1) _ (by omega) (by omega),
      OMap.find?_insert strictTotal_ltNat]
    by_cases h1 : i = s
    · subst h1
      have : u32 (i - start) = i - start := u32_of_lt (by omega)
      simp [PoseID.make, u32_of_lt ha, this]
    · by_cases h2 : s + 1 ≤ i ∧ i < s + 1 + l
      · rw [if_pos h2, if_pos (by omega)]
      · rw [if_neg h2, if_neg h1, if_neg (by omega)]

theorem find?_assignRobot (start stop a : Nat) (ha : a < 2 ^ 32) (hs : stop ≤ 2 ^ 32)
    (M : OMap Nat PoseID) (i : Nat) :
    OMap.find? ltNat i (assignRobot start stop a M) =
      if start ≤ i ∧ i < stop then some ⟨a, i - start⟩ else OMap.find? ltNat i M := by
  unfold assignRobot
  by_cases h : start ≤ stop
  · rw [find?_assign_aux a start ha i _ _ _ le_rfl (by omega), Nat.add_sub_cancel' h]
  · have : stop - start = 0 := by omega
    rw [this, List.range'_zero, List.foldl_nil, if_neg (by omega)]

section
variable {N n : Nat} (hN : 0 < N) (hNn : N ≤ n) (hn : n < 2 ^ 32)
include hN hNn hn

omit hN hNn in
theorem perRobot_eq : perRobot N n = n / N :=
  u32_of_lt (lt_of_le_of_lt (Nat.div_le_self _ _) hn)

omit hn in
theorem per_pos : 0 < n / N := Nat.div_pos hNn hN

omit hN hNn hn in
theorem mul_per_le {a : Nat} (ha : a ≤ N) : a * (n / N) ≤ n :=
  le_trans (Nat.mul_le_mul_right _ ha) (Nat.mul_div_le _ _)

omit hN hNn in
theorem startIdx_eq {a : Nat} (ha : a ≤ N) : startIdx (n / N) a = a * (n / N) :=
  u32_of_lt (lt_of_le_of_lt (mul_per_le ha) hn)

omit hN hNn in
theorem endIdx_eq {a : Nat} (ha : a < N) :
    endIdx N n (n / N) a = if a = N - 1 then n else (a + 1) * (n / N) := by
  unfold endIdx
  rw [u32_of_lt hn, u32_of_lt (lt_of_le_of_lt (mul_per_le (by omega)) hn)]

theorem find?_poseMap_aux (i : Nat) : ∀ j, j < N →
    OMap.find? ltNat i ((List.range j).foldl
      (fun M robot => assignRobot (startIdx (n / N) robot) (endIdx N n (n / N) robot) robot M) []) =
      if i < j * (n / N) then some ⟨i / (n / N), i - i / (n / N) * (n / N)⟩ else none := by
  intro j
  have hk := per_pos hN hNn
  induction j with
  | zero => intro _; simp [OMap.find?]
  | succ j ih =>
    intro hj
    rw [List.range_succ, List.foldl_append, List.foldl_cons, List.foldl_nil,
      startIdx_eq hn (by omega), endIdx_eq hn (by omega), if_neg (by omega),
      find?_assignRobot _ _ _ (by omega) (by have := mul_per_le (n := n) (show j + 1 ≤ N by omega); omega),
      ih (by omega)]
    by_cases h : j * (n / N) ≤ i ∧ i < (j + 1) * (n / N)
    · have : i / (n / N) = j := by
        rw [Nat.div_eq_iff hk]
        have : (j + 1) * (n / N) = j * (n / N) + n / N := Nat.succ_mul _ _
        constructor <;> omega
      rw [if_pos h, if_pos h.2, this]
    · rw [if_neg h]
      have : (j + 1) * (n / N) = j * (n / N) + n / N := Nat.succ_mul _ _
      by_cases h' : i < j * (n / N)
      · rw [if_pos h', if_pos (by omega)]
      · rw [if_neg h', if_neg (by omega)]

theorem find?_poseMap (i : Nat) :
    OMap.find? ltNat i (poseMap N n (n / N)) = if i < n then some (place N (n / N) i) else none := by
  obtain ⟨j, rfl⟩ : ∃ j, N = j + 1 := ⟨N - 1, by omega⟩
  have hk := per_pos hN hNn
  have hle := mul_per_le (n := n) (N := j + 1) (show j ≤ j + 1 by omega)
  unfold poseMap
  rw [List.range_succ, List.foldl_append, List.foldl_cons, List.foldl_nil,
    startIdx_eq hn (by omega), endIdx_eq hn (by omega), if_pos (by omega),
    find?_assignRobot _ _ _ (by omega) (by omega), find?_poseMap_aux hN hNn hn i j (by omega)]
  by_cases h : j * (n / (j + 1)) ≤ i ∧ i < n
  · have : j ≤ i / (n / (j + 1)) := (Nat.le_div_iff_mul_le hk).2 h.1
    rw [if_pos h, if_pos h.2]
    simp [place, this]
  · rw [if_neg h]
    by_cases h' : i < j * (n / (j + 1))
    · have : i / (n / (j + 1)) < j := (Nat.div_lt_iff_lt_mul hk).2 h'
      rw [if_pos h', if_pos (by omega)]
      simp [place, this.le]
    · rw [if_neg h', if_neg (by omega)]

omit hN hNn hn in
theorem place_frame (i : Nat) :
    (place N (n / N) i).frame = i - (place N (n / N) i).robot * (n / N) ∧
      (place N (n / N) i).robot * (n / N) ≤ i := by
  refine ⟨rfl, ?_⟩
  simp only [place]
  calc min (i / (n / N)) (N - 1) * (n / N) ≤ i / (n / N) * (n / N) :=
        Nat.mul_le_mul_right _ (min_le_left _ _)
    _ ≤ i := Nat.div_mul_le_self _ _

omit hNn hn in
theorem place_robot_lt (i : Nat) : (place N (n / N) i).robot < N := by
  simp only [place]
  have := min_le_right (i / (n / N)) (N - 1)
  omega

omit hn in
/-- The place of an index: robot `a`, local index `ℓ`. -/
theorem place_eq_iff (i a ℓ : Nat) (hi : i < n) :
    place N (n / N) i = ⟨a, ℓ⟩ ↔
      a < N ∧ i = a * (n / N) + ℓ ∧ ℓ < (if a = N - 1 then n - (N - 1) * (n / N) else n / N) := by
  have hk := per_pos hN hNn
  obtain ⟨h1, h2⟩ := place_frame (N := N) (n := n) i
  have h3 := place_robot_lt hN (n := n) i
  constructor
  · intro e
    rw [e] at h1 h2 h3
    simp only at h1 h2 h3
    refine ⟨h3, by omega, ?_⟩
    split_ifs with hc
    · subst hc; omega
    · have hr : min (i / (n / N)) (N - 1) = a := congrArg PoseID.robot e
      have : i / (n / N) = a := by omega
      have := (Nat.div_eq_iff hk).1 this
      omega
  · rintro ⟨ha, hi', hl⟩
    have hr : min (i / (n / N)) (N - 1) = a := by
      split_ifs at hl with hc
      · have : N - 1 ≤ i / (n / N) := (Nat.le_div_iff_mul_le hk).2 (by subst hc; omega)
        omega
      · have : i / (n / N) = a := by rw [Nat.div_eq_iff hk]; omega
        omega
    simp only [place, hr]
    congr 1
    omega

omit hn in
theorem place_inj {i j : Nat} (hi : i < n) (hj : j < n)
    (e : place N (n / N) i = place N (n / N) j) : i = j := by
  have h1 := (place_eq_iff hN hNn i _ _ hi).1 e
  have h2 := (place_eq_iff hN hNn j _ _ hj).1 rfl
  omega

omit hn in
theorem place_tiling : Tiling N n (place N (n / N)) := by
  have hk := per_pos hN hNn
  refine ⟨?_, ?_, ?_⟩
  · simp [place]
  · intro i hi
    obtain ⟨h1, h2⟩ := place_frame (N := N) (n := n) i
    have h3 := place_robot_lt hN (n := n) i
    have h4 := (place_eq_iff hN hNn i (place N (n / N) i).robot (place N (n / N) i).frame (by omega)).1 rfl
    by_cases hc : (place N (n / N) i).robot = N - 1
    · left
      rw [place_eq_iff hN hNn _ _ _ hi]
      refine ⟨h3, by omega, ?_⟩
      rw [if_pos hc] at h4 ⊢
      obtain ⟨_, h4, _⟩ := h4
      rw [hc] at h4
      omega
    · rw [if_neg hc] at h4
      by_cases hl : (place N (n / N) i).frame + 1 < n / N
      · left
        rw [place_eq_iff hN hNn _ _ _ hi]
        refine ⟨h3, by omega, ?_⟩
        rw [if_neg hc]; exact hl
      · right
        rw [place_eq_iff hN hNn _ _ _ hi]
        refine ⟨by omega, ?_, ?_⟩
        · rw [Nat.add_mul]; omega
        · split_ifs with hd
          · have := mul_per_le (n := n) (N := N) le_rfl
            have : N * (n / N) = (N - 1) * (n / N) + n / N := by
              conv_lhs => rw [show N = (N - 1) + 1 by omega, Nat.add_mul]
              simp [show N - 1 + 1 = N by omega]
            omega
          · exact hk
  · simp only [place]
    have : N - 1 ≤ (n - 1) / (n / N) := by
      rw [Nat.le_div_iff_mul_le hk]
      have := mul_per_le (n := n) (N := N) le_rfl
      have : N * (n / N) = (N - 1) * (n / N) + n / N := by
        conv_lhs => rw [show N = (N - 1) + 1 by omega, Nat.add_mul]
        simp [show N - 1 + 1 = N by omega]
      omega
    omega

end

/-! ### The edges -/

theorem lookup_of_some {M : OMap Nat PoseID} {i : Nat} {p : PoseID} (hi : i < 2 ^ 32)
    (h : OMap.find? ltNat i M = some p) : lookup M i = (p, M) := by
  unfold lookup
  rw [u32_of_lt hi, h]

/-- The lists of a split, robot by robot. -/
structure Lists (N : Nat) (E : List (Meas K)) (s : Split K) : Prop where
  odo : s.odometry = (List.range N).map fun a => E.filter (isOdo a)
  priv : s.privateLcs = (List.range N).map fun a => E.filter (isPriv a)
  shared : s.sharedLcs = (List.range N).map fun a => E.filter (isShared a)

theorem pushAt_map {N a : Nat} (f : Nat → List (Meas K)) (ha : a < N) (m : Meas K) :
    pushAt ((List.range N).map f) a m =
      ok ((List.range N).map fun b => if b = a then f b ++ [m] else f b) := by
  unfold pushAt
  rw [List.length_map, List.length_range, decide_eq_true ha]
  simp only [require_true, ok_bind]
  congr 1
  apply List.ext_getElem
  · simp
  · intro i h1 h2
    simp only [List.length_modify, List.length_map, List.length_range] at h1
    rw [List.getElem_modify]
    simp only [List.getElem_map, List.getElem_range]
    by_cases h : i = a
    · subst h; simp
    · rw [if_neg h, if_neg (fun e => h e.symm)]

theorem splitStep_lists [Field K] {N n : Nat} (hn : n < 2 ^ 32) {M : OMap Nat PoseID}
    {f : Nat → PoseID} (hM : ∀ i, i < n → OMap.find? ltNat i M = some (f i))
    (hf : ∀ i, i < n → (f i).robot < N ∧ (f i).frame < n) {E : List (Meas K)} {s : Split K}
    (h : Lists N E s) {m : Meas K} (hm : EndsBelow n m) :
    ∃ s', splitStep (M, s) m = ok (M, s') ∧ Lists N (E ++ [relabel f m]) s' := by
  obtain ⟨h1, h2⟩ := hm
  unfold splitStep
  simp only [lookup_of_some (lt_trans h1 hn) (hM _ h1), lookup_of_some (lt_trans h2 hn) (hM _ h2)]
  have e : Meas.make (f m.p1).robot (f m.p2).robot (f m.p1).frame (f m.p2).frame m.R m.t m.kappa
      m.tau = relabel f m := rfl
  rw [e]
  have hu : u32 ((f m.p1).frame + 1) = (f m.p1).frame + 1 :=
    u32_of_lt (by have := (hf _ h1).2; omega)
  have ha := (hf _ h1).1
  have hb := (hf _ h2).1
  rw [hu]
  by_cases hr : (f m.p1).robot = (f m.p2).robot
  · rw [if_pos hr]
    by_cases ho : (f m.p1).frame + 1 = (f m.p2).frame
    · rw [if_pos ho, h.odo, pushAt_map _ ha]
      refine ⟨_, rfl, ⟨?_, ?_, ?_⟩⟩
      · simp only [List.filter_append]
        apply List.map_congr_left
        intro a _
        by_cases c : a = (f m.p1).robot
        · subst c
          simp [isOdo, relabel, hr, ho]
        · rw [if_neg c]
          simp [isOdo, relabel, Ne.symm c]
      · simp only [h.priv, List.filter_append]
        apply List.map_congr_left
        intro a _
        simp [isPriv, relabel, ho]
      · simp only [h.shared, List.filter_append]
        apply List.map_congr_left
        intro a _
        simp [isShared, relabel, hr]
    · rw [if_neg ho, h.priv, pushAt_map _ ha]
      refine ⟨_, rfl, ⟨?_, ?_, ?_⟩⟩
      · simp only [h.odo, List.filter_append]
        apply List.map_congr_left
        intro a _
        simp [isOdo, relabel, ho]
      · simp only [List.filter_append]
        apply List.map_congr_left
        intro a _
        by_cases c : a = (f m.p1).robot
        · subst c
          simp [isPriv, relabel, hr, ho]
        · rw [if_neg c]
          simp [isPriv, relabel, Ne.symm c]
      · simp only [h.shared, List.filter_append]
        apply List.map_congr_left
        intro a _
        simp [isShared, relabel, hr]
  · rw [if_neg hr, h.shared, pushAt_map _ ha]
    simp only [ok_bind]
    rw [pushAt_map _ hb]
    refine ⟨_, rfl, ⟨?_, ?_, ?_⟩⟩
    · simp only [h.odo, List.filter_append]
      apply List.map_congr_left
      intro a _
      have : ¬ ((f m.p1).robot = a ∧ (f m.p2).robot = a) := by rintro ⟨rfl, e⟩; exact hr e.symm
      simp [isOdo, relabel, this]
    · simp only [h.priv, List.filter_append]
      apply List.map_congr_left
      intro a _
      have : ¬ ((f m.p1).robot = a ∧ (f m.p2).robot = a) := by rintro ⟨rfl, e⟩; exact hr e.symm
      simp [isPriv, relabel, this]
    · simp only [List.filter_append]
      apply List.map_congr_left
      intro a _
      by_cases c : a = (f m.p1).robot
      · have c' : a ≠ (f m.p2).robot := fun e => hr (c.symm.trans e)
        rw [if_neg c', if_pos c]
        subst c
        simp [isShared, relabel, Ne.symm c']
      · by_cases c' : a = (f m.p2).robot
        · rw [if_pos c', if_neg c]
          subst c'
          simp [isShared, relabel, Ne.symm c]
        · rw [if_neg c', if_neg c]
          simp [isShared, relabel, Ne.symm c, Ne.symm c']

theorem split_fold [Field K] {N n : Nat} (hn : n < 2 ^ 32) {M : OMap Nat PoseID}
    {f : Nat → PoseID} (hM : ∀ i, i < n → OMap.find? ltNat i M = some (f i))
    (hf : ∀ i, i < n → (f i).robot < N ∧ (f i).frame < n) :
    ∀ (D E : List (Meas K)) (s : Split K), Lists N E s → (∀ m ∈ D, EndsBelow n m) →
      ∃ s', Res.foldl splitStep (M, s) D = ok (M, s') ∧ Lists N (E ++ D.map (relabel f)) s' := by
  intro D
  induction D with
  | nil => intro E s h _; exact ⟨s, rfl, by simpa using h⟩
  | cons m D ih =>
    intro E s h hm
    obtain ⟨s₁, e₁, h₁⟩ := splitStep_lists hn hM hf h (hm m (by simp))
    obtain ⟨s₂, e₂, h₂⟩ := ih _ s₁ h₁ (fun x hx => hm x (by simp [hx]))
    refine ⟨s₂, ?_, by simpa using h₂⟩
    rw [foldl_cons, e₁]
    exact e₂

theorem lists_init (N : Nat) :
    Lists N [] (⟨List.replicate N [], List.replicate N [], List.replicate N []⟩ : Split K) := by
  constructor <;> simp

theorem partition_eq [Field K] {N n : Nat} (hN : 0 < N) (hNn : N ≤ n) (hn : n < 2 ^ 32)
    {D : List (Meas K)} (hD : ∀ m ∈ D, EndsBelow n m) :
    ∃ s, partition (N : Int) n D = ok (poseMap N n (n / N), s) ∧
      Lists N (D.map (relabel (place N (n / N)))) s := by
  obtain ⟨s, e, h⟩ := split_fold (K := K) hn (M := poseMap N n (n / N)) (f := place N (n / N)) (N := N)
    (fun i hi => by rw [find?_poseMap hN hNn hn, if_pos hi])
    (fun i hi => ⟨place_robot_lt hN i, by have := (place_frame (N := N) (n := n) i).1; omega⟩) D []
    ⟨List.replicate N [], List.replicate N [], List.replicate N []⟩ (lists_init N) hD
  refine ⟨s, ?_, by simpa using h⟩
  unfold partition
  rw [if_neg (by omega)]
  simp only [Int.toNat_natCast, perRobot_eq hn]
  rw [if_neg (by have := per_pos hN hNn; omega)]
  exact e

end Dpgo.Example
