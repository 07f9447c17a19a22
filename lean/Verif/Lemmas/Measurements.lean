import Verif.Lemmas.Activity

/-! # Facts about the log specification and about single calls -/

namespace Dpgo

open Res Spec

variable {K : Type}

theorem sameEnds_symm (a b : Meas K) : sameEnds a b = sameEnds b a := by
  rw [Bool.eq_iff_iff, sameEnds_iff, sameEnds_iff]; omega

theorem sameEnds_congr {a b : Meas K} (h : sameEnds a b = true) (c : Meas K) :
    sameEnds a c = sameEnds b c := by
  rw [sameEnds_iff] at h
  rw [Bool.eq_iff_iff, sameEnds_iff, sameEnds_iff]; omega

theorem sameEnds_congr' {a b : Meas K} (h : sameEnds a b = true) (c : Meas K) :
    sameEnds c a = sameEnds c b := by
  rw [sameEnds_symm c a, sameEnds_symm c b, sameEnds_congr h]

theorem foldl_add_eq (id : Nat) (ms log : List (Meas K)) :
    ms.foldl (Spec.add id) log =
      log ++ (firstWins (ms.filter (touches id))).filter (fun x => !(log.any (sameEnds x))) := by
  induction ms generalizing log with
  | nil => simp [firstWins]
  | cons m l ih =>
    rw [List.foldl_cons, ih]
    by_cases ht : touches id m = true
    · rw [List.filter_cons_of_pos ht, firstWins]
      by_cases hd : log.any (sameEnds m) = true
      · have : Spec.add id log m = log := by simp [Spec.add, ht, hd]
        rw [this, List.filter_cons_of_neg (by simp [hd]), List.filter_filter]
        congr 1
        apply List.filter_congr
        intro x _
        by_cases hx : sameEnds m x = true
        · have : log.any (sameEnds x) = true := by
            rw [List.any_eq_true] at hd ⊢
            obtain ⟨y, hy, e⟩ := hd
            exact ⟨y, hy, by rw [← sameEnds_congr hx]; exact e⟩
          simp [this]
        · simp [hx]
      · have : Spec.add id log m = log ++ [m] := by simp [Spec.add, ht, hd]
        rw [this, List.filter_cons_of_pos (by simp [hd]), List.append_assoc, List.filter_filter]
        congr 1
        simp only [List.singleton_append]
        congr 1
        apply List.filter_congr
        intro x _
        rw [List.any_append, sameEnds_symm m x]
        simp
    · have : Spec.add id log m = log := by simp [Spec.add, ht]
      rw [this, List.filter_cons_of_neg ht]

theorem foldl_add_nil (id : Nat) (ms : List (Meas K)) :
    ms.foldl (Spec.add id) [] = firstWins (ms.filter (touches id)) := by
  rw [foldl_add_eq]; simp

namespace PoseGraph

theorem Inv.measurements {g : PoseGraph K} {log : List (Meas K)} (h : Inv g log) :
    g.measurements = buckets g.id log := by
  unfold PoseGraph.measurements buckets
  rw [h.odo, h.priv, h.shared]

theorem mem_buckets (id : Nat) (log : List (Meas K)) (m : Meas K) :
    m ∈ buckets id log ↔ m ∈ log ∧ touches id m = true := by
  simp only [buckets, List.mem_append, List.mem_filter, isOdo_iff, isPriv_iff, isShared_iff,
    touches_iff]
  constructor
  · rintro ((⟨a, b⟩ | ⟨a, b⟩) | ⟨a, b⟩) <;> exact ⟨a, by omega⟩
  · rintro ⟨a, b⟩
    by_cases h1 : m.r1 = id <;> by_cases h2 : m.r2 = id <;> by_cases h3 : m.p1 + 1 = m.p2 <;>
      simp_all

theorem Inv.mem_measurements {g : PoseGraph K} {log : List (Meas K)} (h : Inv g log) (m : Meas K) :
    m ∈ g.measurements ↔ m ∈ log := by
  rw [h.measurements, mem_buckets]
  exact ⟨fun x => x.1, fun x => ⟨x, h.touch m x⟩⟩

/-- Adding a measurement with data of the right size never fails. -/
theorem addMeasurement_ok {g : PoseGraph K} (m : Meas K) (hd : MDims g.d m) :
    ∃ g', g.addMeasurement m = ok g' := by
  have hdim : g.dimsOk m = true := (dimsOk_iff g m).2 hd
  unfold addMeasurement
  split
  · exact ⟨_, rfl⟩
  · rename_i h1
    split
    · rename_i h2
      simp only [Bool.and_eq_true, beq_iff_eq] at h2
      split
      · rename_i h3
        unfold addOdometry
        split
        · exact ⟨_, rfl⟩
        · simp only [h2.1, h2.2, h3, hdim, beq_self_eq_true, check_true, ok_bind]
          exact ⟨_, rfl⟩
      · unfold addPrivateLoopClosure
        split
        · exact ⟨_, rfl⟩
        · simp only [h2.1, h2.2, hdim, beq_self_eq_true, check_true, ok_bind]
          exact ⟨_, rfl⟩
    · rename_i h2
      unfold addSharedLoopClosure
      split
      · exact ⟨_, rfl⟩
      · simp only [hdim, check_true, ok_bind]
        simp only [bne_iff_ne, Bool.and_eq_true, ne_eq, not_and, Decidable.not_not, beq_iff_eq] at h1 h2
        by_cases c : m.r1 = g.id
        · have := h2 c
          simp only [c, beq_self_eq_true, if_true]
          rw [show (m.r2 != g.id) = true by simp [this]]
          exact ⟨_, rfl⟩
        · have := h1 c
          simp only [show (m.r1 == g.id) = false by simp [c], Bool.false_eq_true, if_false, this,
            beq_self_eq_true, check_true, ok_bind]
          exact ⟨_, rfl⟩

theorem addMeasurement_d {g g' : PoseGraph K} {m : Meas K} (e : g.addMeasurement m = ok g') :
    g'.d = g.d ∧ g'.id = g.id ∧ g'.r = g.r := by
  unfold addMeasurement addOdometry addPrivateLoopClosure addSharedLoopClosure at e
  split at e
  · cases e; exact ⟨rfl, rfl, rfl⟩
  · split at e
    · split at e <;> split at e <;>
        first
          | (cases e; exact ⟨rfl, rfl, rfl⟩)
          | (simp only [bind_eq_ok, check_eq_ok, exists_and_left, exists_const] at e
             obtain ⟨-, -, e⟩ := e
             first
             | (obtain ⟨-, -, e⟩ := e; cases e; exact ⟨rfl, rfl, rfl⟩)
             | (obtain ⟨-, e⟩ := e; cases e; exact ⟨rfl, rfl, rfl⟩))
    · split at e
      · cases e; exact ⟨rfl, rfl, rfl⟩
      · simp only [bind_eq_ok, check_eq_ok, exists_and_left, exists_const] at e
        obtain ⟨-, e⟩ := e
        split at e <;>
          (simp only [bind_eq_ok, check_eq_ok, exists_and_left, exists_const] at e
           obtain ⟨-, e⟩ := e
           cases e; exact ⟨rfl, rfl, rfl⟩)

theorem foldl_addMeasurement_ok (ms : List (Meas K)) {g : PoseGraph K}
    (hd : ∀ m ∈ ms, MDims g.d m) : ∃ g', Res.foldl addMeasurement g ms = ok g' := by
  induction ms generalizing g with
  | nil => exact ⟨g, rfl⟩
  | cons m l ih =>
    obtain ⟨g1, e1⟩ := addMeasurement_ok (g := g) m (hd m (by simp))
    rw [foldl_cons, e1]
    simp only [ok_bind']
    apply ih
    intro x hx
    rw [(addMeasurement_d e1).1]
    exact hd x (by simp [hx])

/-- Activity map after adding a measurement. -/
theorem addMeasurement_active {g g' : PoseGraph K} {m : Meas K} (hm : MeasWF m)
    (e : g.addMeasurement m = ok g') :
    (g'.nbrActive = g.nbrActive ∧ g'.nbrRobots = g.nbrRobots) ∨
    (isShared g.id m = true ∧
      g'.nbrActive = OMap.insert ltNat (foreignPose g.id m).robot true g.nbrActive ∧
      g'.nbrRobots = OSet.insert ltNat (foreignPose g.id m).robot g.nbrRobots) := by
  unfold MeasWF at hm
  unfold addMeasurement addOdometry addPrivateLoopClosure addSharedLoopClosure at e
  split at e
  · cases e; exact Or.inl ⟨rfl, rfl⟩
  · rename_i h1
    split at e
    · split at e <;> split at e <;>
        first
          | (cases e; exact Or.inl ⟨rfl, rfl⟩)
          | (simp only [bind_eq_ok, check_eq_ok, exists_and_left, exists_const] at e
             obtain ⟨-, -, e⟩ := e
             first
             | (obtain ⟨-, -, e⟩ := e; cases e; exact Or.inl ⟨rfl, rfl⟩)
             | (obtain ⟨-, e⟩ := e; cases e; exact Or.inl ⟨rfl, rfl⟩))
    · rename_i h2
      split at e
      · cases e; exact Or.inl ⟨rfl, rfl⟩
      · simp only [bind_eq_ok, check_eq_ok, exists_and_left, exists_const] at e
        obtain ⟨-, e⟩ := e
        split at e
        · rename_i c
          simp only [bind_eq_ok, check_eq_ok, exists_and_left, exists_const] at e
          obtain ⟨hc, e⟩ := e
          cases e
          right
          simp only [beq_iff_eq, bne_iff_ne] at c hc
          refine ⟨by rw [isShared_iff]; omega, ?_, ?_⟩ <;>
            simp only [foreignPose, c, if_true] <;> rw [u32_of_lt (by omega)]
        · rename_i c
          simp only [bind_eq_ok, check_eq_ok, exists_and_left, exists_const] at e
          obtain ⟨hc, e⟩ := e
          cases e
          right
          simp only [beq_iff_eq] at c hc
          refine ⟨by rw [isShared_iff]; omega, ?_, ?_⟩ <;>
            simp only [foreignPose, c, if_false] <;> rw [u32_of_lt (by omega)]

theorem find?_foldl_insert (l : List Nat) (m : OMap Nat Bool) (j : Nat) :
    OMap.find? ltNat j (l.foldl (fun m i => OMap.insert ltNat i true m) m) =
      if j ∈ l then some true else OMap.find? ltNat j m := by
  induction l generalizing m with
  | nil => simp
  | cons a t ih =>
    rw [List.foldl_cons, ih, OMap.find?_insert strictTotal_ltNat]
    by_cases h1 : j ∈ t
    · simp [h1]
    · by_cases h2 : j = a <;> simp [h1, h2]

theorem filter_ptr_priv (g : PoseGraph K) (q : Option K → Bool) (f : Meas K → K) :
    (((List.range g.privateLcs.length).map MPtr.priv).filter
      fun p => q ((g.deref p).map f)).length =
    (g.privateLcs.filter fun m => q (some (f m))).length := by
  rw [← List.countP_eq_length_filter, ← List.countP_eq_length_filter, List.countP_map]
  have key : ∀ l : List (Meas K),
      List.countP (fun i => q (l[i]?.map f)) (List.range l.length) =
      List.countP (fun m => q (some (f m))) l := by
    intro l
    induction l with
    | nil => rfl
    | cons a t ih =>
      rw [List.length_cons, List.range_succ_eq_map, List.countP_cons, List.countP_map,
        List.countP_cons, ← ih]
      rfl
  exact key g.privateLcs

theorem filter_ptr_shared (g : PoseGraph K) (q : Option K → Bool) (f : Meas K → K)
    (b : Meas K → Bool) :
    ((pick b 0 g.sharedLcs).filter fun p => q ((g.deref p).map f)).length =
    ((g.sharedLcs.filter b).filter fun m => q (some (f m))).length := by
  have key : ∀ (l pre : List (Meas K)),
      ((pick b pre.length l).filter fun p => match p with
        | .shared i => q ((pre ++ l)[i]?.map f)
        | _ => false).length = ((l.filter b).filter fun m => q (some (f m))).length := by
    intro l
    induction l with
    | nil => intro pre; rfl
    | cons a t ih =>
      intro pre
      have := ih (pre ++ [a])
      rw [List.append_assoc, List.singleton_append, List.length_append, List.length_singleton] at this
      rw [pick]
      have ha : (pre ++ a :: t)[pre.length]? = some a := by simp
      by_cases hb : b a = true
      · rw [if_pos hb, List.filter_cons_of_pos hb, List.filter_cons, List.filter_cons]
        simp only [ha, Option.map_some]
        by_cases hq : q (some (f a)) = true
        · simp only [hq, if_true, List.length_cons, this]
        · simp only [hq, Bool.false_eq_true, if_false, this]
      · rw [if_neg hb, List.filter_cons_of_neg hb]; exact this
  rw [← key g.sharedLcs []]
  congr 1
  apply List.filter_congr
  intro p hp
  obtain ⟨j, m, -, -, rfl⟩ := (mem_pick _ _ _ _).1 hp
  rfl

theorem filter_disjoint_length {α : Type} (l : List α) (p q : α → Bool)
    (h : ∀ a, p a = true → q a = true → False) :
    (l.filter p).length + (l.filter q).length ≤ l.length := by
  induction l with
  | nil => simp
  | cons a t ih =>
    rw [List.filter_cons, List.filter_cons]
    by_cases h1 : p a = true <;> by_cases h2 : q a = true
    · exact (h a h1 h2).elim
    all_goals simp only [h1, h2, if_true, Bool.false_eq_true, if_false, List.length_cons]
    all_goals omega

end PoseGraph
end Dpgo
