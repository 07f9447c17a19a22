import Verif.Lemmas.PoseGraphRun

/-! # Activity flags, active/inactive loop closures, statistics -/

namespace Dpgo

open Res Spec

namespace PoseGraph
variable {K : Type}

/-- Activity flag of a robot as a plain Boolean. -/
def flag (g : PoseGraph K) (nid : Nat) : Bool :=
  g.hasNeighbor nid && (OMap.find? ltNat nid g.nbrActive).getD false

theorem hasNeighbor_iff (g : PoseGraph K) (nid : Nat) : g.hasNeighbor nid = true ↔ nid ∈ g.nbrRobots :=
  OSet.contains_iff strictTotal_ltNat _ _

theorem Inv.find?_active {g : PoseGraph K} {log : List (Meas K)} (h : Inv g log) {nid : Nat}
    (hn : nid ∈ g.nbrRobots) : ∃ b, OMap.find? ltNat nid g.nbrActive = some b := by
  rw [← h.activeKeys, ← OMap.find?_isSome_iff strictTotal_ltNat] at hn
  exact Option.isSome_iff_exists.1 hn

theorem Inv.isNeighborActive_eq {g : PoseGraph K} {log : List (Meas K)} (h : Inv g log) (nid : Nat) :
    g.isNeighborActive nid = ok (g.flag nid) := by
  unfold isNeighborActive flag
  by_cases c : g.hasNeighbor nid = true
  · obtain ⟨b, hb⟩ := h.find?_active ((hasNeighbor_iff g nid).1 c)
    simp [c, hb]
  · simp [c]

/-- Activity of a loop closure as a plain Boolean. -/
def lcFlag (g : PoseGraph K) (m : Meas K) : Bool := g.flag (foreignPose g.id m).robot

theorem Inv.lcActive_eq {g : PoseGraph K} {log : List (Meas K)} (h : Inv g log) (m : Meas K)
    (hm : m ∈ log) (hs : isShared g.id m = true) : g.lcActive m = ok (g.lcFlag m) := by
  have hwf := h.wf m hm
  unfold MeasWF at hwf
  rw [isShared_iff] at hs
  unfold lcActive lcFlag foreignPose
  by_cases c : m.r1 = g.id
  · have c2 : m.r2 ≠ g.id := by omega
    simp only [c, c2, beq_self_eq_true, if_true, h.isNeighborActive_eq, ok_bind, beq_iff_eq, if_false]
    rw [u32_of_lt (by omega)]
    cases g.flag m.r2 <;> rfl
  · have c2 : m.r2 = g.id := by omega
    simp only [c, c2, if_true, h.isNeighborActive_eq, ok_bind, beq_iff_eq, if_false,
      Bool.false_eq_true]
    rw [u32_of_lt (by omega)]

theorem Inv.lcInactive_eq {g : PoseGraph K} {log : List (Meas K)} (h : Inv g log) (m : Meas K)
    (hm : m ∈ log) (hs : isShared g.id m = true) : g.lcInactive m = ok (!(g.lcFlag m)) := by
  have hwf := h.wf m hm
  unfold MeasWF at hwf
  rw [isShared_iff] at hs
  unfold lcInactive lcFlag foreignPose
  by_cases c : m.r1 = g.id
  · have c2 : m.r2 ≠ g.id := by omega
    simp only [c, c2, beq_self_eq_true, if_true, h.isNeighborActive_eq, ok_bind, beq_iff_eq, if_false]
    rw [u32_of_lt (by omega)]
    cases g.flag m.r2 <;> rfl
  · have c2 : m.r2 = g.id := by omega
    simp only [c, c2, if_true, h.isNeighborActive_eq, ok_bind, beq_iff_eq, if_false,
      Bool.false_eq_true]
    rw [u32_of_lt (by omega)]

/-- Result of `selectShared` when the test never fails. -/
def pick (b : Meas K → Bool) : Nat → List (Meas K) → List MPtr
  | _, [] => []
  | i, m :: l => if b m then MPtr.shared i :: pick b (i + 1) l else pick b (i + 1) l

theorem selectShared_eq (test : Meas K → Res Bool) (b : Meas K → Bool) (i : Nat) (l : List (Meas K))
    (h : ∀ m ∈ l, test m = ok (b m)) : selectShared test i l = ok (pick b i l) := by
  induction l generalizing i with
  | nil => rfl
  | cons m t ih =>
    rw [selectShared, h m (by simp), ih (i + 1) (fun x hx => h x (by simp [hx]))]
    simp only [ok_bind, pick]

theorem mem_pick (b : Meas K → Bool) (i : Nat) (l : List (Meas K)) (p : MPtr) :
    p ∈ pick b i l ↔ ∃ j m, l[j]? = some m ∧ b m = true ∧ p = .shared (i + j) := by
  induction l generalizing i with
  | nil => simp [pick]
  | cons a t ih =>
    have key : p ∈ pick b (i + 1) t ↔ ∃ j m, (a :: t)[j + 1]? = some m ∧ b m = true ∧
        p = .shared (i + (j + 1)) := by
      rw [ih]
      simp only [List.getElem?_cons_succ]
      constructor <;> rintro ⟨j, m, h1, h2, h3⟩ <;> refine ⟨j, m, h1, h2, ?_⟩ <;> rw [h3] <;>
        congr 1 <;> omega
    unfold pick
    constructor
    · intro hp
      split at hp
      · rename_i c
        rcases List.mem_cons.1 hp with r | r
        · exact ⟨0, a, rfl, c, r⟩
        · obtain ⟨j, m, hh⟩ := key.1 r
          exact ⟨j + 1, m, hh⟩
      · obtain ⟨j, m, hh⟩ := key.1 hp
        exact ⟨j + 1, m, hh⟩
    · rintro ⟨j, m, h1, h2, h3⟩
      cases j with
      | zero =>
        simp at h1; subst h1
        rw [if_pos h2]; rw [h3]; simp
      | succ j =>
        have := key.2 ⟨j, m, h1, h2, h3⟩
        split
        · exact List.mem_cons_of_mem _ this
        · exact this

theorem pick_perm (b : Meas K → Bool) (i : Nat) (l : List (Meas K)) :
    (pick b i l ++ pick (fun m => !(b m)) i l).Perm ((List.range' i l.length).map MPtr.shared) := by
  induction l generalizing i with
  | nil => simp [pick]
  | cons a t ih =>
    simp only [pick, List.length_cons, List.range'_succ, List.map_cons]
    by_cases hb : b a = true
    · rw [if_pos hb, if_neg (by simp [hb]), List.cons_append]
      exact (ih (i + 1)).cons _
    · rw [if_neg hb, if_pos (by simp [hb])]
      exact (List.perm_middle).trans ((ih (i + 1)).cons _)

theorem length_pick (b : Meas K → Bool) (i : Nat) (l : List (Meas K)) :
    (pick b i l).length = (l.filter b).length := by
  induction l generalizing i with
  | nil => rfl
  | cons a t ih =>
    unfold pick
    cases hb : b a <;> simp [hb, ih]

theorem Inv.active_eq {g : PoseGraph K} {log : List (Meas K)} (h : Inv g log) :
    g.activeLoopClosures =
      ok ((List.range g.privateLcs.length).map MPtr.priv ++ pick g.lcFlag 0 g.sharedLcs) := by
  unfold activeLoopClosures
  rw [selectShared_eq _ g.lcFlag]
  · rfl
  · intro m hm
    rw [h.shared, List.mem_filter] at hm
    exact h.lcActive_eq m hm.1 hm.2

theorem Inv.inactive_eq {g : PoseGraph K} {log : List (Meas K)} (h : Inv g log) :
    g.inactiveLoopClosures = ok (pick (fun m => !(g.lcFlag m)) 0 g.sharedLcs) := by
  unfold inactiveLoopClosures
  apply selectShared_eq
  intro m hm
  rw [h.shared, List.mem_filter] at hm
  exact h.lcInactive_eq m hm.1 hm.2

variable [DecidableEq K] [Zero K] [One K]

theorem foldl_countLc (l : List (Meas K)) (h01 : (0 : K) ≠ 1) (t a r : Nat) :
    l.foldl countLc (t, a, r) =
      (t + l.length, a + (l.filter fun m => decide (m.weight = 1)).length,
        r + (l.filter fun m => decide (m.weight = 0)).length) := by
  induction l generalizing t a r with
  | nil => simp
  | cons m l ih =>
    rw [List.foldl_cons]
    have hc : countLc (t, a, r) m = if m.weight = 1 then (t + 1, a + 1, r)
        else if m.weight = 0 then (t + 1, a, r + 1) else (t + 1, a, r) := rfl
    rw [hc]
    by_cases h1 : m.weight = 1
    · have h0 : ¬ m.weight = 0 := by rw [h1]; exact fun e => h01 e.symm
      rw [if_pos h1, ih, List.filter_cons_of_pos (by simp [h1]),
        List.filter_cons_of_neg (by simp [h0])]
      simp only [List.length_cons, Prod.mk.injEq]
      refine ⟨?_, ?_, ?_⟩ <;> first | trivial | omega
    · by_cases h0 : m.weight = 0
      · rw [if_neg h1, if_pos h0, ih, List.filter_cons_of_neg (by simp [h1]),
          List.filter_cons_of_pos (by simp [h0])]
        simp only [List.length_cons, Prod.mk.injEq]
        refine ⟨?_, ?_, ?_⟩ <;> first | trivial | omega
      · rw [if_neg h1, if_neg h0, ih, List.filter_cons_of_neg (by simp [h1]),
          List.filter_cons_of_neg (by simp [h0])]
        simp only [List.length_cons, Prod.mk.injEq]
        refine ⟨?_, ?_⟩ <;> first | trivial | omega

theorem Inv.countShared_eq {g : PoseGraph K} {log : List (Meas K)} (h : Inv g log) (acc : Nat × Nat × Nat)
    (m : Meas K) (hm : m ∈ log) (hs : isShared g.id m = true) :
    g.countShared acc m = ok (if g.lcFlag m then countLc acc m else acc) := by
  have hwf := h.wf m hm
  unfold MeasWF at hwf
  rw [isShared_iff] at hs
  unfold countShared lcFlag foreignPose
  by_cases c : m.r1 = g.id
  · have c2 : m.r2 ≠ g.id := by omega
    simp only [c, c2, beq_self_eq_true, if_true, h.isNeighborActive_eq, ok_bind, beq_iff_eq, if_false]
    rw [u32_of_lt (by omega)]
    cases g.flag m.r2 <;> rfl
  · have c2 : m.r2 = g.id := by omega
    simp only [c, c2, if_true, h.isNeighborActive_eq, ok_bind, beq_iff_eq, if_false,
      Bool.false_eq_true]
    rw [u32_of_lt (by omega)]
    cases g.flag m.r1 <;> rfl

theorem foldl_countShared {g : PoseGraph K} {log : List (Meas K)} (h : Inv g log) (l : List (Meas K))
    (hl : ∀ m ∈ l, m ∈ log ∧ isShared g.id m = true) (acc : Nat × Nat × Nat) :
    Res.foldl g.countShared acc l = ok ((l.filter g.lcFlag).foldl countLc acc) := by
  induction l generalizing acc with
  | nil => rfl
  | cons m t ih =>
    rw [foldl_cons, h.countShared_eq acc m (hl m (by simp)).1 (hl m (by simp)).2]
    simp only [ok_bind']
    rw [ih (fun x hx => hl x (by simp [hx]))]
    cases hb : g.lcFlag m <;> simp [hb]

theorem Inv.statistics_eq {g : PoseGraph K} {log : List (Meas K)} (h : Inv g log)
    (h01 : (0 : K) ≠ 1) :
    let lcs := g.privateLcs ++ g.sharedLcs.filter g.lcFlag
    g.statistics = ok
      ⟨lcs.length, (lcs.filter fun m => decide (m.weight = 1)).length,
        (lcs.filter fun m => decide (m.weight = 0)).length,
        (lcs.length : Int) - (lcs.filter fun m => decide (m.weight = 1)).length -
          (lcs.filter fun m => decide (m.weight = 0)).length⟩ := by
  intro lcs
  simp only [statistics]
  rw [foldl_countShared h]
  · rw [← List.foldl_append, foldl_countLc _ h01]
    simp [lcs]
  · intro m hm
    rw [h.shared, List.mem_filter] at hm
    exact hm

end PoseGraph
end Dpgo
