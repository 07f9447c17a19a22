import Verif.Model.Ids

/-! # Orders on ids, edge map lemmas -/

namespace Dpgo

theorem strictTotal_ltNat : StrictTotal ltNat where
  irrefl a := by simp [ltNat]
  trans a b c := by simp only [ltNat, decide_eq_true_eq]; omega
  total a b := by simp only [ltNat, decide_eq_false_iff_not]; omega

theorem ltPoseID_iff (a b : PoseID) :
    ltPoseID a b = true ↔ a.robot < b.robot ∨ (a.robot = b.robot ∧ a.frame < b.frame) := by
  simp only [ltPoseID, Bool.or_eq_true, Bool.and_eq_true, decide_eq_true_eq, Bool.not_eq_true',
    decide_eq_false_iff_not]
  omega

theorem strictTotal_ltPoseID : StrictTotal ltPoseID where
  irrefl a := by
    rw [← Bool.not_eq_true, ltPoseID_iff]; omega
  trans a b c := by simp only [ltPoseID_iff]; omega
  total a b := by
    simp only [← Bool.not_eq_true, ltPoseID_iff]
    intro h1 h2
    cases a; cases b
    simp only [PoseID.mk.injEq] at *
    omega

theorem ltEdgeID_iff (a b : EdgeID) :
    ltEdgeID a b = true ↔
      a.src.robot < b.src.robot ∨ (a.src.robot = b.src.robot ∧
        (a.dst.robot < b.dst.robot ∨ (a.dst.robot = b.dst.robot ∧
          (a.src.frame < b.src.frame ∨ (a.src.frame = b.src.frame ∧
            a.dst.frame < b.dst.frame))))) := by
  simp only [ltEdgeID, ltTuple4, Bool.or_eq_true, Bool.and_eq_true, decide_eq_true_eq,
    Bool.not_eq_true', decide_eq_false_iff_not]
  omega

theorem strictTotal_ltEdgeID : StrictTotal ltEdgeID where
  irrefl a := by
    rw [← Bool.not_eq_true, ltEdgeID_iff]; omega
  trans a b c := by simp only [ltEdgeID_iff]; omega
  total a b := by
    simp only [← Bool.not_eq_true, ltEdgeID_iff]
    intro h1 h2
    obtain ⟨⟨_, _⟩, ⟨_, _⟩⟩ := a
    obtain ⟨⟨_, _⟩, ⟨_, _⟩⟩ := b
    simp only [EdgeID.mk.injEq, PoseID.mk.injEq] at *
    omega

theorem EdgeMap.get?_emplace_of_none (m : EdgeMap) (e e' : EdgeID) (i : Nat)
    (h : m.get? e = none) :
    (m.emplace e i).get? e' = if e' = e then some i else m.get? e' := by
  unfold EdgeMap.emplace
  simp only [h, Option.isSome_none, Bool.false_eq_true, if_false, EdgeMap.get?]
  by_cases hh : e = e'
  · subst hh; simp
  · rw [if_neg hh, if_neg (fun x => hh x.symm)]

theorem u32_of_lt {x : Nat} (h : x < 2 ^ 32) : u32 x = x := Nat.mod_eq_of_lt h
theorem u64_of_lt {x : Nat} (h : x < 2 ^ 64) : u64 x = x := Nat.mod_eq_of_lt h

end Dpgo
