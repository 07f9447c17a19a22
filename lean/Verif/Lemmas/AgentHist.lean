import Verif.Lemmas.AgentFrame
import Verif.Spec.History

/-! # Induction over agent histories -/

namespace Dpgo

open Res Spec

theorem last_snoc {hit wipe : Ev → Prop} {t : List Ev} {e : Ev} :
    Last hit wipe (t ++ [e]) ↔ hit e ∨ (¬ wipe e ∧ Last hit wipe t) := by
  constructor
  · rintro ⟨pre, x, post, h, hx, hp⟩
    rcases List.eq_nil_or_concat post with rfl | ⟨post', y, rfl⟩
    · have := List.append_inj' (t₁ := [e]) (t₂ := [x]) h rfl
      obtain ⟨-, h2⟩ := this
      cases h2
      exact Or.inl hx
    · rw [List.concat_eq_append] at h hp
      have h' : t ++ [e] = (pre ++ x :: post') ++ [y] := by rw [h]; simp
      obtain ⟨h1, h2⟩ := List.append_inj' h' rfl
      cases h2
      exact Or.inr ⟨hp e (by simp), pre, x, post', h1, hx, fun z hz => hp z (by simp [hz])⟩
  · rintro (h | ⟨h, pre, x, post, rfl, hx, hp⟩)
    · exact ⟨t, e, [], rfl, h, by simp⟩
    · refine ⟨pre, x, post ++ [e], by simp, hx, fun z hz => ?_⟩
      rcases List.mem_append.1 hz with hz | hz
      · exact hp z hz
      · rw [List.mem_singleton.1 hz]; exact h

theorem last_nil {hit wipe : Ev → Prop} : ¬ Last hit wipe [] := by
  rintro ⟨pre, x, post, h, -⟩
  simp at h

theorem Spec.Hist.reach {o : AgentOracles} {ID : Nat} {p : AgentParams} {t : List Ev} {a : Agent}
    (h : Hist o ID p t a) : AgReach o ID p a := by
  induction h with
  | new e => exact ⟨_, [], e, by simp, rfl⟩
  | call _ hw e ih => exact agReach_snoc ih hw e

theorem run_snoc {o : AgentOracles} {a a' : Agent} {ops : List AgOp} {op : AgOp}
    (e : a.run o (ops ++ [op]) = ok a') : ∃ b, a.run o ops = ok b ∧ b.step o op = ok a' := by
  unfold Agent.run at e
  rw [foldl_append, bind_eq_ok'] at e
  obtain ⟨b, h1, h2⟩ := e
  rw [foldl_cons, bind_eq_ok'] at h2
  obtain ⟨c, h2, h3⟩ := h2
  cases h3
  exact ⟨b, h1, h2⟩

theorem agReach_hist {o : AgentOracles} {ID : Nat} {p : AgentParams} {a : Agent}
    (h : AgReach o ID p a) : ∃ t, Hist o ID p t a := by
  obtain ⟨a0, ops, e0, hw, e⟩ := h
  induction ops using List.reverseRecOn generalizing a with
  | nil => cases e; exact ⟨[], .new e0⟩
  | append_singleton ops op ih =>
    obtain ⟨b, hb, he⟩ := run_snoc e
    obtain ⟨t, ht⟩ := ih (fun x hx => hw x (by simp [hx])) hb
    exact ⟨_, .call ht (hw op (by simp)) he⟩

/-- Invariant rule for histories. -/
theorem hist_ind {o : AgentOracles} {ID : Nat} {p : AgentParams} {P : List Ev → Agent → Prop}
    (h0 : ∀ a, Agent.new o ID p = ok a → P [] a)
    (hs : ∀ t a op a', AgInv ID p a → AgOpWF op → a.step o op = ok a' → P t a →
      P (t ++ [⟨a, op, a'⟩]) a')
    {t : List Ev} {a : Agent} (h : Hist o ID p t a) : P t a := by
  induction h with
  | new e => exact h0 _ e
  | call h hw e ih => exact hs _ _ _ _ (agReach_inv h.reach) hw e ih

variable {o : AgentOracles} {ID : Nat} {p : AgentParams} {a a' : Agent}

theorem u32_succ (k : Nat) : u32 (u32 k + 1) = u32 (k + 1) := by simp [u32]

/-- The statuses held are the last reports. -/
theorem teamStatus_spec {t : List Ev} (h : Hist o ID p t a) (rid : Nat) (s : Status) :
    OMap.find? ltNat rid a.teamStatus = some s ↔ LastReport rid s t := by
  refine hist_ind (P := fun t a => OMap.find? ltNat rid a.teamStatus = some s ↔ LastReport rid s t)
    ?_ ?_ h
  · intro a e
    obtain ⟨X, g, YL, -, -, -, -, -, rfl⟩ := Agent.new_form e
    exact ⟨fun h => by simp [OMap.find?] at h, fun h => absurd h last_nil⟩
  · intro t a op a' hi hw e ih
    unfold LastReport at ih ⊢
    rw [last_snoc, ← ih]
    have f := congrArg Agent.teamStatus (Agent.step_frame hi e)
    cases op with
    | reset =>
      rw [f]
      simp [Reports, DropsReports, Agent.frame, OMap.find?]
    | updateMeasurementWeights =>
      rw [f]
      by_cases hs : a.state = .INITIALIZED
      · simp [Reports, DropsReports, Agent.frame, OMap.find?, hs]
      · simp [Reports, DropsReports, Agent.frame, hs]
    | setNeighborStatus s' =>
      rw [f]
      simp only [Reports, DropsReports, Agent.frame, AgOp.setNeighborStatus.injEq]
      rw [OMap.find?_insert strictTotal_ltNat]
      by_cases hr : rid = s'.agentID
      · subst hr
        simp only [if_true, Option.some.injEq]
        constructor
        · rintro rfl; exact Or.inl ⟨rfl, rfl⟩
        · rintro (⟨h1, h2⟩ | ⟨h1, -⟩)
          · exact h1
          · exact absurd (Or.inr ⟨s', rfl, rfl⟩) h1
      · rw [if_neg hr]
        constructor
        · intro h1
          refine Or.inr ⟨?_, h1⟩
          rintro ((h2 | ⟨h2, -⟩) | ⟨s'', rfl, h3⟩)
          · cases h2
          · cases h2
          · exact hr h3.symm
        · rintro (⟨rfl, h2⟩ | ⟨-, h1⟩)
          · exact absurd h2.symm hr
          · exact h1
    | _ => rw [f]; simp [Reports, DropsReports, Agent.frame]

/-- The flag the agent keeps for robot `rid`. -/
def flagOf (a : Agent) (rid : Nat) : Bool := (a.teamActive[rid]?).getD false

theorem isRobotActive_eq (hi : AgInv ID p a) (rid : Nat) :
    a.isRobotActive rid = ok (decide (rid < p.numRobots) && flagOf a rid) := by
  unfold Agent.isRobotActive flagOf
  rw [hi.params]
  by_cases h : rid < p.numRobots
  · rw [if_neg (by omega)]
    have : rid < a.teamActive.length := by rw [hi.active]; exact h
    rw [List.getElem?_eq_getElem this]
    simp [h]
  · rw [if_pos (by omega)]
    simp [h]

/-- What the loop over the team computes. -/
theorem teamReady_spec (hi : AgInv ID p a) : ∀ l : List Nat, (∀ r ∈ l, r < p.numRobots) →
    ∃ b, a.teamReady l = ok b ∧ (b = true ↔ ∀ rid ∈ l, flagOf a rid = true →
      ∃ s, OMap.find? ltNat rid a.teamStatus = some s ∧ s.state = .INITIALIZED ∧
        s.readyToTerminate = true)
  | [], _ => ⟨true, rfl, by simp⟩
  | r :: l, hl => by
    obtain ⟨b, hb, hspec⟩ := teamReady_spec hi l fun x hx => hl x (by simp [hx])
    have hr := hl r (by simp)
    unfold Agent.teamReady
    rw [isRobotActive_eq hi, ok_bind]
    simp only [hr, decide_true, Bool.true_and]
    cases hf : flagOf a r with
    | false =>
      refine ⟨b, by simpa using hb, ?_⟩
      rw [hspec]
      simp [hf]
    | true =>
      cases hs : OMap.find? ltNat r a.teamStatus with
      | none =>
        refine ⟨false, rfl, ?_⟩
        simp [hf, hs]
      | some s =>
        have hid : s.agentID = r := hi.team.2 _ (OMap.mem_of_find? strictTotal_ltNat hs)
        simp only [Bool.not_true, Bool.false_eq_true, if_false, hid, beq_self_eq_true, check_true,
          ok_bind]
        by_cases h1 : s.state = .INITIALIZED
        · cases h2 : s.readyToTerminate with
          | false =>
            refine ⟨false, by simp [h1], ?_⟩
            simp [hf, hs, h2]
          | true =>
            refine ⟨b, by simpa [h1] using hb, ?_⟩
            rw [hspec]
            simp [hf, hs, h1, h2]
        · refine ⟨false, by simp [h1], ?_⟩
          simp [hf, hs, h1]

/-- `numActiveRobots` counts the flags. -/
theorem numActive_eq (hi : AgInv ID p a) : a.numActiveRobots = ok (a.teamActive.count true) := by
  unfold Agent.numActiveRobots
  rw [hi.params]
  have key : ∀ n, n ≤ p.numRobots → Res.foldl (fun k rid => do
      let b ← a.isRobotActive rid
      ok (if b then k + 1 else k)) 0 (List.range n) = ok ((a.teamActive.take n).count true) := by
    intro n
    induction n with
    | zero => intro _; rfl
    | succ n ih =>
      intro hn
      have hlen : n < a.teamActive.length := by rw [hi.active]; omega
      rw [List.range_succ, foldl_append, ih (by omega), ok_bind', foldl_cons, isRobotActive_eq hi,
        ok_bind, ok_bind', foldl_nil, List.take_add_one, List.getElem?_eq_getElem hlen]
      simp only [flagOf, List.getElem?_eq_getElem hlen, Option.getD_some, Option.toList_some,
        List.count_append, List.count_singleton]
      have : n < p.numRobots := by omega
      cases hb : a.teamActive[n] <;> simp [this]
  have := key p.numRobots le_rfl
  rwa [List.take_of_length_le (by rw [hi.active])] at this

end Dpgo
