import Verif.Spec.Reweight
import Verif.Lemmas.AgentHist

/-! # The guard of the weight updates -/

namespace Dpgo

open Res Spec

variable {o : AgentOracles} {ID : Nat} {p : AgentParams} {a a' : Agent}

/-- What the loop over the team computes. -/
theorem teamConverged_spec (hi : AgInv ID p a) : ∀ l : List Nat, (∀ r ∈ l, r < p.numRobots) →
    ∃ b, a.teamConverged l = ok b ∧ (b = true ↔ ∀ rid ∈ l, flagOf a rid = true →
      ∃ s, OMap.find? ltNat rid a.teamStatus = some s ∧ a.latestWeightUpdate ≤ s.iterationNumber ∧
        s.state = .INITIALIZED ∧ s.readyToTerminate = true)
  | [], _ => ⟨true, rfl, by simp⟩
  | r :: l, hl => by
    obtain ⟨b, hb, hspec⟩ := teamConverged_spec hi l fun x hx => hl x (by simp [hx])
    have hr := hl r (by simp)
    unfold Agent.teamConverged
    rw [isRobotActive_eq hi, ok_bind]
    simp only [hr, decide_true, Bool.true_and]
    cases hf : flagOf a r with
    | false =>
      refine ⟨b, by simpa using hb, ?_⟩
      rw [hspec]
      simp [hf]
    | true =>
      cases hs : OMap.find? ltNat r a.teamStatus with
      | none =>
        refine ⟨false, rfl, ?_⟩
        simp [hf, hs]
      | some s =>
        have hid : s.agentID = r := hi.team.2 _ (OMap.mem_of_find? strictTotal_ltNat hs)
        simp only [Bool.not_true, Bool.false_eq_true, if_false, hid, beq_self_eq_true, check_true,
          ok_bind]
        by_cases h0 : s.iterationNumber < a.latestWeightUpdate
        · refine ⟨false, by simp [h0], ?_⟩
          have : ¬ a.latestWeightUpdate ≤ s.iterationNumber := by omega
          simp [hf, hs, this]
        · have h0' : a.latestWeightUpdate ≤ s.iterationNumber := by omega
          rw [if_neg h0]
          by_cases h1 : s.state = .INITIALIZED
          · cases h2 : s.readyToTerminate with
            | false =>
              refine ⟨false, by simp [h1], ?_⟩
              simp [hf, hs, h2]
            | true =>
              refine ⟨b, by simpa [h1] using hb, ?_⟩
              rw [hspec]
              simp [hf, hs, h0', h1, h2]
          · refine ⟨false, by simp [h1], ?_⟩
            simp [hf, hs, h1]

theorem iteratesSinceUpdate_snoc (t : List Ev) (e : Ev) : iteratesSinceUpdate (t ++ [e]) =
    open Classical in (if DropsReports e then 0
      else if ∃ b, e.op = .iterate b then iteratesSinceUpdate t + 1 else iteratesSinceUpdate t) := by
  unfold iteratesSinceUpdate
  rw [List.foldl_append]
  rfl

theorem reweightsSinceReset_snoc (t : List Ev) (e : Ev) : reweightsSinceReset (t ++ [e]) =
    open Classical in (if e.op = .reset then 0
      else if Reweights e then reweightsSinceReset t + 1 else reweightsSinceReset t) := by
  unfold reweightsSinceReset
  rw [List.foldl_append]
  rfl

/-- The counter of weight updates. -/
theorem weightUpdateCount_spec {t : List Ev} (h : Hist o ID p t a) :
    a.weightUpdateCount = reweightsSinceReset t := by
  refine hist_ind (P := fun t a => a.weightUpdateCount = reweightsSinceReset t) ?_ ?_ h
  · intro a e
    obtain ⟨X, g, YL, -, -, -, -, -, rfl⟩ := Agent.new_form e
    rfl
  · intro t a op a' hi _ e ih
    have f := congrArg Agent.weightUpdateCount (Agent.step_frame hi e)
    rw [reweightsSinceReset_snoc]
    unfold Reweights
    cases op with
    | reset => rw [f]; simp [Agent.frame]
    | updateMeasurementWeights =>
      rw [f]
      by_cases hs : a.state = .INITIALIZED
      · simp [Agent.frame, hs, ih]
      · simp [Agent.frame, hs, ih]
    | _ => rw [f]; simpa [Agent.frame] using ih

/-- The counter of inner iterations. -/
theorem innerIter_spec {t : List Ev} (h : Hist o ID p t a) (hc : p.robust.costType ≠ .L2) :
    a.innerIter = iteratesSinceUpdate t := by
  refine hist_ind (P := fun t a => a.innerIter = iteratesSinceUpdate t) ?_ ?_ h
  · intro a e
    obtain ⟨X, g, YL, -, -, -, -, -, rfl⟩ := Agent.new_form e
    rfl
  · intro t a op a' hi _ e ih
    have f := congrArg Agent.innerIter (Agent.step_frame hi e)
    rw [iteratesSinceUpdate_snoc]
    unfold DropsReports
    cases op with
    | reset => rw [f]; simp [Agent.frame]
    | updateMeasurementWeights =>
      rw [f]
      by_cases hs : a.state = .INITIALIZED
      · simp [Agent.frame, hs]
      · simp [Agent.frame, hs, ih]
    | iterate b =>
      simp only [Agent.step, bind_eq_ok] at e
      obtain ⟨⟨s, c⟩, hc', e⟩ := e
      cases e
      rw [(Agent.iterate_frame hc').2.2.2 (by rw [hi.params]; exact hc), ih]
      simp
    | _ => rw [f]; simpa [Agent.frame] using ih

/-- `latestWeightUpdate` is the iteration number at the last weight update since the reset. -/
theorem latestWeightUpdate_spec {t : List Ev} (h : Hist o ID p t a) :
    ∀ e, Last (fun x => x = e ∧ Reweights e) DropsReports t →
      a.latestWeightUpdate = e.before.iterationNumber := by
  refine hist_ind (P := fun t a => ∀ e, Last (fun x => x = e ∧ Reweights e) DropsReports t →
      a.latestWeightUpdate = e.before.iterationNumber) ?_ ?_ h
  · intro a _ e he
    exact absurd he last_nil
  · intro t a op a' hi _ e ih x hx
    have f := congrArg Agent.latestWeightUpdate (Agent.step_frame hi e)
    rw [last_snoc] at hx
    rcases hx with ⟨rfl, hx⟩ | ⟨hx, hl⟩
    · obtain ⟨h1, h2⟩ := hx
      cases h1
      rw [f]
      exact if_pos h2
    · rw [← ih x hl, f]
      unfold DropsReports at hx
      cases op with
      | reset => exact absurd (Or.inl rfl) hx
      | updateMeasurementWeights =>
        by_cases hs : a.state = .INITIALIZED
        · exact absurd (Or.inr ⟨rfl, hs⟩) hx
        · exact if_neg hs
      | _ => rfl

theorem iteratesSinceUpdate_tail {t1 t2 : List Ev} {e : Ev} (he : DropsReports e)
    (h2 : ∀ x ∈ t2, ¬ DropsReports x) : iteratesSinceUpdate (t1 ++ e :: t2) = numIterates t2 := by
  have key : ∀ (l : List Ev), (∀ x ∈ l, ¬ DropsReports x) →
      iteratesSinceUpdate (t1 ++ e :: l) = numIterates l := by
    intro l
    induction l using List.reverseRecOn with
    | nil =>
      intro _
      rw [iteratesSinceUpdate_snoc, if_pos he]
      rfl
    | append_singleton l x ih =>
      intro hl
      have : t1 ++ e :: (l ++ [x]) = (t1 ++ e :: l) ++ [x] := by simp
      rw [this, iteratesSinceUpdate_snoc, if_neg (hl x (by simp)), ih fun y hy => hl y (by simp [hy])]
      unfold numIterates
      rw [List.filter_append, List.length_append]
      by_cases hx : ∃ b, x.op = .iterate b
      · simp [hx]
      · simp [hx]
  exact key t2 h2

/-- Every event of a history is a call on the agent its prefix leads to. -/
theorem hist_event : ∀ {t2 t1 : List Ev} {e : Ev} {a : Agent}, Hist o ID p (t1 ++ e :: t2) a →
    Hist o ID p t1 e.before ∧ AgOpWF e.op ∧ e.before.step o e.op = ok e.after ∧
    Hist o ID p (t1 ++ [e]) e.after := by
  intro t2
  induction t2 using List.reverseRecOn with
  | nil =>
    intro t1 e a h
    generalize ht : t1 ++ [e] = t at h
    cases h with
    | new _ => simp at ht
    | call h hw he =>
      obtain ⟨h1, h2⟩ := List.append_inj' ht rfl
      subst h1
      cases h2
      exact ⟨h, hw, he, .call h hw he⟩
  | append_singleton t2 x ih =>
    intro t1 e a h
    have h : Hist o ID p ((t1 ++ e :: t2) ++ [x]) a := by simpa using h
    generalize ht : (t1 ++ e :: t2) ++ [x] = t at h
    cases h with
    | new _ => simp at ht
    | call h hw he =>
      obtain ⟨h1, -⟩ := List.append_inj' ht rfl
      subst h1
      exact ih h

end Dpgo
