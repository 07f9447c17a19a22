import Verif.Lemmas.DemoRound

/-! # The team of the demo in one iteration -/

namespace Dpgo.Example

open Res Spec

/-- All agents of the team, agent `i` having made `K i` iterations. -/
structure Crew (o : AgentOracles) (p : AgentParams) (E : List (Meas ℝ)) (sh : Nat → Nat) (N : Nat)
    (K : Nat → Nat) (agents : List Agent) : Prop where
  len : agents.length = N
  mem : ∀ i a, agents[i]? = some a → Member o p E sh i (K i) a

theorem onAgent_ok {f : Agent → Res Agent} {agents : List Agent} {i : Nat} {a a' : Agent}
    (h : agents[i]? = some a) (e : f a = ok a') : onAgent f agents i = ok (agents.set i a') := by
  unfold onAgent at!
  rw [h]
  simp only [ok_bind, e]

theorem estimates_set {agents : List Agent} {i : Nat} {a : Agent} (h : i < agents.length) :
    estimates (agents.set i a) = Function.update (estimates agents) i a.X.X := by
  funext j
  unfold estimates
  rw [List.getElem?_set]
  by_cases c : i = j
  · subst c
    rw [if_pos rfl, if_pos h, Function.update_self]
    rfl
  · rw [if_neg c, Function.update_of_ne (Ne.symm c)]

theorem estimates_at {agents : List Agent} {i : Nat} {a : Agent} (h : agents[i]? = some a) :
    estimates agents i = a.X.X := by
  unfold estimates
  rw [h]; rfl

theorem estimates_keep {agents : List Agent} {i : Nat} {a a' : Agent} (h : agents[i]? = some a)
    (hX : a'.X = a.X) : estimates (agents.set i a') = estimates agents := by
  rw [estimates_set (List.getElem?_eq_some_iff.1 h).1, hX, ← estimates_at h, Function.update_eq_self]

section
variable {o : AgentOracles} {p : AgentParams} {E : List (Meas ℝ)} {sh : Nat → Nat} {N : Nat} {K : Nat → Nat}
  {agents : List Agent}

theorem Crew.get (h : Crew o p E sh N K agents) {i : Nat} (hi : i < N) :
    ∃ a, agents[i]? = some a ∧ Member o p E sh i (K i) a := by
  have hl : i < agents.length := by rw [h.len]; exact hi
  exact ⟨agents[i], List.getElem?_eq_getElem hl, h.mem i _ (List.getElem?_eq_getElem hl)⟩

theorem Crew.set (h : Crew o p E sh N K agents) {i k : Nat} {a : Agent}
    (ha : Member o p E sh i k a) {K' : Nat → Nat} (h1 : i < N → K' i = k) (h2 : ∀ j < N, j ≠ i → K' j = K j) :
    Crew o p E sh N K' (agents.set i a) := by
  refine ⟨by rw [List.length_set]; exact h.len, fun j b hj => ?_⟩
  have hjN : j < N := by
    have := (List.getElem?_eq_some_iff.1 hj).1
    rw [List.length_set, h.len] at this
    exact this
  rw [List.getElem?_set] at hj
  split at hj
  · rename_i c
    subst c
    split at hj
    · cases hj
      rw [h1 hjN]; exact ha
    · cases hj
  · rename_i c
    rw [h2 j hjN (Ne.symm c)]
    exact h.mem j b hj

/-- Agents that are not selected. -/
theorem idle_loop (hd : 0 < p.d) (hl : p.robust.costType = .L2) (ho : p.acceleration = true → AccelOk p)
    {sel k : Nat} (h : Crew o p E sh N (fun _ => k) agents) :
    ∃ agents', Res.foldl (onAgent (idleStep o sel k)) agents (List.range N) = ok agents' ∧
      Crew o p E sh N (fun i => if i = sel then k else u32 (k + 1)) agents' ∧
      (p.acceleration = false → estimates agents' = estimates agents) := by
  obtain ⟨c, e, hc, hX⟩ := foldl_range_total (f := onAgent (idleStep o sel k)) (n := N) (b := agents)
    (P := fun j c => Crew o p E sh N (fun i => if i = sel ∨ j ≤ i then k else u32 (k + 1)) c ∧
      (p.acceleration = false → estimates c = estimates agents))
    ⟨by simpa using h, fun _ => rfl⟩ (by
      rintro j hj c ⟨hc, hX⟩
      obtain ⟨a, ha, hm⟩ := hc.get hj
      simp only [le_refl, or_true, if_true] at hm
      by_cases hs : j = sel
      · refine ⟨c.set j a, onAgent_ok ha ?_, hc.set hm (fun _ => by simp [hs]) ?_, fun hp => ?_⟩
        · unfold idleStep
          rw [hm.inst, hm.iter, hm.id, if_neg (by simp [hs])]
          simp
        · intro i hi hij
          have : (j ≤ i) ↔ (j + 1 ≤ i) := by omega
          simp only [this]
        · rw [estimates_keep ha rfl]; exact hX hp
      · obtain ⟨s, a', e, hm', -, hX'⟩ := hm.iterate hd hl ho false
        refine ⟨c.set j a', onAgent_ok ha ?_, hc.set hm' (fun _ => by simp [hs]) ?_, fun hp => ?_⟩
        · unfold idleStep
          rw [hm.inst, hm.iter, hm.id, if_pos hs, e]
          simp
        · intro i hi hij
          have : (j ≤ i) ↔ (j + 1 ≤ i) := by omega
          simp only [this]
        · rw [estimates_keep ha (hX' hp rfl)]; exact hX hp)
  refine ⟨c, e, ⟨hc.len, fun i a ha => ?_⟩, hX⟩
  have hi : i < N := by
    have := (List.getElem?_eq_some_iff.1 ha).1
    rwa [hc.len] at this
  have := hc.mem i a ha
  simpa [show ¬ N ≤ i by omega] using this

/-- Exchange of the public poses. -/
theorem send_loop {sel : Nat} (hsel : sel < N) (hE : ∀ m ∈ E, m.r1 < N ∧ m.r2 < N)
    (h : Crew o p E sh N K agents) :
    ∃ agents', Res.foldl (sendPoses o sel) agents (List.range N) = ok agents' ∧
      Crew o p E sh N K agents' ∧ estimates agents' = estimates agents ∧
      ∀ a, agents'[sel]? = some a → upToDate p.r p.d (estimates agents') a.graph a.neighborPoses := by
  obtain ⟨c, e, hc, hX, hu⟩ := foldl_range_total (f := sendPoses o sel) (n := N) (b := agents)
    (P := fun j c => Crew o p E sh N K c ∧ estimates c = estimates agents ∧
      ∀ a, c[sel]? = some a → ∀ q ∈ a.graph.nbrShared, q.robot < j →
        ∃ P, OMap.find? ltPoseID q a.neighborPoses = some P ∧ carries p.r p.d (estimates agents) q P)
    ⟨h, rfl, fun a _ q _ c => absurd c (by omega)⟩ (by
      rintro j hj c ⟨hc, hX, hu⟩
      obtain ⟨b, hb, hbm⟩ := hc.get hj
      obtain ⟨a, ha, ham⟩ := hc.get hsel
      unfold sendPoses at!
      rw [hb]
      simp only [ok_bind, hbm.id]
      by_cases hs : j = sel
      · rw [if_pos hs]
        refine ⟨c, rfl, hc, hX, fun a' ha' q hq hqj => hu a' ha' q hq ?_⟩
        rw [ha] at ha'
        cases ha'
        have := (ham.team.robots hE hq).2
        omega
      · rw [if_neg hs]
        obtain ⟨dict, a', e1, e2, hm', hX', hg', hfind, hkeep⟩ := ham.receive hbm hs
        rw [e1]
        simp only [ok_bind]
        have ha' : (c.set j b.getStatus.2)[sel]? = some a := by
          rw [List.getElem?_set, if_neg hs]; exact ha
        refine ⟨(c.set j b.getStatus.2).set sel a', ?_, ?_, ?_, ?_⟩
        · have : (fun x : Agent => (x.setNeighborStatus b.getStatus.1).updateNeighborPoses o b.getStatus.2.id
              dict) a = ok a' := e2
          exact onAgent_ok ha' this
        · exact (hc.set hbm.status (K' := K) (fun _ => rfl) fun _ _ _ => rfl).set hm' (fun _ => rfl)
            fun _ _ _ => rfl
        · rw [estimates_keep ha' hX', estimates_keep (a' := b.getStatus.2) hb rfl, hX]
        · intro x hx q hq hqj
          have hlen : sel < (c.set j b.getStatus.2).length := (List.getElem?_eq_some_iff.1 ha').1
          rw [List.getElem?_set, if_pos rfl, if_pos hlen] at hx
          cases hx
          rw [hg'] at hq
          by_cases hqj' : q.robot = j
          · obtain ⟨P, hP, hcp⟩ := hfind q hq hqj'
            refine ⟨P, hP, fun ρ cc hρ hcc => ?_⟩
            rw [copies_value hcp hρ hcc, ← hX, hqj', estimates_at hb]
          · rw [hkeep q hqj']
            exact hu a ha q hq (by omega))
  refine ⟨c, e, hc, hX, fun a ha q hq => ?_⟩
  rw [hX]
  exact hu a ha q hq ((hc.mem sel a ha).team.robots hE hq).1

/-- Exchange of the auxiliary poses. -/
theorem aux_loop {sel : Nat} (hsel : sel < N) (hp : p.acceleration = true) (h : Crew o p E sh N K agents) :
    ∃ agents', Res.foldl (sendAuxPoses sel) agents (List.range N) = ok agents' ∧
      Crew o p E sh N K agents' := by
  refine foldl_range_total (f := sendAuxPoses sel) (n := N) (b := agents)
    (P := fun j c => Crew o p E sh N K c) h ?_
  rintro j hj c hc
  obtain ⟨b, hb, hbm⟩ := hc.get hj
  obtain ⟨a, ha, ham⟩ := hc.get hsel
  unfold sendAuxPoses at!
  rw [hb]
  simp only [ok_bind, hbm.id]
  by_cases hs : j = sel
  · rw [if_pos hs]
    exact ⟨c, rfl, hc⟩
  · rw [if_neg hs]
    obtain ⟨dict, a', e1, e2, hm', -⟩ := ham.receiveAux hp hbm hs
    rw [e1]
    simp only [ok_bind]
    have ha' : (c.set j b.getStatus.2)[sel]? = some a := by
      rw [List.getElem?_set, if_neg hs]; exact ha
    refine ⟨(c.set j b.getStatus.2).set sel a', ?_, ?_⟩
    · have : (fun x : Agent => (x.setNeighborStatus b.getStatus.1).updateAuxNeighborPoses b.getStatus.2.id
          dict) a = ok a' := e2
      exact onAgent_ok ha' this
    · exact (hc.set hbm.status (K' := K) (fun _ => rfl) fun _ _ _ => rfl).set hm' (fun _ => rfl)
        fun _ _ _ => rfl

/-- The part of an iteration played by the agents. -/
theorem round_total {q : Options} (hq : q.acceleration = p.acceleration) (hd : 0 < p.d)
    (hl : p.robust.costType = .L2) (ho : p.acceleration = true → AccelOk p) {sel k : Nat}
    (hsel : sel < N) (hE : ∀ m ∈ E, m.r1 < N ∧ m.r2 < N) (h : Crew o p E sh N (fun _ => k) agents) :
    ∃ agents', teamRound o q N sel k agents = ok agents' ∧
      Crew o p E sh N (fun _ => u32 (k + 1)) agents' ∧
      (p.acceleration = false → p.localOpt.method = .RTR → (∀ c, LawfulRtr (o.opt c)) →
        teamCost p.r p.d E (estimates agents') ≤ teamCost p.r p.d E (estimates agents)) := by
  obtain ⟨c1, e1, h1, x1⟩ := idle_loop (sel := sel) hd hl ho h
  obtain ⟨c2, e2, h2, x2, hu⟩ := send_loop hsel hE h1
  unfold teamRound
  rw [e1, ok_bind, e2, ok_bind, hq]
  have last : ∀ c, Crew o p E sh N (fun i => if i = sel then k else u32 (k + 1)) c →
      ∃ a s a', c[sel]? = some a ∧ Member o p E sh sel k a ∧ a.iterate o true = ok (s, a') ∧
        onAgent (fun a => do let (_, a) ← a.iterate o true; ok a) c sel = ok (c.set sel a') ∧
        Crew o p E sh N (fun _ => u32 (k + 1)) (c.set sel a') := by
    intro c hc
    obtain ⟨a, ha, hm⟩ := hc.get hsel
    simp only [if_true] at hm
    obtain ⟨s, a', e, hm', -, -⟩ := hm.iterate hd hl ho true
    refine ⟨a, s, a', ha, hm, e, onAgent_ok ha ?_, hc.set hm' (fun _ => rfl) ?_⟩
    · simp only [e, ok_bind]
    · intro j _ hj
      rw [if_neg hj]
  by_cases hp : p.acceleration = true
  · obtain ⟨c3, e3, h3⟩ := aux_loop hsel hp h2
    rw [hp, if_pos rfl, e3, ok_bind]
    obtain ⟨a, s, a', -, -, -, e4, h4⟩ := last c3 h3
    exact ⟨_, e4, h4, fun c => absurd c (by simp)⟩
  · rw [if_neg hp, ok_bind]
    obtain ⟨a, s, a', ha, hm, e4, e5, h5⟩ := last c2 h2
    refine ⟨_, e5, h5, fun hp' hm' hlaw => ?_⟩
    rw [estimates_set (List.getElem?_eq_some_iff.1 ha).1]
    have := hm.descent hd hp' hm' hlaw (estimates_at ha) (hu a ha) e4
    rw [x2, x1 hp'] at this ⊢
    exact this

end

end Dpgo.Example
