import Verif.Spec.Rest
import Verif.Lemmas.AsyncStep
import Verif.Lemmas.AgentDeliver
import Verif.Lemmas.Convergence

/-! # Converged robots do not move -/

namespace Dpgo

open Res Spec PoseGraph Finset

section
variable {o : AgentOracles} {p : AgentParams} {E : List (Meas ℝ)} {sh : Nat → Nat} {i k : Nat} {a a' : Agent}

/-- With the current poses of its neighbours, the robot stays where it is. -/
theorem Member.rests (hd : 0 < p.d) (hp : p.acceleration = false) (hl : p.robust.costType = .L2)
    (hm : p.localOpt.method = .RTR) {X : Joint ℝ} (h : Member o p E sh i k a) (hX : X i = a.X.X)
    (hup : upToDate p.r p.d X a.graph a.neighborPoses) (hs : Settled o p E X i (sh i)) {s : Bool}
    (e : a.iterate o true = ok (s, a')) : a'.X.X = a.X.X := by
  obtain ⟨Q, G, g, g', c, hG, hr, hd', hn, ho, -⟩ := h.solve hd hp hl hX hup e
  unfold optimizeWith at ho
  rw [hm] at ho
  simp only [ok.injEq, Prod.mk.injEq] at ho
  rw [← ho.1]
  have key : ∀ r' d' n', r' = p.r → d' = p.d → n' = sh i →
      PArr.norm (DMat.ofMat ((o.opt c).proj r' d' n' (a.X.X.toMat _ _) ((eucGrad Q G a.X.X).toMat _ _))) <
        p.localOpt.gradnormTol := by
    rintro _ _ _ rfl rfl rfl
    rw [← hX]
    exact hs c _ (by rw [hX]; exact hG)
  exact if_pos (key _ _ _ hr hd' hn)

/-- Without the poses of all its neighbours, the robot stays where it is as well. -/
theorem Member.rests_anyway (hd : 0 < p.d) (hp : p.acceleration = false) (hl : p.robust.costType = .L2)
    (hm : p.localOpt.method = .RTR) {X : Joint ℝ} (h : Member o p E sh i k a) (hX : X i = a.X.X)
    (hst : TrueStore p.r p.d X a) (hs : Settled o p E X i (sh i)) {s : Bool}
    (e : a.iterate o true = ok (s, a')) : a'.X = a.X := by
  by_cases hup : upToDate p.r p.d X a.graph a.neighborPoses
  · have hx := h.rests hd hp hl hm hX hup hs e
    have h1 := h.arr
    obtain ⟨s', a'', e', h2', -⟩ := h.iterate hd hl (fun c => by rw [hp] at c; cases c) true
    rw [e] at e'
    cases e'
    have h2 := h2'.arr
    obtain ⟨r1, d1, n1, -⟩ := h1
    obtain ⟨r2, d2, n2, -⟩ := h2
    generalize a'.X = B at *
    generalize a.X = A at *
    cases A
    cases B
    simp only at *
    subst_vars
    rfl
  · have : ∃ q ∈ a.graph.nbrShared, ∀ P, (q, P) ∉ a.neighborPoses := by
      by_contra hc
      push Not at hc
      refine hup fun q hq => ?_
      obtain ⟨P, hP⟩ := hc q hq
      cases hf : OMap.find? ltPoseID q a.neighborPoses with
      | none => exact absurd (List.mem_map_of_mem (f := Prod.fst) hP) ((OMap.find?_eq_none_iff strictTotal_ltPoseID _ _).1 hf)
      | some P' => exact ⟨P', rfl, hst q P' hf⟩
    obtain ⟨q, hq, hn⟩ := this
    have hr : Required i a q := ((Props.C05_public_ids i p.r p.d _ h.team.reach).2.1 q).1 hq
    refine (Props.iterate_missing hd h.reach h.state (fun _ => ⟨q, hr, ?_, hn⟩) (by simp [hp]) e).2.1
    obtain ⟨⟨log, hi⟩, -⟩ := Reachable.inv h.team.reach
    refine h.team.active _ ((hi.robotsMem _).2 ?_)
    obtain ⟨m, h1, h2, h3⟩ := (hi.nbrMem _).1 hq
    exact ⟨m, h1, h2, by rw [h3]⟩

end

section
variable {o : AgentOracles} {p : AgentParams} {E : List (Meas ℝ)} {N : Nat} {s t : Net} {ops : List NetOp}

/-- Nothing moves, and what is stored remains true. -/
theorem NetInv.rest (hd : 0 < p.d) (hp : p.acceleration = false) (hl : p.robust.costType = .L2)
    (hm : p.localOpt.method = .RTR) (h : ∀ i < N, OnDuty o p E i (s.agents i)) (hmail : s.mail = [])
    (hst : ∀ i < N, TrueStore p.r p.d s.estimate (s.agents i))
    (hset : ∀ i < N, Settled o p E s.estimate i (s.agents i).graph.n) (hs : Always (Sound N) ops) :
    ∀ l t, l <+: ops → netRun o s l = ok t → (∀ j, (t.agents j).X = (s.agents j).X) ∧
      ∀ i < N, TrueStore p.r p.d s.estimate (t.agents i) := by
  have ha : p.acceleration = true → AccelOk p := fun c => by rw [hp] at c; cases c
  induction ops using List.reverseRecOn with
  | nil =>
    intro l t hl' e
    rw [List.prefix_nil] at hl'
    subst hl'
    cases e
    exact ⟨fun _ => rfl, hst⟩
  | append_singleton ops op ih =>
    obtain ⟨h1, h2⟩ := hs.init
    have ih := ih h1
    intro l t' hl' e
    rcases prefix_snoc hl' with rfl | hl'
    swap
    · exact ih l t' hl' e
    obtain ⟨t, ht⟩ := NetInv.all hd hl ha h hmail h1
    obtain ⟨hX, hT⟩ := ih ops t List.prefix_rfl ht.run
    rw [netRun_snoc, ht.run] at e
    obtain ⟨u, h0, e⟩ := e
    cases h0
    cases op with
    | send j dst =>
      obtain ⟨hj, hdst⟩ := h2
      obtain ⟨k, hk⟩ := ht.member j hj
      obtain ⟨dict, eo, -⟩ := hk.outgoing hdst
      unfold netStep at e
      simp only [eo, ok_bind] at e
      cases e
      refine ⟨fun i => ?_, fun i hi => ?_⟩
      · show (Function.update t.agents j (t.agents j).getStatus.2 i).X = _
        by_cases c : i = j
        · subst c
          rw [Function.update_self]
          exact hX i
        · rw [Function.update_of_ne c]
          exact hX i
      · show TrueStore p.r p.d s.estimate (Function.update t.agents j (t.agents j).getStatus.2 i)
        by_cases c : i = j
        · subst c
          rw [Function.update_self]
          exact hT i hi
        · rw [Function.update_of_ne c]
          exact hT i hi
    | deliver i n =>
      obtain ⟨hi, ⟨j, dst, v⟩, hc, hji⟩ := h2
      have hn : n < t.mail.length := by
        rw [ht.len]; exact (List.getElem?_eq_some_iff.1 hc).1
      have hx : t.mail[n]? = some t.mail[n] := List.getElem?_eq_getElem hn
      obtain ⟨B, ⟨b, u, hb, hu, -, rfl⟩, hv⟩ := ht.mail n _ j dst v hx hc
      obtain ⟨k, hk⟩ := ht.member i hi
      obtain ⟨a', ea, -, hX', -⟩ := hk.deliver hv hji
      unfold netStep at e
      simp only [hx, ea, ok_bind] at e
      cases e
      refine ⟨fun i' => ?_, fun i' hi' => ?_⟩
      · show (Function.update t.agents i a' i').X = _
        by_cases c : i' = i
        · subst c
          rw [Function.update_self, hX']
          exact hX i'
        · rw [Function.update_of_ne c]
          exact hX i'
      · show TrueStore p.r p.d s.estimate (Function.update t.agents i a' i')
        by_cases c : i' = i
        swap
        · rw [Function.update_of_ne c]
          exact hT i' hi'
        subst c
        rw [Function.update_self]
        obtain ⟨-, ⟨-, rfl⟩ | ⟨-, b', hb', he⟩⟩ := Agent.updateNeighborPoses_form ea
        · exact hT i' hi'
        have hb'' : b' = (t.agents i').setNeighborStatus t.mail[n].status := by
          rcases Agent.tryInitialize_form hb' with ⟨-, rfl⟩ | ⟨-, -, rfl⟩ | ⟨c, -⟩
          · rfl
          · rfl
          · have : (t.agents i').state = .WAIT_FOR_INITIALIZATION := c
            rw [hk.state] at this
            cases this
        subst hb''
        rcases he with ⟨-, rfl⟩ | ⟨-, -, rfl⟩
        · exact hT i' hi'
        intro q P hq
        have hq : OMap.find? ltPoseID q (Agent.stored (t.agents i').graph (t.agents i').neighborPoses
          t.mail[n].dict) = some P := hq
        rw [stored_find q P hv.sorted] at hq
        rcases hq with ⟨-, hq⟩ | ⟨-, hq⟩
        · intro ρ c hρ hc'
          rw [copies_value (hv.copies _ hq) hρ hc', hv.robot _ hq, (ih b u hb hu).1 j]
          rfl
        · exact hT i' hi' q P hq
    | iterate i doOpt =>
      obtain ⟨k, hk⟩ := ht.member i h2
      obtain ⟨b, a', ea, -, hnp, hX'⟩ := hk.iterate hd hl ha doOpt
      unfold netStep at e
      simp only [ea, ok_bind] at e
      cases e
      have hest : t.estimate = s.estimate := by
        funext j
        unfold Net.estimate
        rw [hX j]
      have hx : a'.X = (t.agents i).X := by
        cases doOpt with
        | false => exact hX' hp rfl
        | true =>
          refine hk.rests_anyway hd hp hl hm (X := s.estimate) ?_ (hT i h2) (hset i h2) ea
          unfold Net.estimate
          rw [hX i]
      refine ⟨fun i' => ?_, fun i' hi' => ?_⟩
      · show (Function.update t.agents i a' i').X = _
        by_cases c : i' = i
        · subst c
          rw [Function.update_self, hx]
          exact hX i'
        · rw [Function.update_of_ne c]
          exact hX i'
      · show TrueStore p.r p.d s.estimate (Function.update t.agents i a' i')
        by_cases c : i' = i
        · subst c
          rw [Function.update_self]
          unfold TrueStore
          rw [hnp]
          exact hT i' hi'
        · rw [Function.update_of_ne c]
          exact hT i' hi'

end

/-! ### Fresh agents -/

theorem resync_store (a : Agent) : a.resync.neighborPoses = a.neighborPoses := by
  rw [Agent.resync_frame]

/-- Initialising stores no poses. -/
theorem init_store {o : AgentOracles} {ID r d : Nat} {a a' : Agent} {TI : Option (PArr ℝ)}
    (hg : Reachable ID r d a.graph) (h : a.neighborPoses = []) (e : a.init o TI = ok a') : a'.neighborPoses = [] := by
  rcases Agent.init_form hg e with ⟨-, rfl⟩ | ⟨-, -, rfl⟩ | ⟨-, -, T', S, X, b, c, hT, -, -, hc, he⟩
  · exact h
  · exact h
  obtain ⟨-, g', k, hg1, rfl, -⟩ := Agent.chooseTrajectory_form hT
  have hg2 : Reachable ID r d g' := (hg1.mono Agent.weighting_quiet).reach quiet_wf hg
  have hc' : c.neighborPoses = [] := by
    rcases hc with ⟨-, rfl⟩ | ⟨-, I, -, hc⟩
    · exact h
    · obtain ⟨_, _, _, _, _, -, -, -, -, -, -, -, -, rfl⟩ := Agent.initializeInGlobalFrame_form (by exact hg2) hc
      rw [resync_store]
  rcases he with ⟨-, rfl⟩ | ⟨-, he⟩
  · exact hc'
  · obtain ⟨-, rfl⟩ := Agent.startOptimizationLoop_form he
    exact hc'

/-- An agent that has been set up and given an estimate has stored nothing about others. -/
theorem fresh_store {o : AgentOracles} {p : AgentParams} {i : Nat} {a₀ a₁ a₂ a₃ a : Agent} {Y M : DMat ℝ}
    {T : PArr ℝ} {l₁ l₂ l₃ : List (Meas ℝ)} (hwf : ∀ m ∈ l₁ ++ l₂ ++ l₃, MeasWF m)
    (e0 : Agent.new o i p = ok a₀) (e1 : a₀.setLiftingMatrix Y = ok a₁)
    (e2 : a₁.setMeasurements l₁ l₂ l₃ = ok a₂) (e3 : a₂.init o (some T) = ok a₃) (e4 : a₃.setX M = ok a) :
    a.neighborPoses = [] := by
  have r0 : AgReach o i p a₀ := ⟨a₀, [], e0, by simp, rfl⟩
  have r1 : AgReach o i p a₁ := agReach_snoc (op := .setLiftingMatrix Y) r0 trivial e1
  have r2 : AgReach o i p a₂ := agReach_snoc (op := .setMeasurements _ _ _) r1 hwf e2
  have h0 : a₀.neighborPoses = [] := by
    obtain ⟨_, _, _, -, -, -, -, -, rfl⟩ := Agent.new_form e0
    rfl
  have h1 : a₁.neighborPoses = [] := by
    obtain ⟨-, -, rfl⟩ := Agent.setLiftingMatrix_form e1
    exact h0
  have h2 : a₂.neighborPoses = [] := by
    obtain ⟨-, -, ⟨-, rfl⟩ | ⟨-, _, _, -, -, rfl⟩⟩ := Agent.setMeasurements_form e2 <;> exact h1
  have h3 := init_store (agReach_inv r2).reach h2 e3
  obtain ⟨-, -, -, rfl⟩ := Agent.setX_form e4
  rw [resync_store]
  exact h3

theorem TrueStore.fresh {r d : Nat} {X : Joint ℝ} {a : Agent} (h : a.neighborPoses = []) : TrueStore r d X a := by
  intro q P hq
  rw [h] at hq
  cases hq

end Dpgo
