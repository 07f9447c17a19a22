import Verif.Lemmas.DemoSetup
import Verif.Lemmas.AgentFrames

/-! # Creation of the agents of the demo -/

namespace Dpgo.Example

open Res Spec PoseGraph

/-- An agent of the demo before it has been given its share of the initial guess. -/
structure Recruit (o : AgentOracles) (p : AgentParams) (E : List (Meas ℝ)) (sh : Nat → Nat) (i : Nat)
    (a : Agent) : Prop where
  reach : AgReach o i p a
  team : TeamInv p.r p.d E i a.graph
  state : a.state ≠ .WAIT_FOR_DATA
  inst : a.instanceNumber = 0
  iter : a.iterationNumber = 0
  lift : ∃ Y, a.YLift = some Y
  noSelf : ¬ hasSelfLoop a.graph
  covered : posesCovered a.graph
  size : a.graph.n = sh i

section
variable {o : AgentOracles} {p : AgentParams}

/-- A fresh agent holding a lifting matrix. -/
structure Newcomer (o : AgentOracles) (p : AgentParams) (i : Nat) (a : Agent) : Prop where
  reach : AgReach o i p a
  state : a.state = .WAIT_FOR_DATA
  inst : a.instanceNumber = 0
  iter : a.iterationNumber = 0
  running : a.running = false
  empty : a.graph.n = 0
  cost : a.cost = RobustCost.new p.robust
  inner : a.innerIter = 0
  updates : a.weightUpdateCount = 0
  resets : a.trajectoryResetCount = 0

theorem new_total (hrd : p.d ≤ p.r) (i : Nat) :
    ∃ a, Agent.new o i p = ok a ∧ Newcomer o p i a ∧ (i = 0 → ∃ Y, a.YLift = some Y) := by
  obtain ⟨X, hX, -⟩ := PArr.make_ok (K := ℝ) (n := 1) hrd
  obtain ⟨a, e⟩ : ∃ a, Agent.new o i p = ok a := by
    unfold Agent.new PoseGraph.new
    rw [hX, ok_bind, decide_eq_true hrd, check_true]
    simp only [ok_bind]
    by_cases hi : i = 0
    · rw [if_pos hi]
      unfold Agent.setLiftingMatrix
      simp only [DMat.ofMat, beq_self_eq_true, check_true, ok_bind]
      exact ⟨_, rfl⟩
    · rw [if_neg hi]
      exact ⟨_, rfl⟩
  refine ⟨a, e, ?_, ?_⟩
  · have hr : AgReach o i p a := ⟨a, [], e, by simp, rfl⟩
    obtain ⟨X, g, YL, -, hg, -, -, -, rfl⟩ := Agent.new_form e
    refine ⟨hr, rfl, rfl, rfl, rfl, ?_, rfl, rfl, rfl, rfl⟩
    unfold PoseGraph.new at hg
    rw [decide_eq_true hrd, check_true, ok_bind] at hg
    cases hg
    rfl
  · intro hi
    obtain ⟨X, g, YL, -, -, -, h, -, rfl⟩ := Agent.new_form e
    exact ⟨_, h hi⟩

theorem Newcomer.lifted {i : Nat} {a : Agent} (h : Newcomer o p i a) {M : DMat ℝ} (h1 : M.rows = p.r)
    (h2 : M.cols = p.d) :
    ∃ a', a.setLiftingMatrix M = ok a' ∧ Newcomer o p i a' ∧ ∃ Y, a'.YLift = some Y := by
  have hi := agReach_inv h.reach
  have e : a.setLiftingMatrix M = ok { a with YLift := some M } := by
    unfold Agent.setLiftingMatrix
    rw [hi.r, hi.d, h1, h2]
    simp
  refine ⟨_, e, ⟨agReach_snoc (op := .setLiftingMatrix M) h.reach trivial e, h.state, h.inst, h.iter,
    h.running, h.empty, h.cost, h.inner, h.updates, h.resets⟩, _, rfl⟩

theorem init_graph {ID r d : Nat} {a a' : Agent} (hg : Reachable ID r d a.graph)
    (hm : a.params.initMethod = .Odometry) (hl : a.params.robust.costType = .L2)
    (e : a.init o none = ok a') : a'.graph = a.graph := by
  rcases Agent.init_form hg e with ⟨-, rfl⟩ | ⟨-, -, rfl⟩ | ⟨-, -, T, S, X, b, c, hT, -, -, hc, he⟩
  · rfl
  · rfl
  obtain ⟨-, g', k, -, -, h⟩ := Agent.chooseTrajectory_form hT
  obtain ⟨_, c, -⟩ | ⟨-, h⟩ := h
  · cases c
  have hb : b.graph = a.graph ∧ b.params = a.params := by
    obtain ⟨g'', k', -, rfl, h'⟩ := Agent.localInitialization_form h
    exact ⟨(h' (by rw [show (Agent.params { a with running := false }) = a.params from rfl, hm]; decide)).1, rfl⟩
  have h1 : c.graph = a.graph := by
    rcases hc with ⟨-, rfl⟩ | ⟨-, I, -, hc⟩
    · exact hb.1
    · obtain ⟨Y, R, X', g1, c1, -, -, -, -, -, -, h, -, rfl⟩ := Agent.initializeInGlobalFrame_form
        (by rw [hb.1]; exact hg) hc
      rcases h with ⟨-, rfl, -⟩ | ⟨h, -⟩
      · rw [Agent.resync_frame]
        exact hb.1
      · exact absurd (by rw [hb.2]; exact hl) h
  rcases he with ⟨-, rfl⟩ | ⟨-, he⟩
  · exact h1
  · obtain ⟨-, rfl⟩ := Agent.startOptimizationLoop_form he
    exact h1

end

section
variable {o : AgentOracles} {p : AgentParams} {N n : Nat} {D : List (Meas ℝ)} (hN : 0 < N)
  (hNn : N ≤ n) (hn : n < 2 ^ 32) (hD : Dataset p.d n D)
include hN hNn hn hD

theorem Newcomer.enlist (hrd : p.d ≤ p.r) (hasync : p.asynchronous = false)
    (hm : p.initMethod = .Odometry) (hl : p.robust.costType = .L2) {i : Nat} (hi : i < N)
    (hs : 2 ≤ share N n i) {a : Agent}
    (h : Newcomer o p i a) (hY : ∃ Y, a.YLift = some Y) :
    ∃ b a', a.setMeasurements ((D.map (relabel (place N (n / N)))).filter (isOdo i))
        ((D.map (relabel (place N (n / N)))).filter (isPriv i))
        ((D.map (relabel (place N (n / N)))).filter (isShared i)) = ok b ∧
      b.init o none = ok a' ∧
      Recruit o p (D.map (relabel (place N (n / N)))) (share N n) i a' := by
  have hinv := agReach_inv h.reach
  have hlen := odo_length hN hNn hD hi
  have hne : (D.map (relabel (place N (n / N)))).filter (isOdo i) ≠ [] := by
    have : (firstWins (D.map (relabel (place N (n / N))))).filter (isOdo i) ≠ [] := by
      intro c
      rw [c] at hlen
      simp only [List.length_nil] at hlen
      omega
    obtain ⟨m, hm⟩ := List.exists_mem_of_ne_nil _ this
    rw [List.mem_filter] at hm
    exact List.ne_nil_of_mem (List.mem_filter.2 ⟨mem_firstWins hm.1, hm.2⟩)
  obtain ⟨b, e1, -, ht, -⟩ := agent_takes hN hNn hn (fun m hm => (ends_below hD hm).1) (ag := a)
    (by rw [hinv.d, hinv.r]; exact hrd) (by rw [hinv.id]; exact hi) h.state h.running
    (fun m hm => by rw [hinv.d]; exact hD.dims m hm) (by rw [hinv.id]; exact hne)
  rw [hinv.id] at e1
  rw [hinv.id, hinv.r, hinv.d] at ht
  have hwf : ∀ m ∈ (D.map (relabel (place N (n / N)))).filter (isOdo i) ++
      (D.map (relabel (place N (n / N)))).filter (isPriv i) ++
      (D.map (relabel (place N (n / N)))).filter (isShared i), MeasWF m := by
    intro m hm
    have : m ∈ D.map (relabel (place N (n / N))) := by
      simp only [List.mem_append, List.mem_filter] at hm
      tauto
    obtain ⟨x, hx, rfl⟩ := List.mem_map.1 this
    exact measWF_relabel hN hNn hn (ends_below hD hx).1
  have rb : AgReach o i p b := agReach_snoc (op := .setMeasurements _ _ _) h.reach hwf e1
  obtain ⟨-, -, hcase⟩ := Agent.setMeasurements_form e1
  obtain ⟨-, g0, g', -, -, eb⟩ := hcase.resolve_left (fun c => hne c.1)
  have hbw : b.state = .WAIT_FOR_DATA := by rw [eb]; exact h.state
  have hbi := agReach_inv rb
  obtain ⟨gn, gc, gv⟩ := graph_complete hN hNn hD hi hs ht
  have hg : Reachable i p.r p.d b.graph := ht.reach
  -- the local initialisation
  obtain ⟨T, c, e2, hT, hdet⟩ | ⟨c, -⟩ := Agent.localInitialization_total (o := o)
    (a := { b with running := false }) gc hg
    (fun c => by simp only [hbi.params, hm] at c; cases c)
    (fun c => by simp only [hbi.params, hm] at c; cases c)
  swap
  · simp only [hbi.params, hm] at c; cases c
  have e3 := Agent.choose_none e2 (hT.2.1.trans ht.d_eq.symm)
  obtain ⟨a', S, e4, -, -, -, -, hst⟩ := Agent.init_chosen hbi hbw e3 hT (by rw [gn]; omega) hdet
    (fun c => by rw [hasync] at c; cases c) (fun _ => by rw [eb]; exact hY)
  have ra : AgReach o i p a' := agReach_snoc (op := .init none) rb (fun P c => by cases c) e4
  have hgr : a'.graph = b.graph := init_graph hg (by rw [hbi.params]; exact hm) (by rw [hbi.params]; exact hl) e4
  obtain ⟨f, -⟩ := Agent.init_frame hg e4
  refine ⟨b, a', e1, e4, ra, by rw [hgr]; exact ht, ?_, ?_, ?_, ?_, by rw [hgr]; exact gc.noSelf,
    by rw [hgr]; exact gv, by rw [hgr]; exact gn⟩
  · rw [hst]; split <;> decide
  · rw [f, eb]; exact h.inst
  · rw [f, eb]; exact h.iter
  · rw [f, eb]; exact hY

/-- The agents created so far. -/
structure Muster (o : AgentOracles) (p : AgentParams) (E : List (Meas ℝ)) (sh : Nat → Nat) (j : Nat)
    (agents : List Agent) : Prop where
  len : agents.length = j
  mem : ∀ i a, agents[i]? = some a → Recruit o p E sh i a

theorem create_loop (hNn2 : 2 * N ≤ n) {q : Options} (hp : agentParams q p.d N = p) (hrd : p.d ≤ p.r) {s : Split ℝ}
    (hs : Lists N (D.map (relabel (place N (n / N)))) s) :
    ∃ agents, Res.foldl (createAgent o q p.d N s) [] (List.range N) = ok agents ∧
      Muster o p (D.map (relabel (place N (n / N)))) (share N n) N agents := by
  have hasync : p.asynchronous = false := by rw [← hp]; rfl
  have hm : p.initMethod = .Odometry := by rw [← hp]; rfl
  have hl : p.robust.costType = .L2 := by rw [← hp]; rfl
  refine foldl_range_total (P := fun j c => Muster o p (D.map (relabel (place N (n / N)))) (share N n) j c)
    ⟨rfl, fun i a h => by simp at h⟩ fun j hj c hc => ?_
  obtain ⟨a, e1, ha, hl0⟩ := new_total (o := o) hrd j
  obtain ⟨a1, e2, ha1, hY⟩ : ∃ a1, ((j > 0 ∧ ∃ a0, c[0]? = some a0 ∧
      a.setLiftingMatrix (a0.getLiftingMatrix.getD ⟨0, 0, fun _ _ => 0⟩) = ok a1) ∨ (¬ j > 0 ∧ a = a1)) ∧
      Newcomer o p j a1 ∧ ∃ Y, a1.YLift = some Y := by
    by_cases h0 : j > 0
    · obtain ⟨a0, ha0⟩ : ∃ a0, c[0]? = some a0 := ⟨_, List.getElem?_eq_getElem (by rw [hc.len]; exact h0)⟩
      have hr0 := hc.mem 0 a0 ha0
      obtain ⟨Y, hY⟩ := hr0.lift
      obtain ⟨h1, h2⟩ := (agReach_inv hr0.reach).lift Y hY
      obtain ⟨a1, e2, h3, h4⟩ := ha.lifted h1 h2
      refine ⟨a1, Or.inl ⟨h0, a0, ha0, ?_⟩, h3, h4⟩
      unfold Agent.getLiftingMatrix
      rw [hY]
      exact e2
    · exact ⟨a, Or.inr ⟨h0, rfl⟩, ha, hl0 (by omega)⟩
  obtain ⟨b, a', e3, e4, hrec⟩ := ha1.enlist hN hNn hn hD hrd hasync hm hl hj (share_two hN hNn2 hj) hY
  refine ⟨c ++ [a'], ?_, ?_, ?_⟩
  · unfold createAgent
    rw [hp, e1, ok_bind]
    unfold at!
    rw [hs.odo, hs.priv, hs.shared]
    simp only [List.getElem?_map, List.getElem?_range hj, Option.map_some, ok_bind]
    rcases e2 with ⟨h0, a0, ha0, e2⟩ | ⟨h0, rfl⟩
    · rw [if_pos h0, ha0]
      simp only [ok_bind, e2, e3, e4]
    · rw [if_neg h0, e3]
      simp only [ok_bind, e4]
  · rw [List.length_append, hc.len]; rfl
  · intro i x hx
    by_cases hi : i < c.length
    · rw [List.getElem?_append_left hi] at hx
      exact hc.mem i x hx
    · rw [List.getElem?_append_right (by omega)] at hx
      have : i - c.length < 1 := by
        have := (List.getElem?_eq_some_iff.1 hx).1
        simpa using this
      have h0 : i - c.length = 0 := by omega
      rw [h0] at hx
      simp only [List.getElem?_cons_zero, Option.some.injEq] at hx
      have := hc.len
      rw [← hx, show i = j by omega]
      exact hrec

omit hN hNn hn in
theorem guess_total {q : Options} (hq : q.r = p.r) (ho : LawfulLsq o.qr) :
    ∃ T X, chordalInitialization o.svd o.qr D = ok T ∧ ArrOk p.d p.d n T ∧
      liftedGuess o q p.d D = ok X ∧ X = (DMat.ofMat (o.stiefel p.d p.r)).mul T.X ∧
      X.rows = p.r ∧ X.cols = n * (p.d + 1) := by
  have hwf : ChordalWF p.d D := ⟨hD.nonempty, fun m hm => ⟨hD.dims m hm, (hD.precise m hm).2,
    (hD.precise m hm).1, by
      have := (hD.wf m hm).2.2.1; omega, by have := (hD.wf m hm).2.2.2; omega⟩⟩
  obtain ⟨T, Rc, e, hA, -⟩ := chordal_spec o.svd ho hD.dim hwf hD.num
  refine ⟨T, _, e, hA, ?_, rfl, rfl, ?_⟩
  · unfold liftedGuess
    rw [e, ok_bind, hA.2.2.2.1, hq]
    simp
  · show T.X.cols = _
    rw [hA.2.2.2.2, Nat.mul_comm]

end

/-- Every agent is given its share of the initial guess. -/
theorem give_loop {o : AgentOracles} {p : AgentParams} {N n : Nat} {E : List (Meas ℝ)} {q : Options}
    (hq : q.r = p.r) (hn : n * (p.d + 1) < 2 ^ 32) {X : DMat ℝ}
    (hX : X.rows = p.r ∧ X.cols = n * (p.d + 1)) {agents : List Agent}
    (h : Muster o p E (share N n) N agents) :
    ∃ agents', Res.foldl (giveShare q p.d N n (n / N) X) agents (List.range N) = ok agents' ∧
      Crew o p E (share N n) N (fun _ => 0) agents' ∧
      ∀ a < N, localBlock p.r p.d (startIdx (n / N) a) (endIdx N n (n / N) a) X = ok (estimates agents' a) := by
  obtain ⟨c, e, h1, h2, h3⟩ := foldl_range_total (f := giveShare q p.d N n (n / N) X) (n := N) (b := agents)
    (P := fun j c => c.length = N ∧ (∀ i a, c[i]? = some a → Recruit o p E (share N n) i a) ∧
      ∀ i a, c[i]? = some a → i < j → a.state = .INITIALIZED ∧
        localBlock p.r p.d (startIdx (n / N) i) (endIdx N n (n / N) i) X = ok a.X.X)
    ⟨h.len, h.mem, fun i a _ c => absurd c (by omega)⟩ (by
      rintro j hj c ⟨h1, h2, h3⟩
      obtain ⟨a, ha⟩ : ∃ a, c[j]? = some a := ⟨_, List.getElem?_eq_getElem (by rw [h1]; exact hj)⟩
      have hm := h2 j a ha
      have hi := agReach_inv hm.reach
      have hA := (hi.data hm.state).2.2
      obtain ⟨B, eB, b1, b2, -⟩ := localBlock_ok hn hX hj
      obtain ⟨a', e, s1, s2, -⟩ := Agent.setX_ok hi hm.state (M := B) b1
        (by rw [hm.size, b2, Nat.mul_comm])
      have hr : AgReach o j p a' := agReach_snoc (op := .setX B) hm.reach trivial e
      obtain ⟨-, -, -, f⟩ := Agent.setX_form e
      have hm' : Recruit o p E (share N n) j a' := by
        rw [Agent.resync_frame] at f
        have hg : a'.graph = a.graph := by rw [f]
        refine ⟨hr, by rw [hg]; exact hm.team, by rw [s1]; decide, ?_, ?_, ?_, by rw [hg]; exact hm.noSelf,
          by rw [hg]; exact hm.covered, by rw [hg]; exact hm.size⟩
        · rw [f]; exact hm.inst
        · rw [f]; exact hm.iter
        · rw [f]; exact hm.lift
      refine ⟨c.set j a', ?_, by rw [List.length_set]; exact h1, ?_, ?_⟩
      · unfold giveShare
        rw [hq, eB, ok_bind]
        exact onAgent_ok ha e
      · intro i x hx
        rw [List.getElem?_set] at hx
        split at hx
        · rename_i c1
          rw [if_pos (by rw [h1]; exact hj)] at hx
          cases hx
          rw [← c1]; exact hm'
        · exact h2 i x hx
      · intro i x hx hij
        rw [List.getElem?_set] at hx
        split at hx
        · rename_i c1
          rw [if_pos (by rw [h1]; exact hj)] at hx
          cases hx
          rw [← c1, s2]
          exact ⟨s1, eB⟩
        · exact h3 i x hx (by omega))
  refine ⟨c, e, ⟨h1, fun i a ha => ?_⟩, fun i hi => ?_⟩
  · have hi : i < N := by
      have := (List.getElem?_eq_some_iff.1 ha).1
      rwa [h1] at this
    have hm := h2 i a ha
    exact ⟨hm.reach, hm.team, (h3 i a ha hi).1, hm.inst, hm.iter, hm.lift, hm.noSelf, hm.covered, hm.size⟩
  · obtain ⟨a, ha⟩ : ∃ a, c[i]? = some a := ⟨_, List.getElem?_eq_getElem (by rw [h1]; exact hi)⟩
    rw [(h3 i a ha hi).2]
    unfold estimates
    rw [ha]; rfl

end Dpgo.Example
