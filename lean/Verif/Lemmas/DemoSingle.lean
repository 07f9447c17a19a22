import Verif.Lemmas.DemoRun

/-! # The demo with fewer than two poses per robot -/

namespace Dpgo.Example

open Res Spec PoseGraph

/-- The agents created so far when robots with a single pose ignore their data. -/
structure Idle (p : AgentParams) (N j : Nat) (agents : List Agent) : Prop where
  len : agents.length = j
  lift : ∀ (i : Nat) (a : Agent), agents[i]? = some a → ∃ Y : DMat ℝ, a.YLift = some Y ∧ Y.rows = p.r ∧ Y.cols = p.d
  wait : ∀ (i : Nat) (a : Agent), agents[i]? = some a → i + 1 < N → a.state = .WAIT_FOR_DATA

section
variable {o : AgentOracles} {p : AgentParams} {N n : Nat} {D : List (Meas ℝ)} (hN : 0 < N)
  (hNn : N ≤ n) (hn : n < 2 ^ 32) (hD : Dataset p.d n D)
include hN hNn hn hD

omit hn in
theorem no_odometry {i : Nat} (hs : share N n i < 2) :
    (D.map (relabel (place N (n / N)))).filter (isOdo i) = [] := by
  rw [List.filter_eq_nil_iff]
  intro m hm hodo
  obtain ⟨x, hx, rfl⟩ := List.mem_map.1 hm
  rw [isOdo_iff] at hodo
  obtain ⟨h1, h2, h3⟩ := hodo
  obtain ⟨-, -, q⟩ := (place_iff_share hN hNn x.p2 (place N (n / N) x.p2).robot
    (place N (n / N) x.p2).frame (ends_below hD hx).1.2).1 rfl
  simp only [relabel] at h1 h2 h3
  rw [h2] at q
  omega

theorem create_idle (hlt : n < 2 * N) {q : Options} (hp : agentParams q p.d N = p) (hrd : p.d ≤ p.r)
    {s : Split ℝ} (hs : Lists N (D.map (relabel (place N (n / N)))) s) :
    ∃ agents, Res.foldl (createAgent o q p.d N s) [] (List.range N) = ok agents ∧ Idle p N N agents := by
  have hasync : p.asynchronous = false := by rw [← hp]; rfl
  have hm : p.initMethod = .Odometry := by rw [← hp]; rfl
  have hl : p.robust.costType = .L2 := by rw [← hp]; rfl
  have hper : n / N = 1 := by rw [Nat.div_eq_iff hN]; omega
  refine foldl_range_total (P := fun j c => Idle p N j c)
    ⟨rfl, fun i a h => by simp at h, fun i a h => by simp at h⟩ fun j hj c hc => ?_
  obtain ⟨a, e1, ha, hl0⟩ := new_total (o := o) hrd j
  obtain ⟨a1, e2, ha1, hY⟩ : ∃ a1, ((j > 0 ∧ ∃ a0, c[0]? = some a0 ∧
      a.setLiftingMatrix (a0.getLiftingMatrix.getD ⟨0, 0, fun _ _ => 0⟩) = ok a1) ∨ (¬ j > 0 ∧ a = a1)) ∧
      Newcomer o p j a1 ∧ ∃ Y, a1.YLift = some Y := by
    by_cases h0 : j > 0
    · obtain ⟨a0, ha0⟩ : ∃ a0, c[0]? = some a0 := ⟨_, List.getElem?_eq_getElem (by rw [hc.len]; exact h0)⟩
      obtain ⟨Y, hY, h1, h2⟩ := hc.lift 0 a0 ha0
      obtain ⟨a1, e2, h3, h4⟩ := ha.lifted h1 h2
      refine ⟨a1, Or.inl ⟨h0, a0, ha0, ?_⟩, h3, h4⟩
      unfold Agent.getLiftingMatrix
      rw [hY]
      exact e2
    · exact ⟨a, Or.inr ⟨h0, rfl⟩, ha, hl0 (by omega)⟩
  obtain ⟨b, a', e3, e4, hlift, hwait⟩ : ∃ b a',
      a1.setMeasurements ((D.map (relabel (place N (n / N)))).filter (isOdo j))
        ((D.map (relabel (place N (n / N)))).filter (isPriv j))
        ((D.map (relabel (place N (n / N)))).filter (isShared j)) = ok b ∧
      b.init o none = ok a' ∧ (∃ Y, a'.YLift = some Y ∧ Y.rows = p.r ∧ Y.cols = p.d) ∧
      (j + 1 < N → a'.state = .WAIT_FOR_DATA) := by
    by_cases h2 : 2 ≤ share N n j
    · obtain ⟨b, a', e3, e4, hrec⟩ := ha1.enlist hN hNn hn hD hrd hasync hm hl hj h2 hY
      obtain ⟨Y, hY'⟩ := hrec.lift
      refine ⟨b, a', e3, e4, ⟨Y, hY', (agReach_inv hrec.reach).lift Y hY'⟩, fun c => ?_⟩
      unfold share at h2
      rw [if_neg (by omega)] at h2
      omega
    · obtain ⟨Y, hY'⟩ := hY
      refine ⟨a1, { a1 with running := false }, ?_, ?_, ⟨Y, hY', (agReach_inv ha1.reach).lift Y hY'⟩,
        fun _ => ha1.state⟩
      · rw [no_odometry hN hNn hD (by omega)]
        unfold Agent.setMeasurements
        rw [ha1.running, ha1.state]
        rfl
      · unfold Agent.init
        rw [if_neg (by rw [ha1.state]; simp)]
        exact if_pos ha1.empty
  refine ⟨c ++ [a'], ?_, ?_, ?_, ?_⟩
  · unfold createAgent
    rw [hp, e1, ok_bind]
    unfold at!
    rw [hs.odo, hs.priv, hs.shared]
    simp only [List.getElem?_map, List.getElem?_range hj, Option.map_some, ok_bind]
    rcases e2 with ⟨h0, a0, ha0, e2⟩ | ⟨h0, rfl⟩
    · rw [if_pos h0, ha0]
      simp only [ok_bind, e2, e3, e4]
    · rw [if_neg h0, e3]
      simp only [ok_bind, e4]
  · rw [List.length_append, hc.len]; rfl
  all_goals
    intro i x hx
    by_cases hi : i < c.length
    · rw [List.getElem?_append_left hi] at hx
      first
        | exact hc.lift i x hx
        | exact hc.wait i x hx
    · rw [List.getElem?_append_right (by omega)] at hx
      have : i - c.length < 1 := by
        have := (List.getElem?_eq_some_iff.1 hx).1
        simpa using this
      have h0 : i - c.length = 0 := by omega
      rw [h0] at hx
      simp only [List.getElem?_cons_zero, Option.some.injEq] at hx
      have := hc.len
      obtain rfl : i = j := by omega
      rw [← hx]
      first
        | exact hlift
        | exact hwait

end

/-- Fewer than two poses per robot: the first robot has no odometry and ignores its data, so giving it
its share of the initial guess fails. -/
theorem demo_single {o : AgentOracles} {oc : OptOracles} {q : Options} {d N n : Nat} {D : List (Meas ℝ)}
    (hN : 2 ≤ N) (hNn : N ≤ n) (hlt : n < 2 * N) (hn : n * (d + 1) < 2 ^ 32) (hD : Dataset d n D)
    (hrd : d ≤ q.r) (ho : LawfulLsq o.qr) (junk : Nat → Nat → ℝ) :
    demo o oc q junk (N : Int) n D = abort := by
  have hN' : 0 < N := by omega
  have hn' : n < 2 ^ 32 := lt_of_le_of_lt (Nat.le_mul_of_pos_right n (by omega)) hn
  have hp : agentParams q (agentParams q d N).d N = agentParams q d N := rfl
  obtain ⟨g₀, g, e1, e2, hc⟩ := central_start (r := q.r) hD.toOneRobot hrd
  obtain ⟨s, e3, hs⟩ := partition_eq hN' hNn hn' (fun m hm => (ends_below hD hm).1)
  obtain ⟨agents, e4, hm⟩ := create_idle (o := o) (p := agentParams q d N) hN' hNn hn' hD hlt hp hrd hs
  obtain ⟨T, X, e5, -, e6, hX, x1, x2⟩ := guess_total (o := o) (p := agentParams q d N) hD (q := q) rfl ho
  obtain ⟨B, eB, -⟩ := localBlock_ok (N := N) (a := 0) hn ⟨x1, x2⟩ hN'
  have e4' : Res.foldl (createAgent o q d N s) [] (List.range N) = ok agents := e4
  have e6' : liftedGuess o q d D = ok X := e6
  obtain ⟨a0, ha0⟩ : ∃ a0, agents[0]? = some a0 := ⟨_, List.getElem?_eq_getElem (by rw [hm.len]; exact hN')⟩
  have hw := hm.wait 0 a0 ha0 (by omega)
  have e7 : giveShare q d N n (n / N) X agents 0 = abort := by
    unfold giveShare
    have eB' : localBlock q.r d (startIdx (n / N) 0) (endIdx N n (n / N) 0) X = ok B := eB
    rw [eB', ok_bind]
    unfold onAgent at!
    rw [ha0]
    simp only [ok_bind]
    unfold Agent.setX
    rw [hw]
    rfl
  have e8 : Res.foldl (giveShare q d N n (n / N) X) agents (List.range N) = abort := by
    obtain ⟨k, rfl⟩ : ∃ k, N = k + 1 := ⟨N - 1, by omega⟩
    rw [List.range_succ_eq_map, foldl_cons, e7]
    rfl
  unfold demo demoLoop demoStart setupAgents
  simp only [dimension_eq hD, e1, e2, e3, ok_bind, Int.toNat_natCast, perRobot_eq hn', e4', e6', e8, abort_bind]

end Dpgo.Example
