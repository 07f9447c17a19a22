import Verif.Lemmas.DemoLoop

/-! # Runs of the demo -/

namespace Dpgo.Example

open Res Spec PoseGraph

/-! ### Neighbours -/

theorem neighbors_ne {N n d r : Nat} {D : List (Meas ℝ)} (hN : 2 ≤ N) (hNn : 2 * N ≤ n)
    (hD : Dataset d n D) {a : Nat} (ha : a < N) {g : PoseGraph ℝ}
    (h : TeamInv r d (D.map (relabel (place N (n / N)))) a g) : g.nbrRobots ≠ [] := by
  have hNn' : N ≤ n := by omega
  have h0 : 0 < N := by omega
  obtain ⟨lo, lp, ls⟩ := h.lists
  obtain ⟨⟨log, hi⟩, hid⟩ := Reachable.inv h.reach
  have hper : 2 ≤ n / N := (Nat.le_div_iff_mul_le h0).2 hNn
  -- the edge between the robots `b` and `b + 1`
  have step : ∀ b, b + 1 < N → ∃ m ∈ firstWins D, place N (n / N) m.p1 = ⟨b, n / N - 1⟩ ∧
      place N (n / N) m.p2 = ⟨b + 1, 0⟩ := by
    intro b hb
    have hle := mul_per_le (n := n) (N := N) (a := b + 1 + 1) hb
    have hmul : (b + 1 + 1) * (n / N) = b * (n / N) + n / N + n / N := by ring
    have hmul' : (b + 1) * (n / N) = b * (n / N) + n / N := by ring
    rw [hmul] at hle
    have hx : b * (n / N) + n / N - 1 ∈ List.range (n - 1) := List.mem_range.2 (by omega)
    rw [← hD.chain, List.mem_map] at hx
    obtain ⟨m, hm, e⟩ := hx
    rw [List.mem_filter] at hm
    have e2 : m.p1 + 1 = m.p2 := by simpa using hm.2
    refine ⟨m, hm.1, ?_, ?_⟩
    · refine (place_iff_share h0 hNn' m.p1 b _ (by omega)).2 ⟨by omega, by omega, ?_⟩
      have : share N n b = n / N := by unfold share; rw [if_neg (by omega)]
      omega
    · refine (place_iff_share h0 hNn' m.p2 (b + 1) _ (by omega)).2 ⟨hb, by omega, ?_⟩
      have := share_two h0 hNn hb
      omega
  have use : ∀ m ∈ firstWins D, isShared a (relabel (place N (n / N)) m) = true → g.nbrRobots ≠ [] := by
    intro m hm hs
    have hmem : relabel (place N (n / N)) m ∈ g.sharedLcs := by
      rw [ls, List.mem_filter]
      refine ⟨?_, hs⟩
      rw [firstWins_relabel (fun i j hi hj => place_inj h0 hNn' hi hj) D (fun m hm => ends_below hD hm)]
      exact List.mem_map_of_mem hm
    rw [hi.shared, List.mem_filter] at hmem
    exact List.ne_nil_of_mem ((hi.robotsMem _).2 ⟨_, hmem.1, hmem.2, rfl⟩)
  by_cases hb : a + 1 < N
  · obtain ⟨m, hm, e1, e2⟩ := step a hb
    refine use m hm ?_
    simp [isShared, relabel, e1, e2]
  · obtain ⟨b, rfl⟩ : ∃ b, a = b + 1 := ⟨a - 1, by omega⟩
    obtain ⟨m, hm, e1, e2⟩ := step b ha
    refine use m hm ?_
    simp [isShared, relabel, e1, e2]

/-! ### One iteration -/

/-- The parts of an iteration that ends normally. -/
theorem demoIter_form {o : AgentOracles} {oc : OptOracles} {q : Options} {d N n per iter : Nat}
    {s s' : LoopState} (hd : s.done = false) (e : demoIter o oc q d N n per s iter = ok s') :
    ∃ agents X R c f c' a, teamRound o q N s.selected iter s.agents = ok agents ∧
      assemble q.r d N n per (estimates agents) s.Xopt = ok X ∧ centralGrad oc s.central X = ok (R, c) ∧
      problemF c X = ok (f, c') ∧ agents[s.selected]? = some a ∧
      s'.Xopt = X ∧ s'.central = c' ∧ s'.lines = s.lines ++ [⟨iter, a.id, 2 * f, PArr.norm R⟩] ∧
      ((PArr.norm R < 1 / 10 ∧ s'.done = true ∧ s'.agents = agents ∧ s'.selected = s.selected) ∨
       (¬ PArr.norm R < 1 / 10 ∧ s'.done = false ∧ selectNext q d N n per R a = ok s'.selected ∧
        shareAnchor N agents = ok s'.agents)) := by
  unfold demoIter at e
  rw [if_neg (by simp [hd])] at e
  rw [bind_eq_ok] at e
  obtain ⟨agents, e1, e⟩ := e
  rw [bind_eq_ok] at e
  obtain ⟨X, e2, e⟩ := e
  rw [bind_eq_ok] at e
  obtain ⟨⟨R, c⟩, e3, e⟩ := e
  simp only at e
  rw [bind_eq_ok] at e
  obtain ⟨⟨f, c'⟩, e4, e⟩ := e
  simp only at e
  rw [bind_eq_ok] at e
  obtain ⟨a, e5, e⟩ := e
  have e5' : agents[s.selected]? = some a := by
    unfold at! at e5
    split at e5
    · rename_i x hx
      cases e5
      exact hx
    · cases e5
  by_cases hc : PArr.norm R < 1 / 10
  · rw [if_pos hc] at e
    cases e
    exact ⟨agents, X, R, c, f, c', a, e1, e2, e3, e4, e5', rfl, rfl, rfl, Or.inl ⟨hc, rfl, rfl, rfl⟩⟩
  · rw [if_neg hc] at e
    simp only [bind_eq_ok] at e
    obtain ⟨sel, e6, ag, e7, e⟩ := e
    cases e
    exact ⟨agents, X, R, c, f, c', a, e1, e2, e3, e4, e5', rfl, rfl, rfl, Or.inr ⟨hc, rfl, e6, e7⟩⟩

/-- The trust-region solver never makes the cost worse, and no acceleration is used. -/
def Plain (o : AgentOracles) (q : Options) : Prop :=
  q.acceleration = false ∧ ∀ c, LawfulRtr (o.opt c)

/-- What holds after `k` iterations; `c₀` is the cost of the initial guess. -/
structure LoopInv (o : AgentOracles) (q : Options) (d N n : Nat) (D : List (Meas ℝ)) (c₀ : ℝ) (k : Nat)
    (s : LoopState) : Prop where
  crew : ∃ kk, Crew o (agentParams q d N) (D.map (relabel (place N (n / N)))) (share N n) N (fun _ => kk)
    s.agents ∧ (s.done = false → kk = k)
  sel : s.selected < N
  size : s.Xopt.rows = q.r ∧ s.Xopt.cols = n * (d + 1)
  central : Central q.r d n D s.central
  count : s.lines.length ≤ k ∧ (s.done = false → s.lines.length = k)
  iters : s.lines.map (·.iter) = List.range s.lines.length
  robots : ∀ l ∈ s.lines, l.robot < N
  joins : s.lines ≠ [] → Joins q.r d n (place N (n / N)) (estimates s.agents) s.Xopt
  last : ∀ l, s.lines.getLast? = some l → l.cost = 2 * teamCost q.r d D (fun _ => s.Xopt) ∧
    (s.done = true ↔ l.gradnorm < 1 / 10)
  early : ∀ l ∈ s.lines.dropLast, 1 / 10 ≤ l.gradnorm
  stopped : s.done = true → s.lines ≠ []
  mono : Plain o q →
    (s.lines.map (·.cost)).Pairwise (fun x y => y ≤ x) ∧ (∀ l ∈ s.lines, l.cost ≤ 2 * c₀ ∧
      2 * teamCost q.r d (D.map (relabel (place N (n / N)))) (estimates s.agents) ≤ l.cost) ∧
    teamCost q.r d (D.map (relabel (place N (n / N)))) (estimates s.agents) ≤ c₀

section
variable {o : AgentOracles} {oc : OptOracles} {q : Options} {d N n : Nat} {D : List (Meas ℝ)} {c₀ : ℝ}
  (hN : 0 < N) (hNn : 2 * N ≤ n) (hn : n * (d + 1) < 2 ^ 32) (hD : Dataset d n D) (hrd : d ≤ q.r)
  (hacc : q.acceleration = true → u32 (2 * N) ≠ 0)
include hN hNn hn hD hrd hacc

theorem iter_total {k : Nat} (hk : k + 1 < 2 ^ 32) {s : LoopState} (h : LoopInv o q d N n D c₀ k s) :
    ∃ s', demoIter o oc q d N n (n / N) s k = ok s' ∧ LoopInv o q d N n D c₀ (k + 1) s' := by
  have hNn' : N ≤ n := by omega
  have hd : 0 < d := by rcases hD.dim with rfl | rfl <;> omega
  by_cases hdone : s.done = true
  · refine ⟨s, by unfold demoIter; rw [if_pos hdone], ?_⟩
    obtain ⟨kk, hc, -⟩ := h.crew
    exact { h with
      crew := ⟨kk, hc, fun c => by rw [hdone] at c; cases c⟩
      count := ⟨h.count.1.trans (Nat.le_succ k), fun c => by rw [hdone] at c; cases c⟩ }
  have hdone : s.done = false := by simpa using hdone
  obtain ⟨kk, hcrew, hkk⟩ := h.crew
  have hkk := hkk hdone
  subst hkk
  have hE : ∀ m ∈ D.map (relabel (place N (n / N))), m.r1 < N ∧ m.r2 < N := by
    intro m hm
    obtain ⟨x, -, rfl⟩ := List.mem_map.1 hm
    exact ⟨place_robot_lt hN _, place_robot_lt hN _⟩
  obtain ⟨agents, e1, hcrew', hdesc⟩ := round_total (q := q) (p := agentParams q d N) rfl hd rfl
    (fun c => ⟨hacc c, show (30 : Nat) ≠ 0 by decide⟩) h.sel hE hcrew
  rw [u32_of_lt hk] at hcrew'
  obtain ⟨X, e2, x1, x2, hj⟩ := assemble_ok (r := q.r) hN hNn' hn (X := estimates agents) (fun a ha => by
    obtain ⟨b, hb, hm⟩ := hcrew'.get ha
    have hA := hm.arr
    rw [estimates_at hb]
    exact ⟨hA.2.2.2.1, by rw [hA.2.2.2.2, Nat.mul_comm]; rfl⟩) h.size
  obtain ⟨f, c, e3⟩ := h.central.total X x1 (by rw [x2, Nat.mul_comm])
  obtain ⟨Q, G, -, -, e4, e5⟩ := grad_total oc e3
  have hc := h.central.problemF e3
  have hf := h.central.cost hD.toOneRobot e3
  obtain ⟨a, ha, hm⟩ := hcrew'.get h.sel
  have hcost : teamCost q.r d (D.map (relabel (place N (n / N)))) (estimates agents) =
      teamCost q.r d D (fun _ => X) :=
    teamCost_relabel (fun i j hi hj => place_inj hN hNn' hi hj) (fun m hm => ends_below hD hm) hD.unit hj
  generalize hR : DMat.ofMat (rieGrad oc c Q G X) = R at e4
  have hRs : R.rows = q.r ∧ R.cols = n * (d + 1) := by
    rw [← hR]
    refine ⟨hc.team.r_eq, ?_⟩
    show (c.d + 1) * c.n = _
    rw [hc.team.d_eq, hc.n_eq, Nat.mul_comm]
  have fin : ∀ (agents' : List Agent) (sel : Nat) (b : Bool),
      Crew o (agentParams q d N) (D.map (relabel (place N (n / N)))) (share N n) N (fun _ => kk + 1) agents' →
      estimates agents' = estimates agents → sel < N → (b = true ↔ PArr.norm R < 1 / 10) →
      LoopInv o q d N n D c₀ (kk + 1) ⟨agents', c, X, sel, s.lines ++ [⟨kk, a.id, 2 * f, PArr.norm R⟩], b⟩ := by
    intro agents' sel b hcr hest hsel hb
    have hlen := h.count.2 hdone
    refine ⟨⟨kk + 1, hcr, fun _ => rfl⟩, hsel, ⟨x1, x2⟩, hc, ?_, ?_, ?_, ?_, ?_, ?_, ?_, ?_⟩
    · simp [hlen]
    · simp only [List.map_append, List.map_cons, List.map_nil, List.length_append, List.length_cons,
        List.length_nil, h.iters, Nat.zero_add, List.range_succ, hlen]
    · intro l hl
      rcases List.mem_append.1 hl with hl | hl
      · exact h.robots l hl
      · rw [List.mem_singleton] at hl
        rw [hl, hm.id]
        exact h.sel
    · intro _
      rw [hest]; exact hj
    · intro l hl
      rw [List.getLast?_append] at hl
      simp only [List.getLast?_singleton, Option.some_or, Option.some.injEq] at hl
      rw [← hl]
      exact ⟨by rw [← hf], hb⟩
    · intro l hl
      rw [List.dropLast_concat] at hl
      by_cases hlast : l ∈ s.lines.dropLast
      · exact h.early l hlast
      · have hne : s.lines ≠ [] := List.ne_nil_of_mem hl
        have : s.lines.getLast? = some l := by
          rw [← List.dropLast_append_getLast hne, List.mem_append] at hl
          rcases hl with hl | hl
          · exact absurd hl hlast
          · rw [List.mem_singleton] at hl
            rw [hl, List.getLast?_eq_getLast_of_ne_nil hne]
        have := (h.last l this).2
        rw [hdone] at this
        by_contra c
        exact absurd (this.2 (not_le.1 c)) (by decide)
    · intro _
      simp
    · intro hp
      obtain ⟨m1, m2, m3⟩ := h.mono hp
      have hle := hdesc hp.1 rfl hp.2
      change teamCost q.r d _ _ ≤ teamCost q.r d _ _ at hle
      refine ⟨?_, ?_, ?_⟩
      · rw [List.map_append, List.pairwise_append]
        refine ⟨m1, by simp, ?_⟩
        intro x hx y hy
        obtain ⟨l, hl, rfl⟩ := List.mem_map.1 hx
        simp only [List.map_cons, List.map_nil, List.mem_singleton] at hy
        rw [hy, hf, ← hcost]
        have := (m2 l hl).2
        linarith
      · intro l hl
        rw [hest]
        rcases List.mem_append.1 hl with hl | hl
        · have := m2 l hl
          exact ⟨this.1, by linarith [this.2]⟩
        · rw [List.mem_singleton] at hl
          rw [hl]
          simp only
          rw [hf, ← hcost]
          exact ⟨by linarith, le_rfl⟩
      · rw [hest]; linarith
  unfold demoIter
  rw [if_neg (by simp [hdone])]
  simp only [e1, ok_bind, e2, e4, e5, at!, ha]
  by_cases hg : PArr.norm R < 1 / 10
  · rw [if_pos hg]
    exact ⟨_, rfl, fin agents s.selected true hcrew' rfl h.sel ⟨fun _ => hg, fun _ => rfl⟩⟩
  · rw [if_neg hg]
    obtain ⟨v, ev, hv, -⟩ := norms_total (q := q) (N := N) hn hRs
    obtain ⟨sel, es, hsel⟩ : ∃ sel, selectNext q d N n (n / N) R a = ok sel ∧ sel < N := by
      unfold selectNext
      split
      · exact ⟨_, rfl, by rw [hm.id]; exact h.sel⟩
      · rw [ev, ok_bind]
        refine ⟨_, rfl, ?_⟩
        have := (maxElement_spec (v := v) (by intro c; rw [c] at hv; simp at hv; omega)).1
        omega
    obtain ⟨ag, ea, hcr, hest⟩ := anchor_loop hN hcrew'
    rw [es, ok_bind, ea, ok_bind]
    exact ⟨_, rfl, fin ag sel false hcr hest hsel
      ⟨fun c => (by cases c), fun c => absurd c hg⟩⟩


omit hN hNn hn hrd hacc in
theorem dimension_eq : dimensionOf D = d := by
  obtain ⟨m, hm⟩ := List.exists_mem_of_ne_nil _ hD.nonempty
  cases D with
  | nil => cases hm
  | cons x l =>
    obtain ⟨-, -, h3, h4⟩ := hD.dims x (by simp)
    unfold dimensionOf
    simp only [h3, h4, Nat.mul_one]
    rcases hD.dim with rfl | rfl <;> rfl

omit hacc in
theorem start_total (ho : LawfulLsq o.qr) (junk : Nat → Nat → ℝ) :
    ∃ T X s, chordalInitialization o.svd o.qr D = ok T ∧ X = (DMat.ofMat (o.stiefel d q.r)).mul T.X ∧
      demoStart o q junk (N : Int) n D = ok s ∧
      Joins q.r d n (place N (n / N)) (estimates s.agents) X ∧ s.lines = [] ∧ s.selected = 0 ∧ s.done = false ∧
      LoopInv o q d N n D (teamCost q.r d D (fun _ => X)) 0 s := by
  have hNn' : N ≤ n := by omega
  have hn' : n < 2 ^ 32 := lt_of_le_of_lt (Nat.le_mul_of_pos_right n (by omega)) hn
  have hp : agentParams q (agentParams q d N).d N = agentParams q d N := rfl
  obtain ⟨g₀, g, e1, e2, hc⟩ := central_start (r := q.r) hD.toOneRobot hrd
  obtain ⟨s, e3, hs⟩ := partition_eq hN hNn' hn' (fun m hm => (ends_below hD hm).1)
  obtain ⟨agents, e4, hm⟩ := create_loop (o := o) (p := agentParams q d N) hN hNn' hn' hD hNn hp hrd hs
  obtain ⟨T, X, e5, -, e6, hX, x1, x2⟩ := guess_total (o := o) (p := agentParams q d N) hD (q := q) rfl ho
  obtain ⟨agents', e7, hcr, hb⟩ := give_loop (q := q) rfl hn ⟨x1, x2⟩ hm
  have hj : Joins q.r d n (place N (n / N)) (estimates agents') X := joins_blocks hN hNn' hn ⟨x1, x2⟩ hb
  refine ⟨T, X, ⟨agents', g, ⟨q.r, u32 (u32 n * (d + 1)), junk⟩, 0, [], false⟩, e5, hX, ?_, hj, rfl, rfl, rfl, ?_⟩
  · unfold demoStart
    simp only [dimension_eq hD, e1, e2, e3, ok_bind, Int.toNat_natCast, perRobot_eq hn']
    unfold setupAgents
    have e4' : Res.foldl (createAgent o q d N s) [] (List.range N) = ok agents := e4
    have e6' : liftedGuess o q d D = ok X := e6
    have e7' : Res.foldl (giveShare q d N n (n / N) X) agents (List.range N) = ok agents' := e7
    simp only [e4', e6', e7', ok_bind]
  · refine ⟨⟨0, hcr, fun _ => rfl⟩, hN, ⟨rfl, ?_⟩, hc, ⟨by simp, fun _ => rfl⟩, rfl, fun l hl => (by cases hl),
      fun c => absurd rfl c, fun l hl => (by cases hl), fun l hl => (by cases hl), fun c => (by cases c), ?_⟩
    · show u32 (u32 n * (d + 1)) = _
      rw [u32_of_lt hn', u32_of_lt hn]
    · intro _
      refine ⟨by simp, fun l hl => (by cases hl), ?_⟩
      rw [teamCost_relabel (fun i j hi hj => place_inj hN hNn' hi hj) (fun m hm => ends_below hD hm) hD.unit hj]

theorem loop_total (ho : LawfulLsq o.qr) (hq : q.numIters < 2 ^ 32) (junk : Nat → Nat → ℝ) :
    ∃ T X s, chordalInitialization o.svd o.qr D = ok T ∧ X = (DMat.ofMat (o.stiefel d q.r)).mul T.X ∧
      demoLoop o oc q junk (N : Int) n D = ok s ∧
      LoopInv o q d N n D (teamCost q.r d D (fun _ => X)) q.numIters s := by
  have hn' : n < 2 ^ 32 := lt_of_le_of_lt (Nat.le_mul_of_pos_right n (by omega)) hn
  obtain ⟨T, X, s, e1, e2, e3, -, -, -, -, h⟩ := start_total (o := o) hN hNn hn hD hrd ho junk
  obtain ⟨s', e, h'⟩ := foldl_range_total (n := q.numIters) (b := s) (f := demoIter o oc q d N n (n / N))
    (P := fun k s => LoopInv o q d N n D (teamCost q.r d D (fun _ => X)) k s) h
    (fun k hk c hc => iter_total hN hNn hn hD hrd hacc (by omega) hc)
  refine ⟨T, X, s', e1, e2, ?_, h'⟩
  unfold demoLoop
  simp only [e3, ok_bind, dimension_eq hD, Int.toNat_natCast, perRobot_eq hn']
  exact e

theorem demo_total (ho : LawfulLsq o.qr) (hq : q.numIters < 2 ^ 32) (junk : Nat → Nat → ℝ) :
    ∃ s s', demoLoop o oc q junk (N : Int) n D = ok s ∧ demo o oc q junk (N : Int) n D = ok s' ∧
      s'.lines = s.lines ∧ s'.Xopt = s.Xopt ∧ s'.done = s.done := by
  obtain ⟨T, X, s, -, -, e, h⟩ := loop_total (oc := oc) hN hNn hn hD hrd hacc ho hq junk
  obtain ⟨kk, hcr, -⟩ := h.crew
  obtain ⟨ag, e', -⟩ := foldl_range_total (n := N) (b := s.agents) (f := onAgent fun a => a.reset o)
    (P := fun j c => c.length = N ∧ ∀ i a, c[i]? = some a → j ≤ i → a.params.logData = false)
    ⟨hcr.len, fun i a ha _ => by rw [(hcr.mem i a ha).params]; rfl⟩ (by
      rintro j hj c ⟨h1, h2⟩
      obtain ⟨a, ha⟩ : ∃ a, c[j]? = some a := ⟨_, List.getElem?_eq_getElem (by rw [h1]; exact hj)⟩
      obtain ⟨a', e'⟩ := Agent.reset_ok (o := o) (h2 j a ha le_rfl)
      refine ⟨c.set j a', onAgent_ok ha e', by rw [List.length_set]; exact h1, ?_⟩
      intro i x hx hij
      rw [List.getElem?_set, if_neg (by omega)] at hx
      exact h2 i x hx (by omega))
  refine ⟨s, { s with agents := ag }, e, ?_, rfl, rfl, rfl⟩
  unfold demo
  rw [e]
  simp only [ok_bind, Int.toNat_natCast, e']

end

end Dpgo.Example
