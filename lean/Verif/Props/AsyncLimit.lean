import Verif.Lemmas.AsyncCritical
import Verif.Props.Async

/-! # C83: all gradients vanish together -/

namespace Dpgo.Props

open Res Spec PoseGraph Finset

section
variable {o : AgentOracles} {p : AgentParams} {E : List (Meas ℝ)} {N : Nat} {s : Net}

/-- The cost of a team has exactly one gradient with respect to the poses of each robot, at every point. -/
theorem C83_gradient {r d n i : Nat} {L : ℝ} (hpr : Precise E) (hw : ∀ m ∈ E, 0 ≤ m.weight) (hL0 : 0 ≤ L)
    (hL : SmoothFor r d n E i L) (X : Joint ℝ) :
    ∃ Gr, IsBlockGradient r d n E X i Gr ∧
      ∀ Gr', IsBlockGradient r d n E X i Gr' → ∀ ρ < r, ∀ j < (d + 1) * n, Gr'.v ρ j = Gr.v ρ j := by
  obtain ⟨Gr, hG⟩ := blockGradient_exists (teamCost_nonneg hpr hw) hL0 hL X
  refine ⟨Gr, hG, fun Gr' hG' ρ hρ j hj => ?_⟩
  have h := blockGradient_close (teamCost_nonneg hpr hw) hL0 hL (X := X) (X' := X) (D := fun _ => DMat.zero 0 0)
    (fun j ρ c => by simp [DMat.zero]) hG hG'
  have h0 : costNorm r d E (fun _ => DMat.zero 0 0) = 0 := by
    have := costNorm_sum_le (r := r) (d := d) (teamCost_nonneg hpr hw) 0 fun _ => DMat.zero 0 0
    simp only [Nat.not_lt_zero, if_false, range_zero, sum_empty] at this
    exact le_antisymm this (costNorm_nonneg _)
  rw [h0, mul_zero] at h
  have h1 : (Gr'.sub Gr).normSq = 0 := by
    rw [← DMat.norm_sq, le_antisymm h (DMat.norm_nonneg _)]
    norm_num
  unfold DMat.normSq at h1
  rw [show (Gr'.sub Gr).rows = r from hG'.1, show (Gr'.sub Gr).cols = (d + 1) * n from hG'.2.1] at h1
  have h2 := (sum_eq_zero_iff_of_nonneg fun _ _ => sum_nonneg fun _ _ => mul_self_nonneg _).1 h1 ρ (mem_range.2 hρ)
  have h3 := (sum_eq_zero_iff_of_nonneg fun _ _ => mul_self_nonneg _).1 h2 j (mem_range.2 hj)
  exact sub_eq_zero.1 (mul_self_eq_zero.1 h3)

theorem smallSteps_hyp (hd : 0 < p.d) (hp : p.acceleration = false) (hl : p.robust.costType = .L2)
    (hrgd : p.localOpt.method = .RGD) (hfs : FeasibleSolver o p) {π : PoseProj} (hπ : ∀ c, ActsPosewise π (o.opt c))
    {L α β : ℝ} (hL0 : 0 < L) (hα : 0 ≤ α) (hβ : 0 ≤ β) (ht : ∀ c, Tame α β (o.opt c)) {B : Nat}
    (hγ : 0 < p.localOpt.RGDStepsize)
    (hsm : SmallSteps o p (β * Real.sqrt (2 * L * teamCost p.r p.d E s.estimate) + α ^ 2 * L / 2 + L * α * B))
    (hE : ∀ m ∈ E, m.r1 < N ∧ m.r2 < N) (hpr : Precise E) (hw : ∀ m ∈ E, 0 ≤ m.weight)
    (hL : ∀ i < N, SmoothFor p.r p.d (s.agents i).graph.n E i L) :
    ∃ μ ν, AsyncHyp o p E N (fun i => (s.agents i).graph.n) π L α β μ ν (teamCost p.r p.d E s.estimate) B := by
  rcases hsm with ⟨hpre, hsm⟩ | ⟨hpre, hex, hsm⟩
  · exact ⟨_, _, asyncHyp_plain hd hp hl hrgd hpre hfs hπ hL0 hα hβ ht hγ hsm hE hpr hw hL⟩
  · exact ⟨_, _, asyncHyp_preconditioned hd hp hl hrgd hpre hfs hπ hL0 hα hβ ht hex hγ hsm hE hpr hw hL⟩

/-- **C83.** Under the conditions of C82, if no robot ever pauses for more than `T` events and the projection depends
on the point in a Lipschitz way, then from some time on the projected gradients of all robots are below `ε` at every
moment: the team approaches critical points of the joint problem. -/
theorem C83_critical (hd : 0 < p.d) (hp : p.acceleration = false) (hl : p.robust.costType = .L2)
    (hrgd : p.localOpt.method = .RGD) (hfs : FeasibleSolver o p) {π : PoseProj} (hπ : ∀ c, ActsPosewise π (o.opt c))
    {L α β C ε : ℝ} (hL0 : 0 < L) (hα : 0 ≤ α) (hβ : 0 ≤ β) (ht : ∀ c, Tame α β (o.opt c)) (hC : 0 ≤ C)
    (hst : ∀ c, Steady C (o.opt c)) {B T : Nat} (hε : 0 < ε) (hγ : 0 < p.localOpt.RGDStepsize)
    (hsm : SmallSteps o p (β * Real.sqrt (2 * L * teamCost p.r p.d E s.estimate) + α ^ 2 * L / 2 + L * α * B))
    (hE : ∀ m ∈ E, m.r1 < N ∧ m.r2 < N) (hpr : Precise E) (hw : ∀ m ∈ E, 0 ≤ m.weight)
    (h : ∀ i < N, OnDuty o p E i (s.agents i))
    (hfe : ∀ i < N, Orthonormal p.r p.d (s.agents i).graph.n (s.agents i).X)
    (hL : ∀ i < N, SmoothFor p.r p.d (s.agents i).graph.n E i L) (hm : s.mail = []) (sched : Nat → NetOp)
    (hs : ∀ k, Sound N (Clock.after ((List.range k).map sched)) (sched k))
    (hr : ∀ k, Recent E B ((List.range k).map sched) (sched k)) (ha : Active N T sched) :
    ∃ k₀, ∀ k ≥ k₀, ∃ t, netRun o s ((List.range k).map sched) = ok t ∧ ∀ i < N, ∀ Gr,
      IsBlockGradient p.r p.d (s.agents i).graph.n E t.estimate i Gr →
      Real.sqrt (slopeSq π p.r p.d (s.agents i).graph.n (t.estimate i) Gr) < ε := by
  obtain ⟨μ, ν, hy⟩ := smallSteps_hyp hd hp hl hrgd hfs hπ hL0 hα hβ ht hγ hsm hE hpr hw hL
  obtain ⟨u, hu, -⟩ := hy.short rfl h hm hfe sched hs hr
  obtain ⟨k₀, hk₀⟩ := hy.critical hε hπ hC hst rfl h hm hfe sched hs hr ha
  exact ⟨k₀, fun k hk => ⟨u k, (hu k).run, fun i hi Gr hG => hk₀ k hk i hi (u k) Gr (hu k).run hG⟩⟩

/-- **C83.** Every accumulation point of the estimates is a critical point of the joint problem: its rotations are
orthonormal and the projected gradients of all robots vanish.  Estimates that stay bounded have one. -/
theorem C83_limit (hd : 0 < p.d) (hp : p.acceleration = false) (hl : p.robust.costType = .L2)
    (hrgd : p.localOpt.method = .RGD) (hfs : FeasibleSolver o p) {π : PoseProj} (hπ : ∀ c, ActsPosewise π (o.opt c))
    {L α β C : ℝ} (hL0 : 0 < L) (hα : 0 ≤ α) (hβ : 0 ≤ β) (ht : ∀ c, Tame α β (o.opt c)) (hC : 0 ≤ C)
    (hst : ∀ c, Steady C (o.opt c)) {B T : Nat} (hγ : 0 < p.localOpt.RGDStepsize)
    (hsm : SmallSteps o p (β * Real.sqrt (2 * L * teamCost p.r p.d E s.estimate) + α ^ 2 * L / 2 + L * α * B))
    (hE : ∀ m ∈ E, m.r1 < N ∧ m.r2 < N) (hpr : Precise E) (hw : ∀ m ∈ E, 0 ≤ m.weight)
    (h : ∀ i < N, OnDuty o p E i (s.agents i))
    (hfe : ∀ i < N, Orthonormal p.r p.d (s.agents i).graph.n (s.agents i).X)
    (hL : ∀ i < N, SmoothFor p.r p.d (s.agents i).graph.n E i L) (hm : s.mail = []) (sched : Nat → NetOp)
    (hs : ∀ k, Sound N (Clock.after ((List.range k).map sched)) (sched k))
    (hr : ∀ k, Recent E B ((List.range k).map sched) (sched k)) (ha : Active N T sched) :
    (∀ X : Joint ℝ, (∀ j < N, (X j).rows = p.r ∧ (X j).cols = (p.d + 1) * (s.agents j).graph.n) →
      Accumulates o N s sched X →
      ∀ i < N, Orthonormal p.r p.d (s.agents i).graph.n ⟨p.r, p.d, (s.agents i).graph.n, X i⟩ ∧
        ∀ Gr, IsBlockGradient p.r p.d (s.agents i).graph.n E X i Gr →
          slopeSq π p.r p.d (s.agents i).graph.n (X i) Gr = 0) ∧
    ∀ M : ℝ, (∀ k t, netRun o s ((List.range k).map sched) = ok t → ∀ j < N, PArr.norm (t.estimate j) ≤ M) →
      ∃ X : Joint ℝ, (∀ j < N, (X j).rows = p.r ∧ (X j).cols = (p.d + 1) * (s.agents j).graph.n) ∧
        Accumulates o N s sched X := by
  obtain ⟨μ, ν, hy⟩ := smallSteps_hyp hd hp hl hrgd hfs hπ hL0 hα hβ ht hγ hsm hE hpr hw hL
  refine ⟨fun X hX hacc => hy.limit hπ hC hst rfl h hm hfe sched hs hr ha hX hacc, fun M hM => ?_⟩
  obtain ⟨u, hu, -⟩ := hy.short rfl h hm hfe sched hs hr
  refine accumulates_of_bounded (p := p) (sh := fun i => (s.agents i).graph.n) (fun k => (hu k).run) (fun k j hj => ?_)
    (fun k j hj => hM k (u k) (hu k).run j hj)
  obtain ⟨x, hx⟩ := (hu k).member j hj
  exact ⟨hx.arr.2.2.2.1, hx.arr.2.2.2.2⟩

/-- On the manifold of poses, the projection depends on the point with rate two. -/
theorem C83_manifold {svd : SvdOracle} (hsvd : LawfulSvd svd) (oo : OptOracles) : Steady 2 (onManifold svd oo) :=
  onManifold_steady hsvd oo

end

/-! ### Examples -/

/-- Two robots in turn send their poses and step, the second without knowing of the step of the first. -/
def exRound (k : Nat) : NetOp :=
  match k % 6 with
  | 0 => .send 1 none
  | 1 => .deliver 0 (2 * (k / 6))
  | 2 => .send 0 none
  | 3 => .deliver 1 (2 * (k / 6) + 1)
  | 4 => .iterate 0 true
  | _ => .iterate 1 true

theorem exRound_at (q : Nat) : exRound (6 * q) = .send 1 none ∧ exRound (6 * q + 1) = .deliver 0 (2 * q) ∧
    exRound (6 * q + 2) = .send 0 none ∧ exRound (6 * q + 3) = .deliver 1 (2 * q + 1) ∧
    exRound (6 * q + 4) = .iterate 0 true ∧ exRound (6 * q + 5) = .iterate 1 true := by
  unfold exRound
  refine ⟨?_, ?_, ?_, ?_, ?_, ?_⟩
  · rw [show 6 * q % 6 = 0 by omega]
    rfl
  · rw [show (6 * q + 1) % 6 = 1 by omega, show (6 * q + 1) / 6 = q by omega]
    rfl
  · rw [show (6 * q + 2) % 6 = 2 by omega]
    rfl
  · rw [show (6 * q + 3) % 6 = 3 by omega, show (6 * q + 3) / 6 = q by omega]
    rfl
  · rw [show (6 * q + 4) % 6 = 4 by omega]
    rfl
  · rw [show (6 * q + 5) % 6 = 5 by omega]
    rfl

theorem exRound_active : Active 2 12 exRound := by
  intro i hi k
  obtain ⟨-, -, -, -, h4, h5⟩ := exRound_at (k / 6 + 1)
  interval_cases i
  · exact ⟨_, by omega, by omega, h4⟩
  · exact ⟨_, by omega, by omega, h5⟩

theorem exRound_split (k : Nat) : (List.range (k + 1)).map exRound = (List.range k).map exRound ++ [exRound k] := by
  rw [List.range_succ, List.map_append, List.map_cons, List.map_nil]

theorem exRound_length (q : Nat) : (Clock.after ((List.range (6 * q)).map exRound)).sent.length = 2 * q := by
  induction q with
  | zero => rfl
  | succ q ih =>
    obtain ⟨h0, h1, h2, h3, h4, h5⟩ := exRound_at q
    have hdel : ∀ (c : Clock) (i k : Nat), (c.tick (.deliver i k)).sent = c.sent := by
      intro c i k
      simp only [Clock.tick]
      split <;> rfl
    rw [show 6 * (q + 1) = 6 * q + 5 + 1 by omega, exRound_split, exRound_split, exRound_split, exRound_split,
      exRound_split, exRound_split, h0, h1, h2, h3, h4, h5]
    simp only [Clock.after_snoc]
    show (((_ : Clock).tick (.deliver 1 (2 * q + 1))).sent).length = _
    rw [hdel]
    show (((_ : Clock).tick (.deliver 0 (2 * q))).sent ++ [_]).length = _
    rw [hdel]
    show ((Clock.after ((List.range (6 * q)).map exRound)).sent ++ [_] ++ [_]).length = _
    simp only [List.length_append, List.length_cons, List.length_nil, ih]
    omega

theorem exRound_sound (k : Nat) : Sound 2 (Clock.after ((List.range k).map exRound)) (exRound k) ∧
    Recent exJoined 1 ((List.range k).map exRound) (exRound k) := by
  have hP : ∀ i j, Partners exJoined i j → (i = 0 ∧ j = 1) ∨ (i = 1 ∧ j = 0) := by
    rintro i j ⟨hij, m, hm, h⟩
    fin_cases hm <;> simp [exI] at h <;> omega
  obtain ⟨q, ρ, hρ, rfl⟩ : ∃ q ρ, ρ < 6 ∧ k = 6 * q + ρ := ⟨k / 6, k % 6, by omega, by omega⟩
  obtain ⟨h0, h1, h2, h3, h4, h5⟩ := exRound_at q
  have hlen := exRound_length q
  -- the clock in the course of a round
  generalize hc : Clock.after ((List.range (6 * q)).map exRound) = c at hlen
  have e1 : Clock.after ((List.range (6 * q + 1)).map exRound) = ⟨c.moves, c.sent ++ [(1, none, c.moves 1)], c.seen⟩ := by
    rw [exRound_split, Clock.after_snoc, hc, h0]
    rfl
  have e2 : ∃ f, Clock.after ((List.range (6 * q + 2)).map exRound) = ⟨c.moves, c.sent ++ [(1, none, c.moves 1)], f⟩ ∧
      f 0 1 = some (c.moves 1) := by
    rw [exRound_split, Clock.after_snoc, e1, h1]
    refine ⟨Function.update c.seen 0 (Function.update (c.seen 0) 1 (some (c.moves 1))), ?_, ?_⟩
    · simp only [Clock.tick]
      rw [List.getElem?_append_right hlen.le, hlen, Nat.sub_self]
      rfl
    · simp
  obtain ⟨f, e2, f1⟩ := e2
  have e3 : Clock.after ((List.range (6 * q + 3)).map exRound) =
      ⟨c.moves, c.sent ++ [(1, none, c.moves 1)] ++ [(0, none, c.moves 0)], f⟩ := by
    rw [exRound_split, Clock.after_snoc, e2, h2]
    rfl
  have hl3 : (c.sent ++ [(1, none, c.moves 1)]).length = 2 * q + 1 := by simp [hlen]
  have e4 : ∃ g, Clock.after ((List.range (6 * q + 4)).map exRound) =
      ⟨c.moves, c.sent ++ [(1, none, c.moves 1)] ++ [(0, none, c.moves 0)], g⟩ ∧
      g 0 1 = some (c.moves 1) ∧ g 1 0 = some (c.moves 0) := by
    rw [exRound_split, Clock.after_snoc, e3, h3]
    refine ⟨Function.update f 1 (Function.update (f 1) 0 (some (c.moves 0))), ?_, ?_, ?_⟩
    · simp only [Clock.tick]
      rw [List.getElem?_append_right hl3.le, hl3, Nat.sub_self]
      rfl
    · simp [f1]
    · simp
  obtain ⟨g, e4, g1, g2⟩ := e4
  have e5 : Clock.after ((List.range (6 * q + 5)).map exRound) =
      ⟨Function.update c.moves 0 (c.moves 0 + 1), c.sent ++ [(1, none, c.moves 1)] ++ [(0, none, c.moves 0)], g⟩ := by
    rw [exRound_split, Clock.after_snoc, e4, h4]
    rfl
  interval_cases ρ
  · rw [Nat.add_zero, h0]
    exact ⟨⟨by omega, by simp⟩, trivial⟩
  · rw [e1, h1]
    refine ⟨⟨by omega, (1, none, c.moves 1), ?_, by simp⟩, trivial⟩
    rw [List.getElem?_append_right hlen.le, hlen, Nat.sub_self]
    rfl
  · rw [h2]
    exact ⟨⟨by omega, by simp⟩, trivial⟩
  · rw [e3, h3]
    refine ⟨⟨by omega, (0, none, c.moves 0), ?_, by simp⟩, trivial⟩
    rw [List.getElem?_append_right hl3.le, hl3, Nat.sub_self]
    rfl
  · rw [h4]
    refine ⟨show 0 < 2 by omega, fun j hj => ?_⟩
    obtain ⟨-, rfl⟩ | ⟨h, -⟩ := hP _ _ hj
    · rw [e4]
      exact ⟨_, g1, Nat.le_add_right _ _⟩
    · cases h
  · rw [h5]
    refine ⟨show 1 < 2 by omega, fun j hj => ?_⟩
    obtain ⟨h, -⟩ | ⟨-, rfl⟩ := hP _ _ hj
    · cases h
    · rw [e5]
      refine ⟨_, g2, ?_⟩
      rw [exRound_split, optimisers_snoc, h4]
      simp

/-- Two robots on duty at distance `y`, with everything that C83 asks of them. -/
theorem exRound_team (b : Bool) (y : ℝ) (hy : y ^ 2 / 2 ≤ 9 / 2) : ∃ (svd : SvdOracle) (L : ℝ) (s : Net), 0 < L ∧
    FeasibleSolver (exGliding svd) { exParams with localOpt := exGlide b L } ∧
    (∀ c, ActsPosewise tangent ((exGliding svd).opt c)) ∧ (∀ c, Tame 2 (1 / 2) ((exGliding svd).opt c)) ∧
    (∀ c, Steady 2 ((exGliding svd).opt c)) ∧ 0 < exShort L ∧
    SmallSteps (exGliding svd) { exParams with localOpt := exGlide b L }
      (1 / 2 * Real.sqrt (2 * L * teamCost 3 2 exJoined s.estimate) + 2 ^ 2 * L / 2 + L * 2 * (1 : Nat)) ∧
    (∀ m ∈ exJoined, m.r1 < 2 ∧ m.r2 < 2) ∧ Precise exJoined ∧ (∀ m ∈ exJoined, 0 ≤ m.weight) ∧
    (∀ i < 2, OnDuty (exGliding svd) { exParams with localOpt := exGlide b L } exJoined i (s.agents i)) ∧
    (∀ i < 2, Orthonormal 3 2 (s.agents i).graph.n (s.agents i).X) ∧
    (∀ i < 2, SmoothFor 3 2 (s.agents i).graph.n exJoined i L) ∧ s.mail = [] ∧
    teamCost 3 2 exJoined s.estimate = y ^ 2 / 2 := by
  obtain ⟨svd, hsvd⟩ := exists_lawfulSvd
  obtain ⟨L, hL0, hsm⟩ : ∃ L, 0 < L ∧ ∀ i, SmoothFor 3 2 2 exJoined i L := by
    refine C80_smooth 3 2 exJoined (fun _ => 2) fun i m hm x hx => ?_
    have h : x = m.p1 ∨ x = m.p2 := by
      unfold ownIndices at hx
      rcases List.mem_append.1 hx with h | h <;> split at h <;> simp_all
    have h1 : m.p1 < 2 ∧ m.p2 < 2 := by
      fin_cases hm <;> simp [exI]
    show x < 2
    omega
  obtain ⟨s, hs, hm, x0, x1, hn⟩ := exJoined_team_with (exGliding svd) (exGlide b L) 0 y
  have hcost : teamCost 3 2 exJoined s.estimate = y ^ 2 / 2 := by
    rw [exJoined_cost _ 0 y x0 x1]
    ring
  have hden : 0 < 1 / 2 * Real.sqrt (2 * L * (9 / 2)) + 2 ^ 2 * L / 2 + L * 2 * (1 : Nat) := by positivity
  have hγ : 0 < exShort L := by
    unfold exShort
    positivity
  have hsmall : exShort L * (1 / 2 * Real.sqrt (2 * L * teamCost 3 2 exJoined s.estimate) + 2 ^ 2 * L / 2 +
      L * 2 * (1 : Nat)) ≤ 1 / 20 := by
    rw [hcost]
    have h1 : Real.sqrt (2 * L * (y ^ 2 / 2)) ≤ Real.sqrt (2 * L * (9 / 2)) :=
      Real.sqrt_le_sqrt (mul_le_mul_of_nonneg_left hy (by linarith))
    have h2 : exShort L * (1 / 2 * Real.sqrt (2 * L * (9 / 2)) + 2 ^ 2 * L / 2 + L * 2 * (1 : Nat)) = 1 / 20 := by
      unfold exShort
      rw [div_mul_cancel₀ _ hden.ne']
    rw [← h2]
    exact mul_le_mul_of_nonneg_left (by linarith) hγ.le
  obtain ⟨ht, hπ, hre⟩ := C82_manifold hsvd (inverting exOpt)
  refine ⟨svd, L, s, hL0, ⟨fun h => absurd h (by rintro (h | h) <;> cases h), fun _ _ => hre⟩, fun _ => hπ, fun _ => ht,
    fun _ => C83_manifold hsvd _, hγ, ?_, ?_, ?_, ?_, hs, ?_, fun i hi => by rw [hn i hi]; exact hsm i, hm, hcost⟩
  · cases b with
    | false => exact Or.inl ⟨rfl, hsmall.trans (by norm_num)⟩
    | true => exact Or.inr ⟨rfl, fun _ => inverting_exact exOpt, hsmall⟩
  · intro m hm
    fin_cases hm <;> simp [exI]
  · intro m hm
    fin_cases hm <;> simp [exI]
  · intro m hm
    fin_cases hm <;> simp [exI]
  · have hrot : ∀ (x : ℝ) (n : Nat), n = 2 → Orthonormal 3 2 n ⟨3, 2, n, exAt x⟩ := by
      rintro x n rfl i hi
      have : rotM 3 2 ⟨3, 2, 2, exAt x⟩ i = Matrix.of fun (a : Fin 3) (c : Fin 2) => if a.1 = c.1 then 1 else 0 := by
        ext a c
        interval_cases i <;> fin_cases a <;> fin_cases c <;> simp [rotM, exAt]
      rw [this]
      ext a c
      fin_cases a <;> fin_cases c <;> simp [Matrix.mul_apply, Fin.sum_univ_three]
    intro i hi
    have : ∃ x, (s.agents i).X.X = exAt x := by
      interval_cases i
      · exact ⟨_, x0⟩
      · exact ⟨_, x1⟩
    obtain ⟨x, hx⟩ := this
    have := hrot x _ (hn i hi)
    rw [← hx] at this
    exact this

/-- The hypotheses of `C83_critical` hold, with and without preconditioner, for two robots that start at a distance,
so that there is something to gain. -/
example (b : Bool) : ∃ (svd : SvdOracle) (s : Net), teamCost 3 2 exJoined s.estimate = 9 / 2 ∧
    ∀ ε > 0, ∃ k₀, ∀ k ≥ k₀, ∃ t, netRun (exGliding svd) s ((List.range k).map exRound) = ok t ∧ ∀ i < 2, ∀ Gr,
      IsBlockGradient 3 2 (s.agents i).graph.n exJoined t.estimate i Gr →
      Real.sqrt (slopeSq tangent 3 2 (s.agents i).graph.n (t.estimate i) Gr) < ε := by
  obtain ⟨svd, L, s, hL0, hfs, hπ, ht, hst, hγ, hsm, hE, hpr, hw, h, hfe, hL, hm, hc⟩ := exRound_team b 3 (by norm_num)
  refine ⟨svd, s, by rw [hc]; norm_num, fun ε hε => ?_⟩
  exact C83_critical (p := { exParams with localOpt := exGlide b L }) (B := 1) (show 0 < 2 by decide) rfl rfl rfl hfs hπ
    hL0 (by norm_num) (by norm_num) ht (by norm_num) hst hε hγ hsm hE hpr hw h hfe hL hm exRound
    (fun k => (exRound_sound k).1) (fun k => (exRound_sound k).2) exRound_active

/-- The hypotheses of `C83_limit`, including a bound on the estimates, hold for two robots that start together and
never move. -/
example (b : Bool) : ∃ (svd : SvdOracle) (s : Net) (X : Joint ℝ), Accumulates (exGliding svd) 2 s exRound X ∧
    ∀ i < 2, ∀ Gr, IsBlockGradient 3 2 (s.agents i).graph.n exJoined X i Gr →
      slopeSq tangent 3 2 (s.agents i).graph.n (X i) Gr = 0 := by
  obtain ⟨svd, L, s, hL0, hfs, hπ, ht, hst, hγ, hsm, hE, hpr, hw, h, hfe, hL, hm, hc⟩ := exRound_team b 0 (by norm_num)
  obtain ⟨h1, h2⟩ := C83_limit (p := { exParams with localOpt := exGlide b L }) (B := 1) (show 0 < 2 by decide) rfl rfl rfl
    hfs hπ hL0 (by norm_num) (by norm_num) ht (by norm_num) hst hγ hsm hE hpr hw h hfe hL hm exRound
    (fun k => (exRound_sound k).1) (fun k => (exRound_sound k).2) exRound_active
  obtain ⟨μ, ν, hy⟩ := smallSteps_hyp (p := { exParams with localOpt := exGlide b L }) (B := 1) (s := s)
    (show 0 < 2 by decide) rfl rfl rfl hfs hπ hL0 (by norm_num) (by norm_num) ht hγ hsm hE hpr hw hL
  have always : ∀ k, Always (Sound 2) ((List.range k).map exRound) ∧
      Throughout (Recent exJoined 1) ((List.range k).map exRound) := by
    intro k
    induction k with
    | zero => exact ⟨Always.nil _, Throughout.nil _⟩
    | succ k ih =>
      rw [exRound_split]
      exact ⟨Always.snoc ih.1 (exRound_sound k).1, Throughout.snoc ih.2 (exRound_sound k).2⟩
  obtain ⟨u, hu, -⟩ := hy.short rfl h hm hfe exRound (fun k => (exRound_sound k).1) fun k => (exRound_sound k).2
  obtain ⟨X, hX, hacc⟩ := h2 (PArr.norm (s.estimate 0) + PArr.norm (s.estimate 1)) fun k t e j hj => by
    have : t = u k := by
      have := (hu k).run
      rw [e] at this
      cases this
      rfl
    subst this
    have hz := hy.rest rfl (hc.trans (by norm_num)) h hm hfe (always k).1 (always k).2 e hj
    have hfit : ∀ k, DMat.Fits 3 (3 * (s.agents j).graph.n) ((u k).estimate j) := by
      intro k
      obtain ⟨x, hx⟩ := (hu k).member j hj
      exact ⟨hx.arr.2.2.2.1, hx.arr.2.2.2.2⟩
    have h0 : u 0 = s := by
      have := (hu 0).run
      cases this
      rfl
    have hs0 := hfit 0
    rw [h0] at hs0
    have h3 := DMat.norm_add_le (A := ((u k).estimate j).sub (s.estimate j)) (B := s.estimate j)
      (r := 3) (c := 3 * (s.agents j).graph.n) ⟨(hfit k).1, (hfit k).2⟩ hs0
    rw [hz, zero_add] at h3
    have h4 : PArr.norm ((u k).estimate j) = PArr.norm ((((u k).estimate j).sub (s.estimate j)).add (s.estimate j)) := by
      refine DMat.norm_congr (hfit k) ⟨(hfit k).1, (hfit k).2⟩ fun ρ _ c _ => ?_
      simp [DMat.sub, DMat.add]
    rw [h4]
    refine h3.trans ?_
    have n0 := DMat.norm_nonneg (s.estimate 0)
    have n1 := DMat.norm_nonneg (s.estimate 1)
    interval_cases j <;> linarith
  exact ⟨svd, s, X, hacc, fun i hi => (h1 X hX hacc i hi).2⟩

end Dpgo.Props
