import Verif.Lemmas.ScheduleStale
import Verif.Lemmas.AgentExample

/-! # C79: teams of agents under arbitrary schedules -/

namespace Dpgo.Props

open Res Spec PoseGraph

section
variable {o : AgentOracles} {p : AgentParams} {E : List (Meas ℝ)} {N : Nat} {s : Net}

/-- Agents that are constructed, given the lifting matrix and their edges, initialised with a trajectory and
given an estimate are ready; the number of poses is one more than the largest pose index in the edges. -/
theorem C79_start {i : Nat} (hrd : p.d ≤ p.r) (hasync : p.asynchronous = false) (hl : p.robust.costType = .L2)
    (hE : Equips p.d E i) {Y : DMat ℝ} (h1 : Y.rows = p.r) (h2 : Y.cols = p.d) :
    ∃ n, (∀ m ∈ E, ∀ x ∈ ownIndices i m, x < n) ∧ (∃ m ∈ E, ∃ x ∈ ownIndices i m, n = x + 1) ∧
      ∀ (T : PArr ℝ) (M : DMat ℝ), ArrOk p.d p.d n T → (rotM p.d p.d T 0).det ≠ 0 → M.rows = p.r →
        M.cols = (p.d + 1) * n →
        ∃ a₀ a₁ a₂ a₃ a, Agent.new o i p = ok a₀ ∧ a₀.setLiftingMatrix Y = ok a₁ ∧
          a₁.setMeasurements (E.filter (isOdo i)) (E.filter (isPriv i)) (E.filter (isShared i)) = ok a₂ ∧
          a₂.init o (some T) = ok a₃ ∧ a₃.setX M = ok a ∧ OnDuty o p E i a ∧ a.X.X = M ∧ a.graph.n = n := by
  obtain ⟨a₀, a₁, a₂, e0, e1, e2, hn, hY, g, ha, ht, hu, hr⟩ := muster (o := o) hrd hE h1 h2
  obtain ⟨c1, c2⟩ := ht.count hE.odo
  refine ⟨g.n, c1, c2, fun T M hT hdet m1 m2 => ?_⟩
  obtain ⟨a₃, a, e3, e4, h3, h4, h5, -⟩ := reports hasync (Or.inl hl) hE hn hY ha ht hu hr hT hdet m1 m2
  exact ⟨a₀, a₁, a₂, a₃, a, e0, e1, e2, e3, e4, h3, h4, by rw [h5]⟩

/-- No schedule makes an agent fail. -/
theorem C79_total (hd : 0 < p.d) (hl : p.robust.costType = .L2) (ho : p.acceleration = true → AccelOk p)
    (h : ∀ i < N, OnDuty o p E i (s.agents i)) (hm : s.mail = []) {ops : List NetOp}
    (hs : Always (Sound N) ops) :
    ∃ t, netRun o s ops = ok t ∧ ∀ i < N, (t.agents i).state = .INITIALIZED ∧
      ArrOk p.r p.d (s.agents i).graph.n (t.agents i).X := by
  obtain ⟨t, ht⟩ := NetInv.all hd hl ho h hm hs
  refine ⟨t, ht.run, fun i hi => ?_⟩
  obtain ⟨k, hk⟩ := ht.member i hi
  exact ⟨hk.state, hk.arr⟩

/-- What robot `i` holds about robot `j` are the poses robot `j` had at one point of the schedule, namely
when it had optimised as often as the message last received says. -/
theorem C79_views (hd : 0 < p.d) (hl : p.robust.costType = .L2) (ho : p.acceleration = true → AccelOk p)
    (h : ∀ i < N, OnDuty o p E i (s.agents i)) (hm : s.mail = []) {ops : List NetOp}
    (hs : Always (Sound N) ops) {t : Net} (e : netRun o s ops = ok t) {i j v : Nat} (hi : i < N)
    (hv : (Clock.after ops).seen i j = some v) :
    ∃ B, Was o s ops j v B ∧ ∀ m ∈ (t.agents i).graph.sharedLcs, (foreignPose i m).robot = j →
      ∃ P, OMap.find? ltPoseID (foreignPose i m) (t.agents i).neighborPoses = some P ∧
        Copies p.r p.d B (foreignPose i m).frame P := by
  obtain ⟨t', ht⟩ := NetInv.all hd hl ho h hm hs
  have := ht.run
  rw [e] at this
  cases this
  obtain ⟨B, hB, hq⟩ := ht.seen i hi j v hv
  refine ⟨B, hB, fun m hm' hj => hq _ ?_ hj⟩
  obtain ⟨k, hk⟩ := ht.member i hi
  exact ((C05_public_ids i p.r p.d _ hk.team.reach).2.1 _).2 ⟨m, hm', rfl⟩

/-- Under a timely schedule the cost of the whole team never increases. -/
theorem C79_descent (hd : 0 < p.d) (hp : p.acceleration = false) (hl : p.robust.costType = .L2)
    (hrtr : p.localOpt.method = .RTR) (ho : ∀ c, LawfulRtr (o.opt c)) (hE : ∀ m ∈ E, m.r1 < N ∧ m.r2 < N)
    (h : ∀ i < N, OnDuty o p E i (s.agents i)) (hm : s.mail = []) {ops₁ ops₂ : List NetOp}
    (hs : Always (Sound N) (ops₁ ++ ops₂)) (ht : Always (Timely E) (ops₁ ++ ops₂)) {t₁ t₂ : Net}
    (e₁ : netRun o s ops₁ = ok t₁) (e₂ : netRun o s (ops₁ ++ ops₂) = ok t₂) :
    teamCost p.r p.d E t₂.estimate ≤ teamCost p.r p.d E t₁.estimate := by
  have ha : p.acceleration = true → AccelOk p := fun c => by rw [hp] at c; cases c
  induction ops₂ using List.reverseRecOn generalizing t₂ with
  | nil =>
    rw [List.append_nil, e₁] at e₂
    cases e₂
    exact le_rfl
  | append_singleton l op ih =>
    rw [← List.append_assoc] at hs ht e₂
    obtain ⟨s1, s2⟩ := hs.init
    obtain ⟨t1, t2⟩ := ht.init
    obtain ⟨u, hu⟩ := NetInv.all hd hl ha h hm s1
    refine le_trans ?_ (ih s1 t1 hu.run)
    refine hu.descent hd hp hl hrtr ho hE s2 t2 ?_
    rw [netRun_snoc, hu.run] at e₂
    obtain ⟨u', h1, h2⟩ := e₂
    cases h1
    exact h2

end

/-! ### Two robots -/

/-- Robot `0` and robot `1` have two poses each; the last pose of robot `0` is the first of robot `1`. -/
noncomputable def exJoined : List (Meas ℝ) := [exI 0 0 0 1, exI 1 1 0 1, exI 0 1 1 0]

/-- Two poses without rotation at distance `x` from the origin. -/
noncomputable def exAt (x : ℝ) : DMat ℝ :=
  ⟨3, 6, fun i j => if i < 3 ∧ j < 6 then
    if j % 3 = 2 then (if i = 0 then x else 0) else if j % 3 = i then 1 else 0 else 0⟩

/-- Reflects translations, enlarging. -/
noncomputable def exSwing (r d n : Nat) (Y : LVar r d n) : LVar r d n :=
  Matrix.of fun i j => if (j : Nat) % (d + 1) = d ∧ (i : Nat) = 0 then 6 - 3 * Y i j else Y i j

open Classical in
/-- A solver that tries one point only. -/
noncomputable def exSwinging : AgentOracles :=
  { exOracle with opt := fun _ => { exOpt with
      rtr := fun r d n Q G _ _ _ _ Y => ⟨true,
        if objective Q G (DMat.ofMat (exSwing r d n Y)) ≤ objective Q G (DMat.ofMat Y) then exSwing r d n Y
        else Y⟩ } }

theorem exSwinging_greedy (c : Nat) : Greedy exSwing (exSwinging.opt c) :=
  fun _ _ _ _ _ _ _ _ _ _ => ⟨fun h => if_pos h, fun h => if_neg h⟩

/-- The solver is run until the gradient vanishes. -/
noncomputable def exKeen : AgentParams :=
  { exParams with localOpt := { OptParams.default with gradnormTol := 0 } }

theorem exJoined_equips (i : Nat) (hi : i < 2) : Equips 2 exJoined i := by
  refine ⟨?_, ?_, ?_, ?_, ?_⟩
  · intro m hm
    fin_cases hm <;> simp [MeasWF, exI, DMat.one, DMat.zero]
  · intro m hm
    fin_cases hm <;> exact ⟨rfl, rfl, rfl, rfl⟩
  · interval_cases i
    · exact ⟨exI 0 0 0 1, by simp [exJoined], by simp [isOdo, exI]⟩
    · exact ⟨exI 1 1 0 1, by simp [exJoined], by simp [isOdo, exI]⟩
  · intro m hm
    fin_cases hm <;> simp [exI]
  · intro m hm x hx
    have : x ≤ 1 := by
      interval_cases i <;> fin_cases hm <;> simp [ownIndices, exI] at hx <;> omega
    interval_cases i
    · exact ⟨exI 0 0 0 1, by simp [exJoined], rfl, rfl, Or.inr this⟩
    · exact ⟨exI 1 1 0 1, by simp [exJoined], rfl, rfl, Or.inr this⟩

/-- A team with given estimates and solver parameters. -/
theorem exJoined_team_with (o : AgentOracles) (q : OptParams) (x y : ℝ) :
    ∃ s : Net, (∀ i < 2, OnDuty o { exParams with localOpt := q } exJoined i (s.agents i)) ∧ s.mail = [] ∧
      (s.agents 0).X.X = exAt x ∧ (s.agents 1).X.X = exAt y ∧ ∀ i < 2, (s.agents i).graph.n = 2 := by
  have one : ∀ i < 2, ∀ z : ℝ, ∃ a, OnDuty o { exParams with localOpt := q } exJoined i a ∧ a.X.X = exAt z ∧ a.graph.n = 2 := by
    intro i hi z
    obtain ⟨n, hn, ⟨m, hm, x, hx, hn'⟩, h⟩ := C79_start (o := o) (p := { exParams with localOpt := q }) (E := exJoined) (i := i)
      (show 2 ≤ 3 by decide) rfl rfl (exJoined_equips i hi) (Y := DMat.one 3 2) rfl rfl
    have : n = 2 := by
      have h1 : x ≤ 1 := by
        interval_cases i <;> fin_cases hm <;> simp [ownIndices, exI] at hx <;> omega
      have h2 : 1 < n := by
        interval_cases i
        · exact hn (exI 0 0 0 1) (by simp [exJoined]) 1 (by simp [ownIndices, exI])
        · exact hn (exI 1 1 0 1) (by simp [exJoined]) 1 (by simp [ownIndices, exI])
      omega
    subst this
    obtain ⟨_, _, _, _, a, -, -, -, -, -, h1, h2, h3⟩ := h exTwo (exAt z) exTwo_ok (by
      rw [show AgentParams.d { exParams with localOpt := q } = 2 from rfl, exTwo_rot, Matrix.det_one]; exact one_ne_zero) rfl rfl
    exact ⟨a, h1, h2, h3⟩
  obtain ⟨a, a1, a2, a3⟩ := one 0 (by omega) x
  obtain ⟨b, b1, b2, b3⟩ := one 1 (by omega) y
  refine ⟨⟨fun i => if i = 0 then a else b, []⟩, ?_, rfl, a2, b2, ?_⟩
  · intro i hi
    interval_cases i
    · exact a1
    · exact b1
  · intro i hi
    interval_cases i
    · exact a3
    · exact b3

/-- A team with given estimates. -/
theorem exJoined_team (o : AgentOracles) (x y : ℝ) :
    ∃ s : Net, (∀ i < 2, OnDuty o exKeen exJoined i (s.agents i)) ∧ s.mail = [] ∧
      (s.agents 0).X.X = exAt x ∧ (s.agents 1).X.X = exAt y ∧ ∀ i < 2, (s.agents i).graph.n = 2 :=
  exJoined_team_with o _ x y

theorem exJoined_cost (X : Joint ℝ) (x y : ℝ) (h0 : X 0 = exAt x) (h1 : X 1 = exAt y) :
    teamCost 3 2 exJoined X = (x - y) ^ 2 / 2 := by
  have : firstWins exJoined = exJoined := by
    simp [firstWins, exJoined, exI, sameEnds]
  unfold teamCost
  rw [this]
  simp only [exJoined, List.map_cons, List.map_nil, List.sum_cons, List.sum_nil, exI, h0, h1]
  simp only [edgeCost, rotRes, traRes, rot, tra, Finset.sum_range_succ, Finset.sum_range_zero, exAt, DMat.one,
    DMat.zero]
  norm_num
  ring

theorem exAt_swing (x : ℝ) : DMat.ofMat (exSwing 3 2 2 ((exAt x).toMat 3 ((2 + 1) * 2))) = exAt (6 - 3 * x) := by
  unfold DMat.ofMat exAt exSwing DMat.toMat
  congr 1
  funext i j
  by_cases h : i < 3 ∧ j < 6
  · rw [dif_pos (by exact h), if_pos h]
    simp only [Matrix.of_apply, if_pos h]
    split_ifs <;> first | rfl | omega
  · rw [dif_neg (by exact h), if_neg h]

/-- Without timeliness the cost of the team can rise, although every message arrives, every agent has heard
from every neighbour, no neighbour has moved more than once since, and the optimiser does not increase its
own objective: two robots that move at the same time both overshoot. -/
theorem C79_stale : ∃ (o : AgentOracles) (p : AgentParams) (E : List (Meas ℝ)) (s t : Net) (ops : List NetOp),
    (∀ c, LawfulRtr (o.opt c)) ∧ 0 < p.d ∧ p.acceleration = false ∧ p.robust.costType = .L2 ∧
    p.localOpt.method = .RTR ∧ (∀ m ∈ E, m.r1 < 2 ∧ m.r2 < 2) ∧ (∀ i < 2, OnDuty o p E i (s.agents i)) ∧
    s.mail = [] ∧ Always (Sound 2) ops ∧
    Always (fun c op => ∀ i, op = .iterate i true → ∀ j, Partners E i j → ∃ v, c.seen i j = some v ∧
      c.moves j ≤ v + 1) ops ∧
    netRun o s ops = ok t ∧ teamCost p.r p.d E s.estimate < teamCost p.r p.d E t.estimate := by
  obtain ⟨s, hs, hm, x0, x1, hn⟩ := exJoined_team exSwinging 0 3
  have hE : ∀ m ∈ exJoined, m.r1 < 2 ∧ m.r2 < 2 := by
    intro m hm
    fin_cases hm <;> simp [exI]
  have hP : ∀ i j, Partners exJoined i j → (i = 0 ∧ j = 1) ∨ (i = 1 ∧ j = 0) := by
    rintro i j ⟨hij, m, hm, h⟩
    fin_cases hm <;> simp [exI] at h <;> omega
  let four : List NetOp := [.send 0 none, .send 1 none, .deliver 0 1, .deliver 1 0]
  have q4 : Always (Sound 2) four := by
    have := Always.snoc (op := .deliver 1 0) (Always.snoc (op := .deliver 0 1) (Always.snoc (op := .send 1 none)
      (Always.snoc (op := .send 0 none) (Always.nil (Sound 2)) ?_) ?_) ?_) ?_
    · exact this
    · exact ⟨by omega, by simp⟩
    · exact ⟨by omega, by simp⟩
    · exact ⟨by omega, (1, none, 0), rfl, by simp⟩
    · exact ⟨by omega, (0, none, 0), rfl, by simp⟩
  have q5 : Always (Sound 2) (four ++ [.iterate 0 true]) := Always.snoc q4 (show 0 < 2 by omega)
  have q6 : Always (Sound 2) (four ++ [.iterate 0 true] ++ [.iterate 1 true]) := Always.snoc q5 (show 1 < 2 by omega)
  have hacc : exKeen.acceleration = true → AccelOk exKeen := fun c => by cases c
  obtain ⟨t4, n4⟩ := NetInv.all (o := exSwinging) (by decide) rfl hacc hs hm q4
  obtain ⟨t5, e5, n5⟩ := n4.step (op := .iterate 0 true) (by decide) rfl hacc (show 0 < 2 by omega)
  obtain ⟨t6, e6, n6⟩ := n5.step (op := .iterate 1 true) (by decide) rfl hacc (show 1 < 2 by omega)
  have c0 : teamCost 3 2 exJoined s.estimate = (0 - 3) ^ 2 / 2 := exJoined_cost _ _ _ x0 x1
  have w0 : DMat.ofMat (exSwing exKeen.r exKeen.d (s.agents 0).graph.n ((s.agents 0).X.X.toMat exKeen.r
      ((exKeen.d + 1) * (s.agents 0).graph.n))) = exAt 6 := by
    rw [hn 0 (by omega), x0]
    rw [show (6 : ℝ) = 6 - 3 * 0 by ring]
    exact exAt_swing 0
  have w1 : DMat.ofMat (exSwing exKeen.r exKeen.d (s.agents 1).graph.n ((s.agents 1).X.X.toMat exKeen.r
      ((exKeen.d + 1) * (s.agents 1).graph.n))) = exAt (-3) := by
    rw [hn 1 (by omega), x1]
    rw [show (-3 : ℝ) = 6 - 3 * 3 by ring]
    exact exAt_swing 3
  have m5 := n4.moves (i := 0) (by decide) rfl rfl rfl le_rfl (by decide) exSwinging_greedy hs hm q4 hE (by omega)
    rfl (fun j hj => by obtain ⟨-, rfl⟩ | ⟨h, -⟩ := hP _ _ hj; · rfl
                        · cases h) e5 (by
      rw [w0]
      show teamCost 3 2 exJoined _ ≤ teamCost 3 2 exJoined _
      rw [c0, exJoined_cost _ 6 3 (by rw [Function.update_self]) (by
        rw [Function.update_of_ne (by omega)]; exact x1)]
      norm_num)
  have m6 := n5.moves (i := 1) (by decide) rfl rfl rfl le_rfl (by decide) exSwinging_greedy hs hm q5 hE (by omega)
    rfl (fun j hj => by obtain ⟨h, -⟩ | ⟨-, rfl⟩ := hP _ _ hj; · cases h
                        · rfl) e6 (by
      rw [w1]
      show teamCost 3 2 exJoined _ ≤ teamCost 3 2 exJoined _
      rw [c0, exJoined_cost _ 0 (-3) (by rw [Function.update_of_ne (by omega)]; exact x0) (by
        rw [Function.update_self])]
      norm_num)
  rw [w0] at m5
  rw [w1, m5] at m6
  refine ⟨exSwinging, exKeen, exJoined, s, t6, _, fun c => (exSwinging_greedy c).lawful, by decide, rfl, rfl, rfl,
    hE, hs, hm, q6, ?_, n6.run, ?_⟩
  · refine Always.snoc (Always.snoc ?_ ?_) ?_
    · intro b op c e i hi
      subst hi
      have : NetOp.iterate i true ∈ four := by rw [e]; simp
      simp [four] at this
    · intro i hi j hj
      cases hi
      obtain ⟨-, rfl⟩ | ⟨h, -⟩ := hP _ _ hj
      · exact ⟨0, rfl, by decide⟩
      · cases h
    · intro i hi j hj
      cases hi
      obtain ⟨h, -⟩ | ⟨-, rfl⟩ := hP _ _ hj
      · cases h
      · exact ⟨0, rfl, by decide⟩
  · show teamCost 3 2 exJoined _ < teamCost 3 2 exJoined _
    rw [c0, m6, exJoined_cost _ 6 (-3) (by
      rw [Function.update_of_ne (by omega), Function.update_self]) (by rw [Function.update_self])]
    norm_num

/-- A timely schedule: the robots take turns, with old, repeated and partial messages in between. -/
example : ∃ s t₁ t₂ : Net, ∃ ops₁ ops₂ : List NetOp,
    (∀ i < 2, OnDuty exSwinging exKeen exJoined i (s.agents i)) ∧ s.mail = [] ∧
    Always (Sound 2) (ops₁ ++ ops₂) ∧ Always (Timely exJoined) (ops₁ ++ ops₂) ∧
    netRun exSwinging s ops₁ = ok t₁ ∧ netRun exSwinging s (ops₁ ++ ops₂) = ok t₂ ∧
    NetOp.iterate 0 true ∈ ops₁ ∧ NetOp.iterate 1 true ∈ ops₂ ∧
    teamCost 3 2 exJoined t₂.estimate ≤ teamCost 3 2 exJoined t₁.estimate ∧
    (Clock.after (ops₁ ++ ops₂)).seen 1 0 = some 1 ∧
    ∃ B, Was exSwinging s (ops₁ ++ ops₂) 0 1 B := by
  obtain ⟨s, hs, hm, -⟩ := exJoined_team exSwinging 0 3
  have hE : ∀ m ∈ exJoined, m.r1 < 2 ∧ m.r2 < 2 := by
    intro m hm
    fin_cases hm <;> simp [exI]
  have hP : ∀ i j, Partners exJoined i j → (i = 0 ∧ j = 1) ∨ (i = 1 ∧ j = 0) := by
    rintro i j ⟨hij, m, hm, h⟩
    fin_cases hm <;> simp [exI] at h <;> omega
  let l₁ : List NetOp := [.send 0 none, .send 1 none, .deliver 0 1, .iterate 0 true, .send 0 (some 1)]
  let l₂ : List NetOp := [.deliver 1 0, .deliver 1 2, .deliver 1 2, .iterate 1 true]
  have q1 : Always (Sound 2) l₁ := by
    refine Always.snoc (l := [_, _, _, _]) (Always.snoc (l := [_, _, _]) (Always.snoc (l := [_, _])
      (Always.snoc (l := [_]) (Always.snoc (l := []) (Always.nil _) ?_) ?_) ?_) ?_) ?_
    · exact ⟨by omega, by simp⟩
    · exact ⟨by omega, by simp⟩
    · exact ⟨by omega, (1, none, 0), rfl, by simp⟩
    · exact (show 0 < 2 by omega)
    · exact ⟨by omega, by simp⟩
  have q2 : Always (Sound 2) (l₁ ++ l₂) := by
    refine Always.snoc (l := l₁ ++ [_, _, _]) (Always.snoc (l := l₁ ++ [_, _]) (Always.snoc (l := l₁ ++ [_])
      (Always.snoc (l := l₁) q1 ?_) ?_) ?_) ?_
    · exact ⟨by omega, (0, none, 0), rfl, by simp⟩
    · exact ⟨by omega, (0, some 1, 1), rfl, by simp⟩
    · exact ⟨by omega, (0, some 1, 1), rfl, by simp⟩
    · exact (show 1 < 2 by omega)
  have r2 : Always (Timely exJoined) (l₁ ++ l₂) := by
    refine Always.snoc (l := l₁ ++ [_, _, _]) (Always.snoc (l := l₁ ++ [_, _]) (Always.snoc (l := l₁ ++ [_])
      (Always.snoc (l := l₁) (Always.snoc (l := [_, _, _, _]) (Always.snoc (l := [_, _, _])
      (Always.snoc (l := [_, _]) (Always.snoc (l := [_]) (Always.snoc (l := []) (Always.nil _) ?_) ?_)
      ?_) ?_) ?_) ?_) ?_) ?_) ?_
    all_goals try exact trivial
    · intro j hj
      obtain ⟨-, rfl⟩ | ⟨h, -⟩ := hP _ _ hj
      · rfl
      · cases h
    · intro j hj
      obtain ⟨h, -⟩ | ⟨-, rfl⟩ := hP _ _ hj
      · cases h
      · rfl
  have hacc : exKeen.acceleration = true → AccelOk exKeen := fun c => by cases c
  obtain ⟨t₁, e₁, -⟩ := C79_total (o := exSwinging) (by decide) rfl hacc hs hm q1
  obtain ⟨t₂, e₂, -⟩ := C79_total (o := exSwinging) (by decide) rfl hacc hs hm q2
  obtain ⟨B, hB, -⟩ := C79_views (o := exSwinging) (by decide) rfl hacc hs hm q2 e₂ (i := 1) (j := 0) (v := 1)
    (by omega) rfl
  exact ⟨s, t₁, t₂, l₁, l₂, hs, hm, q2, r2, e₁, e₂, by simp [l₁], by simp [l₂],
    C79_descent (by decide) rfl rfl rfl (fun c => (exSwinging_greedy c).lawful) hE hs hm q2 r2 e₁ e₂, rfl, B, hB⟩

end Dpgo.Props
