import Verif.Lemmas.RobustTeam
import Verif.Props.Schedule

/-! # C84: teams with robust costs -/

namespace Dpgo.Props

open Res Spec PoseGraph

section
variable {o : AgentOracles} {p : AgentParams} {E : List (Meas ℝ)} {N : Nat} {s : Net}

/-- Agents that are constructed, given the lifting matrix and their edges, initialised with a trajectory and
given an estimate are ready for the first phase. -/
theorem C84_start {i : Nat} (hrd : p.d ≤ p.r) (hasync : p.asynchronous = false)
    (hl : p.robust.costType = .L2 ∨ ∀ m ∈ E, m.fixedWeight = false → m.weight = 1) (hres : p.numResets ≤ 0)
    (hE : Equips p.d E i) {Y : DMat ℝ} (h1 : Y.rows = p.r) (h2 : Y.cols = p.d) :
    ∃ n, (∀ m ∈ E, ∀ x ∈ ownIndices i m, x < n) ∧ (∃ m ∈ E, ∃ x ∈ ownIndices i m, n = x + 1) ∧
      ∀ (T : PArr ℝ) (M : DMat ℝ), ArrOk p.d p.d n T → (rotM p.d p.d T 0).det ≠ 0 → M.rows = p.r →
        M.cols = (p.d + 1) * n →
        ∃ a₀ a₁ a₂ a₃ a, Agent.new o i p = ok a₀ ∧ a₀.setLiftingMatrix Y = ok a₁ ∧
          a₁.setMeasurements (E.filter (isOdo i)) (E.filter (isPriv i)) (E.filter (isShared i)) = ok a₂ ∧
          a₂.init o (some T) = ok a₃ ∧ a₃.setX M = ok a ∧
          RobustDuty o p E (RobustCost.new p.robust) 0 i a ∧ a.X.X = M ∧ a.graph.n = n := by
  obtain ⟨a₀, a₁, a₂, e0, e1, e2, hn, hY, g, ha, ht, hu, hr⟩ := muster (o := o) hrd hE h1 h2
  obtain ⟨c1, c2⟩ := ht.count hE.odo
  refine ⟨g.n, c1, c2, fun T M hT hdet m1 m2 => ?_⟩
  obtain ⟨a₃, a, e3, e4, h3, h4, h5, h6, h7, h8, h9⟩ := reports hasync hl hE hn hY ha ht hu hr hT hdet m1 m2
  subst ha
  refine ⟨a₀, a₁, _, a₃, a, e0, e1, e2, e3, e4, ⟨h3, ?_, h7.trans hn.inner, h8.trans hn.updates, ?_⟩, h4,
    by rw [h5]⟩
  · rcases h6 with h6 | h6
    · exact h6.trans hn.cost
    · rw [h6]
      show a₁.cost.reset = _
      rw [hn.cost]
      exact reset_new p.robust
  · intro c
    rw [h9] at c
    have : a₁.trajectoryResetCount < p.numResets := c
    rw [hn.resets] at this
    omega

/-- No sequence of rounds fails; afterwards every robot optimises edges with the weights of the last
round. -/
theorem C84_course (hd : 0 < p.d) (hp : p.acceleration = false) (hpar : ParamsOk p.robust)
    (hL1 : p.robust.costType ≠ .L1) (hres : p.numResets < 2 ^ 31) (hE : ∀ m ∈ E, m.r1 < N ∧ m.r2 < N)
    {c : RobustCost} {k : Int} (h : ∀ i < N, RobustDuty o p E c k i (s.agents i)) (hm : s.mail = [])
    {l : List Round} (hl : ∀ f ∈ l, Orderly N E f) (hk : k + l.length < 2 ^ 31) :
    ∃ E' t, Course o p E c s l E' (RobustCost.update^[l.length] c) t ∧
      (∀ i < N, RobustDuty o p E' (RobustCost.update^[l.length] c) (k + l.length) i (t.agents i)) ∧
      t.mail = [] := by
  obtain ⟨E', t, hc⟩ := course_exists hd hp hpar hL1 hres hE h hm hl hk
  exact ⟨E', t, hc, course_duty hd hp hpar hL1 hres hE h hm hl hk hc⟩

/-- Inside any phase the two robots that share an edge hold the same copy of it, with the same weight. -/
theorem C84_copies (hd : 0 < p.d) (hp : p.acceleration = false) (hpar : ParamsOk p.robust)
    (hL1 : p.robust.costType ≠ .L1) (hres : p.numResets < 2 ^ 31) (hE : ∀ m ∈ E, m.r1 < N ∧ m.r2 < N)
    {c c' : RobustCost} {k : Int} (h : ∀ i < N, RobustDuty o p E c k i (s.agents i)) (hm : s.mail = [])
    {l : List Round} (hl : ∀ f ∈ l, Orderly N E f) (hk : k + l.length < 2 ^ 31) {E' : List (Meas ℝ)}
    {t : Net} (hc : Course o p E c s l E' c' t) {ops : List NetOp} (hs : Always (Sound N) ops)
    (hn : ∀ i < N, iterationsOf i ops < 2 ^ 31) {u : Net} (e : netRun o t ops = ok u) {i : Nat} (hi : i < N)
    {m : Meas ℝ} (hmi : m ∈ (u.agents i).graph.sharedLcs) :
    (foreignPose i m).robot ≠ i ∧ m ∈ (u.agents (foreignPose i m).robot).graph.sharedLcs ∧ m ∈ E' := by
  obtain ⟨h1, h2⟩ := course_duty hd hp hpar hL1 hres hE h hm hl hk hc
  obtain ⟨u', hu, -⟩ := NetInv.all_any hd (fun c => by rw [hp] at c; cases c) (fun i hi => (h1 i hi).duty) h2 hs
    fun i hi => by
      rw [(h1 i hi).inner]
      have := hn i hi
      push_cast
      omega
  have := hu.run
  rw [e] at this
  cases this
  obtain ⟨_, ki⟩ := hu.member i hi
  rw [ki.team.lists.2.2, List.mem_filter] at hmi
  obtain ⟨hm', hsh⟩ := hmi
  have hmE := Example.mem_firstWins hm'
  obtain ⟨b1, b2⟩ := (hc.ends (N := N)).2 hE m hmE
  simp only [isShared, Bool.or_eq_true, Bool.and_eq_true, beq_iff_eq, bne_iff_ne] at hsh
  have hj : (foreignPose i m).robot ≠ i ∧ (foreignPose i m).robot < N ∧
      isShared (foreignPose i m).robot m = true := by
    simp only [isShared, Bool.or_eq_true, Bool.and_eq_true, beq_iff_eq, bne_iff_ne]
    unfold foreignPose
    rcases hsh with ⟨q1, q2⟩ | ⟨q1, q2⟩
    · rw [if_pos q1]
      exact ⟨q2, b2, Or.inr ⟨by rw [q1]; exact Ne.symm q2, rfl⟩⟩
    · rw [if_neg q1]
      exact ⟨q1, b1, Or.inl ⟨rfl, by rw [q2]; exact Ne.symm q1⟩⟩
  obtain ⟨_, kj⟩ := hu.member _ hj.2.1
  refine ⟨hj.1, ?_, hmE⟩
  rw [kj.team.lists.2.2, List.mem_filter]
  exact ⟨hm', hj.2.2⟩

/-- Inside any phase with a timely schedule the cost of the team, with the weights of the last round, never
increases. -/
theorem C84_descent (hd : 0 < p.d) (hp : p.acceleration = false) (hpar : ParamsOk p.robust)
    (hL1 : p.robust.costType ≠ .L1) (hres : p.numResets < 2 ^ 31) (hrtr : p.localOpt.method = .RTR)
    (ho : ∀ c, LawfulRtr (o.opt c)) (hE : ∀ m ∈ E, m.r1 < N ∧ m.r2 < N)
    {c c' : RobustCost} {k : Int} (h : ∀ i < N, RobustDuty o p E c k i (s.agents i)) (hm : s.mail = [])
    {l : List Round} (hl : ∀ f ∈ l, Orderly N E f) (hk : k + l.length < 2 ^ 31) {E' : List (Meas ℝ)}
    {t : Net} (hc : Course o p E c s l E' c' t) {ops₁ ops₂ : List NetOp}
    (hs : Always (Sound N) (ops₁ ++ ops₂)) (ht : Always (Timely E) (ops₁ ++ ops₂))
    (hn : ∀ i < N, iterationsOf i (ops₁ ++ ops₂) < 2 ^ 31) {u₁ u₂ : Net}
    (e₁ : netRun o t ops₁ = ok u₁) (e₂ : netRun o t (ops₁ ++ ops₂) = ok u₂) :
    teamCost p.r p.d E' u₂.estimate ≤ teamCost p.r p.d E' u₁.estimate := by
  have ha : p.acceleration = true → AccelOk p := fun c => by rw [hp] at c; cases c
  obtain ⟨h1, h2⟩ := course_duty hd hp hpar hL1 hres hE h hm hl hk hc
  have en := hc.ends (N := N)
  induction ops₂ using List.reverseRecOn generalizing u₂ with
  | nil =>
    rw [List.append_nil, e₁] at e₂
    cases e₂
    exact le_rfl
  | append_singleton l op ih =>
    rw [← List.append_assoc] at hs ht e₂ hn
    obtain ⟨s1, s2⟩ := hs.init
    obtain ⟨t1, t2⟩ := ht.init
    have hn' : ∀ i < N, iterationsOf i (ops₁ ++ l) < 2 ^ 31 := fun i hi => by
      have := hn i hi
      rw [iterationsOf_snoc] at this
      omega
    obtain ⟨u, hu, hkept⟩ := NetInv.all_any hd ha (fun i hi => (h1 i hi).duty) h2 s1 fun i hi => by
      rw [(h1 i hi).inner]
      have := hn' i hi
      push_cast
      omega
    refine le_trans ?_ (ih s1 t1 hn' hu.run)
    have t2' : Timely E' (Clock.after (ops₁ ++ l)) op := by
      cases op with
      | iterate i b =>
        cases b with
        | true => exact fun j hj => t2 j ((en.1 i j).1 hj)
        | false => trivial
      | send _ _ => trivial
      | deliver _ _ => trivial
    refine hu.descent_any hd hp (fun _ i b c => ?_) hrtr ho (en.2 hE) s2 t2' ?_
    · subst c
      have hi : i < N := s2
      have := hn i hi
      rw [iterationsOf_snoc, if_pos (by cases b <;> simp)] at this
      have := (hkept i).inner
      rw [(h1 i hi).inner] at this
      push_cast at *
      omega
    · rw [netRun_snoc, hu.run] at e₂
      obtain ⟨u', h1, h2⟩ := e₂
      cases h1
      exact h2

end

/-! ### Two robots with a robust cost -/

/-- The example agents with another robust cost. -/
noncomputable def exWith (q : RobustParams) : AgentParams := { exKeen with robust := q }

/-- Two robots with any robust cost. -/
theorem exWith_team (q : RobustParams) (o : AgentOracles) (x y : ℝ) :
    ∃ s : Net, (∀ i < 2, RobustDuty o (exWith q) exJoined (RobustCost.new (exWith q).robust) 0 i (s.agents i)) ∧
      s.mail = [] ∧ (s.agents 0).X.X = exAt x ∧ (s.agents 1).X.X = exAt y ∧ ∀ i < 2, (s.agents i).graph.n = 2 := by
  have one : ∀ i < 2, ∀ z : ℝ, ∃ a, RobustDuty o (exWith q) exJoined (RobustCost.new (exWith q).robust) 0 i a ∧
      a.X.X = exAt z ∧ a.graph.n = 2 := by
    intro i hi z
    obtain ⟨n, hn, ⟨m, hm, x, hx, hn'⟩, h⟩ := C84_start (o := o) (p := exWith q) (E := exJoined) (i := i)
      (show 2 ≤ 3 by decide) rfl (Or.inr fun m hm _ => by fin_cases hm <;> rfl) le_rfl
      (exJoined_equips i hi) (Y := DMat.one 3 2) rfl rfl
    have : n = 2 := by
      have h1 : x ≤ 1 := by
        interval_cases i <;> fin_cases hm <;> simp [ownIndices, exI] at hx <;> omega
      have h2 : 1 < n := by
        interval_cases i
        · exact hn (exI 0 0 0 1) (by simp [exJoined]) 1 (by simp [ownIndices, exI])
        · exact hn (exI 1 1 0 1) (by simp [exJoined]) 1 (by simp [ownIndices, exI])
      omega
    subst this
    obtain ⟨_, _, _, _, a, -, -, -, -, -, h1, h2, h3⟩ := h exTwo (exAt z) exTwo_ok (by
      rw [show AgentParams.d (exWith q) = 2 from rfl, exTwo_rot, Matrix.det_one]; exact one_ne_zero) rfl rfl
    exact ⟨a, h1, h2, h3⟩
  obtain ⟨a, a1, a2, a3⟩ := one 0 (by omega) x
  obtain ⟨b, b1, b2, b3⟩ := one 1 (by omega) y
  refine ⟨⟨fun i => if i = 0 then a else b, []⟩, ?_, rfl, a2, b2, ?_⟩
  · intro i hi
    interval_cases i
    · exact a1
    · exact b1
  · intro i hi
    interval_cases i
    · exact a3
    · exact b3

/-- Geman-McClure weights. -/
noncomputable def exGuarded : AgentParams := exWith (RobustParams.default .GM)

theorem exGuarded_ok : ParamsOk exGuarded.robust := by
  constructor <;> norm_num [exGuarded, exWith, RobustParams.default]

theorem exGuarded_team (o : AgentOracles) (x y : ℝ) :
    ∃ s : Net, (∀ i < 2, RobustDuty o exGuarded exJoined (RobustCost.new exGuarded.robust) 0 i (s.agents i)) ∧
      s.mail = [] ∧ (s.agents 0).X.X = exAt x ∧ (s.agents 1).X.X = exAt y ∧ ∀ i < 2, (s.agents i).graph.n = 2 :=
  exWith_team _ o x y

/-- The new weight of the edge between the robots. -/
theorem exGuarded_edge (X : Joint ℝ) (x y : ℝ) (h0 : X 0 = exAt x) (h1 : X 1 = exAt y) :
    newEdge 3 2 (RobustCost.new exGuarded.robust) X (exI 0 1 1 0) =
      { exI 0 1 1 0 with weight := 1 / ((1 + (x - y) ^ 2) * (1 + (x - y) ^ 2)) } := by
  refine newEdge_weight rfl rfl ?_
  have : resid 3 2 (exI 0 1 1 0) (X (exI 0 1 1 0).r1) (exI 0 1 1 0).p1 (X (exI 0 1 1 0).r2) (exI 0 1 1 0).p2 =
      Real.sqrt ((x - y) ^ 2) := by
    unfold resid
    congr 1
    simp only [exI, h0, h1]
    simp only [rotRes, traRes, rot, tra, Finset.sum_range_succ, Finset.sum_range_zero, exAt, DMat.one, DMat.zero]
    norm_num
    ring
  rw [this]
  show ok (1 / ((1 + Real.sqrt ((x - y) ^ 2) * Real.sqrt ((x - y) ^ 2)) * _)) = _
  rw [Real.mul_self_sqrt (by positivity)]

/-- Rounds in which a robot has not received the current poses of a neighbour lead to copies of one edge with
different weights, although every optimisation was timely, every message arrived, and each robot has heard
from its neighbour since that neighbour's last but one optimisation: the robot that optimised last holds weight
`1`, its neighbour `1 / 25`. -/
theorem C84_stale : ∃ (o : AgentOracles) (p : AgentParams) (E : List (Meas ℝ)) (s u t : Net) (f : Round)
    (m m' : Meas ℝ), (∀ c, LawfulRtr (o.opt c)) ∧ 0 < p.d ∧ p.acceleration = false ∧ ParamsOk p.robust ∧
    p.robust.costType ≠ .L1 ∧ p.numResets < 2 ^ 31 ∧ p.localOpt.method = .RTR ∧
    (∀ m ∈ E, m.r1 < 2 ∧ m.r2 < 2) ∧
    (∀ i < 2, RobustDuty o p E (RobustCost.new p.robust) 0 i (s.agents i)) ∧ s.mail = [] ∧
    Always (Sound 2) f.ops ∧ Always (Timely E) f.ops ∧ f.order.Perm (List.range 2) ∧
    (∀ i j, Partners E i j → ∃ v, (Clock.after f.ops).seen i j = some v ∧ (Clock.after f.ops).moves j ≤ v + 1) ∧
    netRun o s f.ops = ok u ∧ reweighAll u f.order = ok t ∧
    m ∈ (t.agents 0).graph.sharedLcs ∧ m' ∈ (t.agents 1).graph.sharedLcs ∧ m.weight = 1 ∧ m'.weight = 1 / 25 ∧
    m' = { m with weight := m'.weight } := by
  obtain ⟨s, hs, hm, x0, x1, hn⟩ := exGuarded_team exSwinging 1 3
  have hE : ∀ m ∈ exJoined, m.r1 < 2 ∧ m.r2 < 2 := by
    intro m hm
    fin_cases hm <;> simp [exI]
  have hP : ∀ i j, Partners exJoined i j → (i = 0 ∧ j = 1) ∨ (i = 1 ∧ j = 0) := by
    rintro i j ⟨hij, m, hm, h⟩
    fin_cases hm <;> simp [exI] at h <;> omega
  let four : List NetOp := [.send 0 none, .send 1 none, .deliver 0 1, .deliver 1 0]
  have q4 : Always (Sound 2) four := by
    have := Always.snoc (op := .deliver 1 0) (Always.snoc (op := .deliver 0 1) (Always.snoc (op := .send 1 none)
      (Always.snoc (op := .send 0 none) (Always.nil (Sound 2)) ?_) ?_) ?_) ?_
    · exact this
    · exact ⟨by omega, by simp⟩
    · exact ⟨by omega, by simp⟩
    · exact ⟨by omega, (1, none, 0), rfl, by simp⟩
    · exact ⟨by omega, (0, none, 0), rfl, by simp⟩
  have q5 : Always (Sound 2) (four ++ [.iterate 0 true]) := Always.snoc q4 (show 0 < 2 by omega)
  have hacc : exGuarded.acceleration = true → AccelOk exGuarded := fun c => by cases c
  have i4 : ∀ i < 2, iterationsOf i four = 0 := fun i _ => by simp [iterationsOf, four]
  obtain ⟨t4, n4, kept4⟩ := NetInv.all_any (o := exSwinging) (by decide) hacc (fun i hi => (hs i hi).duty) hm q4
    fun i hi => by rw [(hs i hi).inner, i4 i hi]; norm_num
  have hin : ∀ i < 2, (t4.agents i).innerIter + 1 < 2 ^ 31 := fun i hi => by
    have := (kept4 i).inner
    rw [(hs i hi).inner, i4 i hi] at this
    push_cast at this
    omega
  have still : ∀ i < 2, (t4.agents i).X = (s.agents i).X := fun i hi => by
    refine (n4.still rfl i _ ⟨[], s, List.nil_prefix, rfl, ?_, rfl⟩).symm
    interval_cases i <;> rfl
  have tim : ∀ i < 2, Timely exJoined (Clock.after four) (.iterate i true) := by
    intro i hi j hj
    obtain ⟨rfl, rfl⟩ | ⟨rfl, rfl⟩ := hP _ _ hj <;> rfl
  have y0 : t4.estimate 0 = exAt 1 := by
    show (t4.agents 0).X.X = _
    rw [still 0 (by omega), x0]
  have y1 : t4.estimate 1 = exAt 3 := by
    show (t4.agents 1).X.X = _
    rw [still 1 (by omega), x1]
  obtain ⟨k0, m0⟩ := n4.member 0 (by omega)
  obtain ⟨k1, m1⟩ := n4.member 1 (by omega)
  have up0 := n4.upToDate rfl hE (by omega) (tim 0 (by omega)) m0
  have up1 := n4.upToDate rfl hE (by omega) (tim 1 (by omega)) m1
  obtain ⟨b, a', ea, ma, hnp, -⟩ := m0.iterate_any (by decide) (fun _ => hin 0 (by omega)) hacc true
  have w0 : DMat.ofMat (exSwing exGuarded.r exGuarded.d (s.agents 0).graph.n ((t4.agents 0).X.X.toMat exGuarded.r
      ((exGuarded.d + 1) * (s.agents 0).graph.n))) = exAt 3 := by
    rw [hn 0 (by omega), still 0 (by omega), x0]
    rw [show (3 : ℝ) = 6 - 3 * 1 by ring]
    exact exAt_swing 1
  have hx := m0.moves_any (by decide) rfl (fun _ => hin 0 (by omega)) rfl le_rfl (by decide) exSwinging_greedy
    (X := t4.estimate) rfl up0 ea (by
      rw [w0]
      show teamCost 3 2 exJoined _ ≤ teamCost 3 2 exJoined _
      rw [exJoined_cost _ 1 3 y0 y1, exJoined_cost _ 3 3 (by rw [Function.update_self]) (by
        rw [Function.update_of_ne (by omega)]; exact y1)]
      norm_num)
  rw [w0] at hx
  let u : Net := ⟨Function.update t4.agents 0 a', t4.mail⟩
  have es : netStep exSwinging t4 (.iterate 0 true) = ok u := by
    unfold netStep
    simp only [ea, ok_bind]
    rfl
  have n5 : NetInv exSwinging exGuarded exJoined (fun i => (s.agents i).graph.n) 2 s (four ++ [.iterate 0 true]) u := by
    obtain ⟨u', e', n5⟩ := n4.step_any (op := .iterate 0 true) (by decide)
      (fun _ i b c => by cases c; exact hin 0 (by omega)) hacc (show 0 < 2 by omega)
    rw [es] at e'
    cases e'
    exact n5
  have u0 : u.agents 0 = a' := by
    show Function.update t4.agents 0 a' 0 = a'
    exact Function.update_self ..
  have u1 : u.agents 1 = t4.agents 1 := by
    show Function.update t4.agents 0 a' 1 = _
    exact Function.update_of_ne (by omega) ..
  have tim5 : Timely exJoined (Clock.after (four ++ [.iterate 0 true])) (.iterate 0 true) := by
    intro j hj
    obtain ⟨-, rfl⟩ | ⟨h, -⟩ := hP _ _ hj
    · rfl
    · cases h
  rw [← u0] at ma
  have up5 := n5.upToDate rfl hE (by omega) tim5 ma
  have z0 : u.estimate 0 = exAt 3 := by
    show (u.agents 0).X.X = _
    rw [u0, hx]
  have z1 : u.estimate 1 = exAt 3 := by
    show (u.agents 1).X.X = _
    rw [u1]
    exact y1
  have c0 : (u.agents 0).cost = RobustCost.new exGuarded.robust := by
    rw [u0]
    exact (iterate_kept ea).cost.trans ((kept4 0).cost.trans (hs 0 (by omega)).cost)
  have c1 : (u.agents 1).cost = RobustCost.new exGuarded.robust := by
    rw [u1]
    exact (kept4 1).cost.trans (hs 1 (by omega)).cost
  have k0 : (u.agents 0).weightUpdateCount = 0 := by
    rw [u0]
    exact (iterate_kept ea).count.trans ((kept4 0).count.trans (hs 0 (by omega)).count)
  have k1 : (u.agents 1).weightUpdateCount = 0 := by
    rw [u1]
    exact (kept4 1).count.trans (hs 1 (by omega)).count
  have g0 : (u.agents 0).trajectoryResetCount < exGuarded.numResets → ∃ X, (u.agents 0).XInit = some X := by
    rw [u0, (iterate_kept ea).resets, (iterate_kept ea).guess, (kept4 0).resets, (kept4 0).guess]
    exact (hs 0 (by omega)).guess
  have g1 : (u.agents 1).trajectoryResetCount < exGuarded.numResets → ∃ X, (u.agents 1).XInit = some X := by
    rw [u1, (kept4 1).resets, (kept4 1).guess]
    exact (hs 1 (by omega)).guess
  rw [← u1] at m1 up1
  have hr : exGuarded.numResets = 0 := rfl
  obtain ⟨b0, d0⟩ := updateWeights_total (agReach_inv ma.reach) exGuarded_ok (by decide) (by rw [k0]; norm_num)
    (fun c => ⟨by omega, g0 c⟩)
  obtain ⟨b1, d1⟩ := updateWeights_total (agReach_inv m1.reach) exGuarded_ok (by decide) (by rw [k1]; norm_num)
    (fun c => ⟨by omega, g1 c⟩)
  obtain ⟨r0, -⟩ := ma.reweigh (X := u.estimate) rfl up5 d0
  obtain ⟨r1, -⟩ := m1.reweigh (X := t4.estimate) (by rw [u1]; rfl) up1 d1
  rw [c0] at r0
  rw [c1] at r1
  obtain ⟨t, ht, -, hb, -⟩ := reweighAll_ok (order := [0, 1]) (by decide) (fun i => if i = 0 then b0 else b1)
    (u := u) fun i hi => by
      simp only [List.mem_cons, List.not_mem_nil, or_false] at hi
      rcases hi with rfl | rfl
      · exact d0
      · exact d1
  have own : ∀ (X : Joint ℝ) (i : Nat), i < 2 → ∀ a : Agent,
      OnDuty exSwinging exGuarded (exJoined.map (newEdge exGuarded.r exGuarded.d
        (RobustCost.new exGuarded.robust) X)) i a →
      newEdge 3 2 (RobustCost.new exGuarded.robust) X (exI 0 1 1 0) ∈ a.graph.sharedLcs := by
    intro X i hi a ha
    rw [(ha.member (sh := fun _ => a.graph.n) rfl).team.lists.2.2, newEdge_keeps.firstWins, List.mem_filter]
    refine ⟨List.mem_map.2 ⟨exI 0 1 1 0, ?_, rfl⟩, ?_⟩
    · simp [firstWins, exJoined, exI, sameEnds]
    · rw [(newEdge_keeps.kinds i _).2.2.2]
      interval_cases i <;> rfl
  have o0 := own _ 0 (by omega) _ r0
  have o1 := own _ 1 (by omega) _ r1
  rw [exGuarded_edge _ 3 3 z0 z1] at o0
  rw [exGuarded_edge _ 1 3 y0 y1] at o1
  have t0 : t.agents 0 = b0 := hb 0 (by simp)
  have t1 : t.agents 1 = b1 := hb 1 (by simp)
  refine ⟨exSwinging, exGuarded, exJoined, s, u, t, ⟨four ++ [.iterate 0 true], [0, 1]⟩, _, _,
    fun c => (exSwinging_greedy c).lawful, by decide, rfl, exGuarded_ok, by decide, by decide, rfl, hE, hs, hm,
    q5, ?_, List.Perm.refl _, ?_, n5.run, ht, by rw [t0]; exact o0, by rw [t1]; exact o1, by norm_num,
    by norm_num, rfl⟩
  · refine Always.snoc ?_ (tim 0 (by omega))
    refine Always.snoc (l := [_, _, _]) (Always.snoc (l := [_, _]) (Always.snoc (l := [_]) (Always.snoc (l := [])
      (Always.nil _) ?_) ?_) ?_) ?_ <;> exact trivial
  · intro i j hj
    obtain ⟨rfl, rfl⟩ | ⟨rfl, rfl⟩ := hP _ _ hj
    · exact ⟨0, rfl, by decide⟩
    · exact ⟨0, rfl, by decide⟩

/-- Robot `0` optimises and tells robot `1`, both update their weights, and the team goes on. -/
example : ∃ (s t u : Net) (f : Round) (E' : List (Meas ℝ)) (c : RobustCost) (m : Meas ℝ),
    Course exSwinging exGuarded exJoined (RobustCost.new exGuarded.robust) s [f] E' c t ∧
    NetOp.iterate 0 true ∈ f.ops ∧ f.order = [1, 0] ∧
    netRun exSwinging t [.send 0 none, .deliver 1 0, .iterate 1 true] = ok u ∧
    m ∈ (u.agents 0).graph.sharedLcs ∧ m ∈ (u.agents 1).graph.sharedLcs ∧
    teamCost 3 2 E' u.estimate ≤ teamCost 3 2 E' t.estimate := by
  obtain ⟨s, hs, hm, -⟩ := exGuarded_team exSwinging 1 3
  have hE : ∀ m ∈ exJoined, m.r1 < 2 ∧ m.r2 < 2 := by
    intro m hm
    fin_cases hm <;> simp [exI]
  have hP : ∀ i j, Partners exJoined i j → (i = 0 ∧ j = 1) ∨ (i = 1 ∧ j = 0) := by
    rintro i j ⟨hij, m, hm, h⟩
    fin_cases hm <;> simp [exI] at h <;> omega
  let l₁ : List NetOp := [.send 1 none, .deliver 0 0, .iterate 0 true, .send 0 none, .deliver 1 1]
  have q1 : Always (Sound 2) l₁ := by
    refine Always.snoc (l := [_, _, _, _]) (Always.snoc (l := [_, _, _]) (Always.snoc (l := [_, _])
      (Always.snoc (l := [_]) (Always.snoc (l := []) (Always.nil _) ?_) ?_) ?_) ?_) ?_
    · exact ⟨by omega, by simp⟩
    · exact ⟨by omega, (1, none, 0), rfl, by simp⟩
    · exact (show 0 < 2 by omega)
    · exact ⟨by omega, by simp⟩
    · exact ⟨by omega, (0, none, 1), rfl, by simp⟩
  have hf : Orderly 2 exJoined ⟨l₁, [1, 0]⟩ := by
    refine ⟨q1, ?_, by decide, ?_⟩
    · intro i j hj
      obtain ⟨rfl, rfl⟩ | ⟨rfl, rfl⟩ := hP _ _ hj <;> rfl
    · intro i hi
      refine lt_of_le_of_lt List.countP_le_length ?_
      norm_num [l₁]
  let l₂ : List NetOp := [.send 0 none, .deliver 1 0, .iterate 1 true]
  have q2 : Always (Sound 2) ([] ++ l₂) := by
    refine Always.snoc (l := [_, _]) (Always.snoc (l := [_]) (Always.snoc (l := []) (Always.nil _) ?_) ?_) ?_
    · exact ⟨by omega, by simp⟩
    · exact ⟨by omega, (0, none, 0), rfl, by simp⟩
    · exact (show 1 < 2 by omega)
  have r2 : Always (Timely exJoined) ([] ++ l₂) := by
    refine Always.snoc (l := [_, _]) (Always.snoc (l := [_]) (Always.snoc (l := []) (Always.nil _) trivial) trivial) ?_
    intro j hj
    obtain ⟨h, -⟩ | ⟨-, rfl⟩ := hP _ _ hj
    · cases h
    · rfl
  have hl : ∀ g ∈ [(⟨l₁, [1, 0]⟩ : Round)], Orderly 2 exJoined g := by simpa using hf
  have hsh : ∀ i < 2, iterationsOf i ([] ++ l₂) < 2 ^ 31 := fun i _ =>
    lt_of_le_of_lt List.countP_le_length (by norm_num [l₂])
  obtain ⟨E', t, hc, hd, hmt⟩ := C84_course (by decide) rfl exGuarded_ok (by decide) (by decide) hE hs hm hl
    (by norm_num)
  obtain ⟨u, hu, -⟩ := NetInv.all_any (o := exSwinging) (by decide) (fun c => by cases c)
    (fun i hi => (hd i hi).duty) hmt q2 fun i hi => by
      rw [(hd i hi).inner]
      have := hsh i hi
      push_cast
      omega
  obtain ⟨m, hmm, hf⟩ : ∃ m ∈ (u.agents 0).graph.sharedLcs, (foreignPose 0 m).robot = 1 := by
    obtain ⟨-, m, hm', he⟩ := ((hc.ends (N := 2)).1 0 1).2 ⟨by omega, exI 0 1 1 0, by simp [exJoined], Or.inl ⟨rfl, rfl⟩⟩
    obtain ⟨m', hw, hends⟩ := exists_firstWins hm'
    rw [← hends.1, ← hends.2.2.1] at he
    obtain ⟨_, k0⟩ := hu.member 0 (by omega)
    refine ⟨m', ?_, ?_⟩
    · rw [k0.team.lists.2.2, List.mem_filter]
      refine ⟨hw, ?_⟩
      rcases he with he | he <;> simp [isShared, he.1, he.2]
    · rcases he with he | he <;> simp [foreignPose, he.1, he.2]
  have h1 := C84_copies (by decide) rfl exGuarded_ok (by decide) (by decide) hE hs hm hl (by norm_num) hc q2 hsh
    hu.run (i := 0) (by omega) hmm
  rw [hf] at h1
  exact ⟨s, t, u, _, E', _, m, hc, by simp [l₁], rfl, hu.run, hmm, h1.2.1,
    C84_descent (by decide) rfl exGuarded_ok (by decide) (by decide) rfl
      (fun c => (exSwinging_greedy c).lawful) hE hs hm hl (by norm_num) hc q2 r2 hsh rfl hu.run⟩

end Dpgo.Props
