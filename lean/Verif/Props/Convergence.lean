import Verif.Lemmas.ConvergenceStep
import Verif.Props.Schedule
import Verif.Props.Demo

/-! # C80: rates of convergence -/

namespace Dpgo.Props

open Res Spec PoseGraph Finset

section
variable {o : AgentOracles} {p : AgentParams} {E : List (Meas ℝ)} {N : Nat} {s : Net}

/-- The cost of a team is smooth: its curvature in the poses of each robot is bounded. -/
theorem C80_smooth (r d : Nat) (E : List (Meas ℝ)) (n : Nat → Nat) (h : ∀ i, ∀ m ∈ E, ∀ x ∈ ownIndices i m, x < n i) :
    ∃ L, 0 < L ∧ ∀ i, SmoothFor r d (n i) E i L :=
  ⟨curvature r d E, curvature_pos r d E, fun i => smoothFor_curvature (h i)⟩

/-- Under a timely schedule, each time a robot optimises where the projected gradient is at least `ε`, the cost of
the team falls by at least `c ε²`; it cannot do so more often than the initial cost allows. -/
theorem C80_budget (hd : 0 < p.d) (hp : p.acceleration = false) (hl : p.robust.costType = .L2)
    (hrtr : p.localOpt.method = .RTR) (hit : p.localOpt.RTRIterations ≠ 1) (ho : ∀ c, LawfulRtr (o.opt c))
    {π : PoseProj} (hπ : ∀ c, ActsPosewise π (o.opt c)) {L c ε : ℝ} (hL0 : 0 < L) (hc0 : 0 ≤ c) (hε : 0 ≤ ε)
    (htol : p.localOpt.gradnormTol ≤ ε)
    (hst : ∀ k, StaysOnManifold (o.opt k))
    (hdec : ∀ k, Decreasing p.localOpt L (2 * L * teamCost p.r p.d E s.estimate) c (o.opt k))
    (hE : ∀ m ∈ E, m.r1 < N ∧ m.r2 < N) (hpr : Precise E) (hw : ∀ m ∈ E, 0 ≤ m.weight)
    (h : ∀ i < N, OnDuty o p E i (s.agents i))
    (hfe : ∀ i < N, Orthonormal p.r p.d (s.agents i).graph.n (s.agents i).X) (hL : ∀ i < N, SmoothFor p.r p.d (s.agents i).graph.n E i L)
    (hm : s.mail = []) {ops : List NetOp} (hs : Always (Sound N) ops) (ht : Always (Timely E) ops)
    {t : Net} (e : netRun o s ops = ok t) (K : Finset Nat) (hK : ∀ k ∈ K, Steep o p E π ε s ops k) :
    teamCost p.r p.d E t.estimate + K.card * (c * ε ^ 2) ≤ teamCost p.r p.d E s.estimate := by
  have hacc : p.acceleration = true → AccelOk p := fun c => by rw [hp] at c; cases c
  induction ops using List.reverseRecOn generalizing t K with
  | nil =>
    cases e
    have : K = ∅ := by
      refine eq_empty_of_forall_notMem fun k hk => ?_
      obtain ⟨i, t, Gr, h1, -⟩ := hK k hk
      simp at h1
    rw [this]
    simp
  | append_singleton l op ih =>
    obtain ⟨s1, s2⟩ := hs.init
    obtain ⟨t1, t2⟩ := ht.init
    obtain ⟨u, hu⟩ := NetInv.all hd hl hacc h hm s1
    obtain ⟨u', h1, h2⟩ := netRun_snoc.1 e
    rw [hu.run] at h1
    cases h1
    have hlast : ∀ k ∈ K, k ≤ l.length := by
      intro k hk
      obtain ⟨i, t, Gr, h1, -⟩ := hK k hk
      have := (List.getElem?_eq_some_iff.1 h1).1
      simp at this
      omega
    have hK' := ih s1 t1 hu.run (K.erase l.length) (fun k hk => by
      obtain ⟨hne, hk⟩ := mem_erase.1 hk
      have hlt : k < l.length := lt_of_le_of_ne (hlast k hk) hne
      obtain ⟨i, t, Gr, h1, h2, h3⟩ := hK k hk
      rw [List.getElem?_append_left hlt] at h1
      rw [List.take_append_of_le_length hlt.le] at h2
      exact ⟨i, t, Gr, h1, h2, h3⟩)
    by_cases hmem : l.length ∈ K
    · obtain ⟨i, t', Gr, g1, g2, g3, g4⟩ := hK _ hmem
      rw [List.getElem?_append_right le_rfl, Nat.sub_self] at g1
      simp only [List.getElem?_cons_zero, Option.some.injEq] at g1
      subst g1
      rw [List.take_append_of_le_length le_rfl, List.take_length, hu.run] at g2
      cases g2
      have hM : 2 * L * teamCost p.r p.d E u.estimate ≤ 2 * L * teamCost p.r p.d E s.estimate := by
        refine mul_le_mul_of_nonneg_left ?_ (by positivity)
        have : (0 : ℝ) ≤ (K.erase l.length).card * (c * ε ^ 2) := by positivity
        linarith
      have hpg := hu.progress hd hp hl hrtr hit hπ hdec hL0 hc0 hε htol (teamCost_nonneg hpr hw)
        (NetInv.stays hd hp hl hrtr hst h hfe hm s1 hu) hM hE (hL i s2) s2 t2
        g3 g4 h2
      rw [card_erase_of_mem hmem] at hK'
      have hpos : 1 ≤ K.card := card_pos.2 ⟨_, hmem⟩
      rw [Nat.cast_sub hpos, Nat.cast_one] at hK'
      linarith
    · rw [erase_eq_of_notMem hmem] at hK'
      have := hu.descent hd hp hl hrtr ho hE s2 t2 h2
      linarith

/-- In an endless timely schedule, from some point on every robot that optimises finds its projected gradient below
the tolerance (or any larger bound). -/
theorem C80_settles (hd : 0 < p.d) (hp : p.acceleration = false) (hl : p.robust.costType = .L2)
    (hrtr : p.localOpt.method = .RTR) (hit : p.localOpt.RTRIterations ≠ 1) (ho : ∀ c, LawfulRtr (o.opt c))
    {π : PoseProj} (hπ : ∀ c, ActsPosewise π (o.opt c)) {L c ε : ℝ} (hL0 : 0 < L) (hc0 : 0 < c) (hε : 0 < ε)
    (htol : p.localOpt.gradnormTol ≤ ε)
    (hst : ∀ k, StaysOnManifold (o.opt k))
    (hdec : ∀ k, Decreasing p.localOpt L (2 * L * teamCost p.r p.d E s.estimate) c (o.opt k))
    (hE : ∀ m ∈ E, m.r1 < N ∧ m.r2 < N) (hpr : Precise E) (hw : ∀ m ∈ E, 0 ≤ m.weight)
    (h : ∀ i < N, OnDuty o p E i (s.agents i))
    (hfe : ∀ i < N, Orthonormal p.r p.d (s.agents i).graph.n (s.agents i).X) (hL : ∀ i < N, SmoothFor p.r p.d (s.agents i).graph.n E i L)
    (hm : s.mail = []) (sched : Nat → NetOp)
    (hs : ∀ k, Sound N (Clock.after ((List.range k).map sched)) (sched k))
    (ht : ∀ k, Timely E (Clock.after ((List.range k).map sched)) (sched k)) :
    ∃ k₀, ∀ k ≥ k₀, ∀ i t Gr, sched k = .iterate i true → netRun o s ((List.range k).map sched) = ok t →
      IsBlockGradient p.r p.d (s.agents i).graph.n E t.estimate i Gr →
      Real.sqrt (slopeSq π p.r p.d (s.agents i).graph.n (t.estimate i) Gr) < ε := by
  by_contra hno
  push Not at hno
  have hacc : p.acceleration = true → AccelOk p := fun c => by rw [hp] at c; cases c
  have always : ∀ {P : Clock → NetOp → Prop}, (∀ k, P (Clock.after ((List.range k).map sched)) (sched k)) →
      ∀ k, Always P ((List.range k).map sched) := by
    intro P hP k
    induction k with
    | zero => exact Always.nil P
    | succ k ih =>
      rw [List.range_succ, List.map_append, List.map_cons, List.map_nil]
      exact Always.snoc ih (hP k)
  let S : Set Nat := {k | ∃ i t Gr, sched k = .iterate i true ∧ netRun o s ((List.range k).map sched) = ok t ∧
      IsBlockGradient p.r p.d (s.agents i).graph.n E t.estimate i Gr ∧
      ε ≤ Real.sqrt (slopeSq π p.r p.d (s.agents i).graph.n (t.estimate i) Gr)}
  have hinf : S.Infinite := by
    rw [Set.infinite_iff_exists_gt]
    intro a
    obtain ⟨k, hk, i, t, Gr, h1, h2, h3, h4⟩ := hno (a + 1)
    exact ⟨k, ⟨i, t, Gr, h1, h2, h3, h4⟩, hk⟩
  obtain ⟨m, hm'⟩ := exists_nat_gt (teamCost p.r p.d E s.estimate / (c * ε ^ 2))
  obtain ⟨K, hKS, hKm⟩ := hinf.exists_subset_card_eq m
  obtain ⟨b, hb⟩ : ∃ b, ∀ k ∈ K, k < b := ⟨K.sup _root_.id + 1, fun k hk => Nat.lt_succ_of_le (le_sup (f := _root_.id) hk)⟩
  obtain ⟨t, et, -⟩ := C79_total hd hl hacc h hm (always hs b)
  have := C80_budget hd hp hl hrtr hit ho hπ hL0 hc0.le hε.le htol hst hdec hE hpr hw h hfe hL hm (always hs b) (always ht b)
    et K fun k hk => by
      obtain ⟨i, t, Gr, h1, h2, h3, h4⟩ := hKS hk
      refine ⟨i, t, Gr, ?_, ?_, h3, h4⟩
      · rw [List.getElem?_map, List.getElem?_range (hb k hk), Option.map_some, h1]
      · rw [← List.map_take, List.take_range, min_eq_left (hb k hk).le]
        exact h2
  have hpos := teamCost_nonneg (r := p.r) (d := p.d) hpr hw t.estimate
  rw [div_lt_iff₀ (by positivity)] at hm'
  rw [hKm] at this
  linarith

end

/-! ### The demo -/

section
variable {o : AgentOracles} {oc : OptOracles} {q : Example.Options} {d N n : Nat} {D : List (Meas ℝ)}

/-- The cost of every dataset is smooth. -/
theorem C80_dataset_smooth (r : Nat) (hD : Dataset d n D) :
    ∃ L, 0 < L ∧ ∀ V : DMat ℝ, V.rows = r → V.cols = n * (d + 1) →
      2 * teamCost r d D (fun _ => V) ≤ L * V.normSq := by
  refine ⟨curvature r d D, curvature_pos r d D, fun V v1 v2 => ?_⟩
  have key : ∀ i < n, ∀ ρ < r, ∀ c < d + 1, |V.v ρ (i * (d + 1) + c)| ≤ Real.sqrt V.normSq := by
    intro i hi ρ hρ c hc
    refine Real.abs_le_sqrt (entry_sq_le (by rw [v1]; exact hρ) ?_)
    rw [v2]
    have : (i + 1) * (d + 1) ≤ n * (d + 1) := Nat.mul_le_mul_right _ hi
    lia
  have := teamCost_le (r := r) (d := d) (E := D) (X := fun _ => V) (Real.sqrt_nonneg _) fun m hm =>
    ⟨key _ (Example.ends_below hD hm).1.1, key _ (Example.ends_below hD hm).1.2⟩
  rwa [Real.sq_sqrt (normSq_nonneg V)] at this

/-- The demo converges: for up to a hundred robots, without acceleration and with a decreasing solver, the number of
lines it prints is bounded by the cost of its initial guess; given enough iterations, the last gradient norm is below
0.1. -/
theorem C80_demo (hN : 2 ≤ N) (hN' : N ≤ 100) (hNn : 2 * N ≤ n) (hn : n * (d + 1) < 2 ^ 32) (hD : Dataset d n D)
    (hrd : d ≤ q.r) (hacc : q.acceleration = false) (ho : LawfulLsq o.qr) (hq : q.numIters < 2 ^ 32)
    (hsvd : LawfulSvd o.svd) (hY : OrthoCols (o.stiefel d q.r)) (hst : ∀ c, StaysOnManifold (o.opt c))
    (hlaw : ∀ c, LawfulRtr (o.opt c)) {π : PoseProj} (hπ : ∀ c, ActsPosewise π (o.opt c)) (hπc : ActsPosewise π oc)
    {L c f₀ : ℝ} (hL0 : 0 < L) (hc0 : 0 < c) (hdec : ∀ k, Decreasing OptParams.default L (2 * L * f₀) c (o.opt k))
    (hL : ∀ V : DMat ℝ, V.rows = q.r → V.cols = n * (d + 1) → 2 * teamCost q.r d D (fun _ => V) ≤ L * V.normSq)
    {T : PArr ℝ} (hT : chordalInitialization o.svd o.qr D = ok T)
    (hf : f₀ = teamCost q.r d D (fun _ => (DMat.ofMat (o.stiefel d q.r)).mul T.X))
    (junk : Nat → Nat → ℝ) {s : Example.LoopState} (e : Example.demo o oc q junk (N : Int) n D = ok s) :
    s.lines.length ≤ 1 + 100 * N * f₀ / c ∧
      (1 + 100 * N * f₀ / c < q.numIters → ∃ l, s.lines.getLast? = some l ∧ l.gradnorm < 1 / 10) := by
  have h0 : 0 < N := by omega
  have hac : q.acceleration = true → u32 (2 * N) ≠ 0 := fun c => by rw [hacc] at c; cases c
  have hpos : 0 ≤ f₀ := by
    rw [hf]
    exact teamCost_nonneg hD.precise (fun m hm => by rw [hD.unit m hm]; exact zero_le_one) _
  have hNr : (0 : ℝ) < N := by exact_mod_cast h0
  have hlen : (s.lines.length : ℝ) ≤ 1 + 100 * N * f₀ / c := by
    obtain ⟨s₀, s', e₀, e', h1, -, -⟩ := Example.demo_total (oc := oc) h0 hNn hn hD hrd hac ho hq junk
    rw [e] at e'
    cases e'
    rw [h1]
    by_cases hne : s₀.lines = []
    · rw [hne]
      simp only [List.length_nil, Nat.cast_zero]
      positivity
    · have := Example.lines_budget hN hN' hNn hn hD hrd hacc ho hsvd hY hst hπ hπc hdec hL0 hc0.le hL hlaw (k := q.numIters) hq hT hf
        (s := s₀) e₀ hne
      have hc := teamCost_nonneg (r := q.r) (d := d) (E := D.map (relabel (Example.place N (n / N)))) (by
          intro m hm
          obtain ⟨x, hx, rfl⟩ := List.mem_map.1 hm
          exact hD.precise x hx) (by
          intro m hm
          obtain ⟨x, -, rfl⟩ := List.mem_map.1 hm
          exact zero_le_one) (Example.estimates s₀.agents)
      have hle : ((s₀.lines.length : ℝ) - 1) * (c / (100 * N)) ≤ f₀ := by linarith
      rw [← le_div_iff₀ (by positivity)] at hle
      have : f₀ / (c / (100 * N)) = 100 * N * f₀ / c := by field_simp
      rw [this] at hle
      linarith
  refine ⟨hlen, fun hlt => ?_⟩
  exact (C68_output h0 hNn hn hD hrd hac ho hq junk e).2.2.2.2 (by exact_mod_cast hlen.trans_lt hlt)

end

/-! ### Examples -/

/-- A solver that makes one gradient step. -/
noncomputable def exStepping (L : ℝ) : AgentOracles := { exOracle with opt := fun _ => stepOracle L exOpt }

/-- The hypotheses of the schedules hold for two robots with gradient steps, and the first robot that moves finds a
steep gradient. -/
example : ∃ (o : AgentOracles) (L ε : ℝ) (s t : Net) (ops : List NetOp), 0 < L ∧ 0 < ε ∧
    (∀ c, LawfulRtr (o.opt c)) ∧ (∀ c, ActsPosewise shiftProj (o.opt c)) ∧
    (∀ c, StaysOnManifold (o.opt c)) ∧
    (∀ c, Decreasing exKeen.localOpt L (2 * L * teamCost 3 2 exJoined s.estimate) (1 / (2 * L)) (o.opt c)) ∧
    (∀ i < 2, Orthonormal 3 2 (s.agents i).graph.n (s.agents i).X) ∧
    (∀ i < 2, OnDuty o exKeen exJoined i (s.agents i)) ∧ s.mail = [] ∧
    (∀ i < 2, SmoothFor 3 2 (s.agents i).graph.n exJoined i L) ∧
    Always (Sound 2) ops ∧ Always (Timely exJoined) ops ∧ netRun o s ops = ok t ∧
    Steep o exKeen exJoined shiftProj ε s ops 2 ∧
    teamCost 3 2 exJoined t.estimate + 1 / (2 * L) * ε ^ 2 ≤ teamCost 3 2 exJoined s.estimate := by
  obtain ⟨L, hL0, hsm⟩ : ∃ L, 0 < L ∧ ∀ i, SmoothFor 3 2 2 exJoined i L := by
    refine C80_smooth 3 2 exJoined (fun _ => 2) fun i m hm x hx => ?_
    have h : x = m.p1 ∨ x = m.p2 := by
      unfold ownIndices at hx
      rcases List.mem_append.1 hx with h | h <;> split at h <;> simp_all
    have h1 : m.p1 < 2 ∧ m.p2 < 2 := by
      fin_cases hm <;> simp [exI]
    show x < 2
    omega
  obtain ⟨s, hs, hm, x0, x1, hn⟩ := exJoined_team (exStepping L) 0 3
  have hE : ∀ m ∈ exJoined, m.r1 < 2 ∧ m.r2 < 2 := by
    intro m hm
    fin_cases hm <;> simp [exI]
  have hpr : Precise exJoined := by
    intro m hm
    fin_cases hm <;> simp [exI]
  have hw : ∀ m ∈ exJoined, 0 ≤ m.weight := by
    intro m hm
    fin_cases hm <;> simp [exI]
  have hP : ∀ i j, Partners exJoined i j → (i = 0 ∧ j = 1) ∨ (i = 1 ∧ j = 0) := by
    rintro i j ⟨hij, m, hm, h⟩
    fin_cases hm <;> simp [exI] at h <;> omega
  let l : List NetOp := [.send 1 none, .deliver 0 0]
  have q1 : Always (Sound 2) l := by
    refine Always.snoc (l := [_]) (Always.snoc (l := []) (Always.nil _) ?_) ?_
    · exact ⟨by omega, by simp⟩
    · exact ⟨by omega, (1, none, 0), rfl, by simp⟩
  have q2 : Always (Sound 2) (l ++ [.iterate 0 true]) := Always.snoc q1 (show 0 < 2 by omega)
  have ht : Timely exJoined (Clock.after l) (.iterate 0 true) := by
    intro j hj
    obtain ⟨-, rfl⟩ | ⟨h, -⟩ := hP _ _ hj
    · rfl
    · cases h
  have r2 : Always (Timely exJoined) (l ++ [.iterate 0 true]) := by
    refine Always.snoc (Always.snoc (l := [_]) (Always.snoc (l := []) (Always.nil _) ?_) ?_) ht
    all_goals exact trivial
  have hacc : exKeen.acceleration = true → AccelOk exKeen := fun c => by cases c
  obtain ⟨u, hu⟩ := NetInv.all (o := exStepping L) (by decide) rfl hacc hs hm q1
  obtain ⟨t, e, -⟩ := C79_total (o := exStepping L) (by decide) rfl hacc hs hm q2
  have same : ∀ j, u.estimate j = s.estimate j := by
    intro j
    have := hu.still rfl j (s.agents j).X ⟨[], s, List.nil_prefix, rfl, by
      show 0 = (Clock.after l).moves j
      rfl, rfl⟩
    unfold Net.estimate
    rw [this]
  obtain ⟨k, hk⟩ := hu.member 0 (by omega)
  obtain ⟨b, a', ea, -, -, -⟩ := hk.iterate (by decide) rfl hacc true
  have hlaw : ∀ c, LawfulRtr ((exStepping L).opt c) := fun _ => stepOracle_lawful L exOpt
  have hπ : ∀ c, ActsPosewise shiftProj ((exStepping L).opt c) := fun _ => stepOracle_posewise L exOpt
  have hman : ∀ c, StaysOnManifold ((exStepping L).opt c) := fun _ => stepOracle_manifold L exOpt
  have hdec : ∀ M c, Decreasing exKeen.localOpt L M (1 / (2 * L)) ((exStepping L).opt c) :=
    fun M _ => stepOracle_decreasing hL0 _ M exOpt
  have hrot : ∀ (x : ℝ) (n : Nat), n = 2 → Orthonormal 3 2 n ⟨3, 2, n, exAt x⟩ := by
    rintro x n rfl i hi
    have : rotM 3 2 ⟨3, 2, 2, exAt x⟩ i = Matrix.of fun (a : Fin 3) (c : Fin 2) => if a.1 = c.1 then 1 else 0 := by
      ext a c
      interval_cases i <;> fin_cases a <;> fin_cases c <;> simp [rotM, exAt]
    rw [this]
    ext a c
    fin_cases a <;> fin_cases c <;> simp [Matrix.mul_apply, Fin.sum_univ_three]
  have hfe : ∀ i < 2, Orthonormal 3 2 (s.agents i).graph.n (s.agents i).X := by
    intro i hi
    have : ∃ x, (s.agents i).X.X = exAt x := by
      interval_cases i
      · exact ⟨_, x0⟩
      · exact ⟨_, x1⟩
    obtain ⟨x, hx⟩ := this
    have := hrot x _ (hn i hi)
    rw [← hx] at this
    exact this
  have hsm' : ∀ i < 2, SmoothFor 3 2 (s.agents i).graph.n exJoined i L := fun i hi => by rw [hn i hi]; exact hsm i
  obtain ⟨Gr, hG, -⟩ := hk.progress (by decide) rfl rfl rfl (show (3 : Int) ≠ 1 by decide) hπ (hdec _) hL0
    (teamCost_nonneg hpr hw) (sh := fun i => (s.agents i).graph.n) (X := u.estimate) le_rfl (hsm' 0 (by omega))
    rfl
    (by rw [same 0]; exact hfe 0 (by omega)) (hu.upToDate rfl hE (by omega) ht hk) ea
  -- the gradient does not vanish: moving to the other robot is better
  have hslope : 0 < slopeSq shiftProj 3 2 (s.agents 0).graph.n (u.estimate 0) Gr := by
    refine lt_of_le_of_ne (slopeSq_nonneg ..) fun hz => ?_
    obtain ⟨g1, g2, g3⟩ := hG
    have hsl := slope_eq (stepOracle_posewise L exOpt) (r := 3) (d := 2) (n := (s.agents 0).graph.n)
      (X := u.estimate 0) (Gr := Gr)
    rw [← hz] at hsl
    have hdot : Gr.dot ((exAt 3).sub (exAt 0)) = 0 := by
      unfold DMat.dot
      refine sum_eq_zero fun ρ hρ => sum_eq_zero fun j hj => ?_
      rw [mem_range, g1] at hρ
      rw [mem_range, g2] at hj
      by_cases hc : j % 3 = 2
      · have h1 : (DMat.ofMat (shift 3 2 (s.agents 0).graph.n (Gr.toMat 3 _))).v ρ j =
            if j % (2 + 1) = 2 then Gr.v ρ j else 0 := dif_pos ⟨hρ, hj⟩
        have h2 := entry_sq_le (V := DMat.ofMat (shift 3 2 (s.agents 0).graph.n (Gr.toMat 3 _))) (ρ := ρ) (j := j) hρ hj
        rw [h1, if_pos hc, show (DMat.ofMat (shift 3 2 (s.agents 0).graph.n (Gr.toMat 3 _))).normSq = 0 from hsl] at h2
        rw [pow_eq_zero_iff (n := 2) (by norm_num) |>.1 (le_antisymm h2 (sq_nonneg _)), zero_mul]
      · unfold DMat.sub exAt
        simp [hc]
    have hb := g3 ((exAt 3).sub (exAt 0)) rfl (by rw [hn 0 (by omega)]; rfl)
    rw [hdot] at hb
    have hc1 : teamCost 3 2 exJoined (Function.update u.estimate 0 ((u.estimate 0).add ((exAt 3).sub (exAt 0)))) =
        (3 - 3) ^ 2 / 2 := by
      refine exJoined_cost _ 3 3 ?_ ?_
      · rw [Function.update_self, same 0, show s.estimate 0 = exAt 0 from x0]
        unfold DMat.add DMat.sub
        show DMat.mk 3 6 _ = exAt 3
        unfold exAt
        congr 1
        funext i j
        ring
      · rw [Function.update_of_ne (by omega), same 1]
        exact x1
    have hc2 : teamCost 3 2 exJoined u.estimate = (0 - 3) ^ 2 / 2 :=
      exJoined_cost _ 0 3 (by rw [same 0]; exact x0) (by rw [same 1]; exact x1)
    have hc3 := teamCost_nonneg (r := 3) (d := 2) hpr hw (only 0 ((exAt 3).sub (exAt 0)))
    have hb' : teamCost 3 2 exJoined (Function.update u.estimate 0 ((u.estimate 0).add ((exAt 3).sub (exAt 0)))) =
      teamCost 3 2 exJoined u.estimate + 0 + teamCost 3 2 exJoined (only 0 ((exAt 3).sub (exAt 0))) := hb
    rw [hc1, hc2] at hb'
    norm_num at hb'
    linarith
  have hst : Steep (exStepping L) exKeen exJoined shiftProj
      (Real.sqrt (slopeSq shiftProj 3 2 (s.agents 0).graph.n (u.estimate 0) Gr)) s
      (l ++ [.iterate 0 true]) 2 := ⟨0, u, Gr, rfl, hu.run, hG, le_rfl⟩
  refine ⟨exStepping L, L, _, s, t, _, hL0, Real.sqrt_pos.2 hslope, hlaw, hπ, hman, fun c => hdec _ c, hfe, hs, hm, hsm', q2, r2, e,
    hst, ?_⟩
  have := C80_budget (by decide) rfl rfl rfl (show (3 : Int) ≠ 1 by decide) hlaw hπ hL0 (by positivity)
    (Real.sqrt_nonneg _) (Real.sqrt_nonneg _) hman (fun c => hdec _ c) hE hpr hw hs hfe hsm' hm q2 r2 e {2} (fun k hk => by
      rw [mem_singleton.1 hk]; exact hst)
  have h1 : ((({2} : Finset ℕ).card : ℕ) : ℝ) = 1 := by rw [card_singleton]; norm_num
  rw [h1, one_mul] at this
  exact this

/-- The hypotheses of the demo hold for the square over two robots with gradient steps. -/
example : ∃ (o : AgentOracles) (oc : OptOracles) (s : Example.LoopState) (T : PArr ℝ) (L f₀ : ℝ),
    LawfulLsq o.qr ∧ LawfulSvd o.svd ∧ OrthoCols (o.stiefel 2 5) ∧ (∀ c, LawfulRtr (o.opt c)) ∧
    (∀ c, StaysOnManifold (o.opt c)) ∧ (∀ c, Decreasing OptParams.default L (2 * L * f₀) (1 / (2 * L)) (o.opt c)) ∧
    chordalInitialization o.svd o.qr exSquare = ok T ∧
    f₀ = teamCost 5 2 exSquare (fun _ => (DMat.ofMat (o.stiefel 2 5)).mul T.X) ∧
    Example.demo o oc { Example.Options.shipped with acceleration := false } (fun _ _ => 7) 2 4 exSquare = ok s ∧
    s.lines ≠ [] ∧ s.lines.length ≤ 1 + 100 * (2 : ℕ) * f₀ / (1 / (2 * L)) := by
  obtain ⟨svd, hsvd⟩ := exists_lawfulSvd
  obtain ⟨qr, hq⟩ := exists_lawfulLsq
  obtain ⟨L, hL0, hL⟩ := C80_dataset_smooth 5 exSquare_dataset
  let o : AgentOracles := { exDemo svd qr with opt := fun _ => stepOracle L exOpt }
  have hlaw : ∀ c, LawfulRtr (o.opt c) := fun _ => stepOracle_lawful L exOpt
  have hY : OrthoCols (o.stiefel 2 5) := by
    have : o.stiefel 2 5 = Matrix.of fun (a : Fin 5) (c : Fin 2) => if a.1 = c.1 then 1 else 0 := rfl
    rw [this]
    unfold OrthoCols
    ext i j
    fin_cases i <;> fin_cases j <;> simp [Matrix.mul_apply, Fin.sum_univ_five]
  obtain ⟨s, e⟩ := C68_runs (o := o) (oc := stepOracle L exOpt)
    (q := { Example.Options.shipped with acceleration := false }) (N := 2) (n := 4) (by omega)
    (by omega) (by norm_num) exSquare_dataset (by decide) (by decide) hq (by decide) (fun _ _ => 7)
  obtain ⟨T, hT, -, -⟩ := C69_descent (o := o) (oc := stepOracle L exOpt)
    (q := { Example.Options.shipped with acceleration := false }) (N := 2) (n := 4) (by omega) (by omega) (by norm_num)
    exSquare_dataset (by decide) (by decide) hq (by decide) rfl hlaw _ e
  have hb := C80_demo (o := o) (oc := stepOracle L exOpt) (q := { Example.Options.shipped with acceleration := false })
    (N := 2) (n := 4) (by omega) (by omega) (by omega) (by norm_num) exSquare_dataset (by decide) rfl hq (by decide) hsvd
    hY (fun _ => stepOracle_manifold L exOpt) hlaw (fun _ => stepOracle_posewise L exOpt) (stepOracle_posewise L exOpt) hL0 (c := 1 / (2 * L)) (by positivity)
    (fun _ => stepOracle_decreasing hL0 _ _ exOpt) hL hT rfl _ e
  refine ⟨o, stepOracle L exOpt, s, T, L, _, hq, hsvd, hY, hlaw, fun _ => stepOracle_manifold L exOpt,
    fun _ => stepOracle_decreasing hL0 _ _ exOpt, hT, rfl, e, ?_, hb.1⟩
  intro hnil
  have := (C68_output (o := o) (oc := stepOracle L exOpt) (q := { Example.Options.shipped with acceleration := false })
    (N := 2) (n := 4) (by omega) (by omega) (by norm_num) exSquare_dataset (by decide) (by decide) hq (by decide) _
    e).2.2.2.2 (by rw [hnil]; decide)
  rw [hnil] at this
  obtain ⟨l, hl, -⟩ := this
  cases hl

end Dpgo.Props
