import Verif.Lemmas.AsyncPrecond
import Verif.Props.Convergence

/-! # C82: gradient steps with stale messages -/

namespace Dpgo.Props

open Res Spec PoseGraph Finset

section
variable {o : AgentOracles} {p : AgentParams} {E : List (Meas ℝ)} {N : Nat} {s : Net}

/-- **C82.** Robots that take gradient steps with poses of their neighbours that may be outdated, as long as all
optimisations missed are among the last `B` of the team and the step is small enough for `B`: the cost of the team
stays below its initial value, and every optimisation at which the projected gradient is at least `ε` uses up a fixed
part of it. -/
theorem C82_budget (hd : 0 < p.d) (hp : p.acceleration = false) (hl : p.robust.costType = .L2)
    (hrgd : p.localOpt.method = .RGD) (hpre : p.localOpt.RGDUsePreconditioner = false)
    (hfs : FeasibleSolver o p) {π : PoseProj} (hπ : ∀ c, ActsPosewise π (o.opt c))
    {L α β ε : ℝ} (hL0 : 0 < L) (hα : 0 ≤ α) (hβ : 0 ≤ β) (ht : ∀ c, Tame α β (o.opt c)) {B : Nat} (hε : 0 ≤ ε)
    (hγ : 0 < p.localOpt.RGDStepsize)
    (hsm : p.localOpt.RGDStepsize *
      (β * Real.sqrt (2 * L * teamCost p.r p.d E s.estimate) + α ^ 2 * L / 2 + L * α * B) ≤ 1 / 2)
    (hE : ∀ m ∈ E, m.r1 < N ∧ m.r2 < N) (hpr : Precise E) (hw : ∀ m ∈ E, 0 ≤ m.weight)
    (h : ∀ i < N, OnDuty o p E i (s.agents i))
    (hfe : ∀ i < N, Orthonormal p.r p.d (s.agents i).graph.n (s.agents i).X)
    (hL : ∀ i < N, SmoothFor p.r p.d (s.agents i).graph.n E i L) (hm : s.mail = [])
    {ops : List NetOp} (hs : Always (Sound N) ops) (hr : Throughout (Recent E B) ops)
    {t : Net} (e : netRun o s ops = ok t) (K : Finset Nat) (hK : ∀ k ∈ K, Steep o p E π ε s ops k) :
    teamCost p.r p.d E t.estimate + K.card * (p.localOpt.RGDStepsize / 5 * ε ^ 2) ≤
      teamCost p.r p.d E s.estimate := by
  have hy := asyncHyp_plain hd hp hl hrgd hpre hfs hπ hL0 hα hβ ht hγ hsm hE hpr hw hL
  obtain ⟨H, hH⟩ := AsyncInv.all hy hε rfl h hm hfe hs hr e
  have := hH.budget hy K hK
  norm_num at this
  linarith

/-- In an endless schedule of this kind, from some point on every robot that optimises does so where its projected
gradient is below any given bound. -/
theorem C82_settles (hd : 0 < p.d) (hp : p.acceleration = false) (hl : p.robust.costType = .L2)
    (hrgd : p.localOpt.method = .RGD) (hpre : p.localOpt.RGDUsePreconditioner = false)
    (hfs : FeasibleSolver o p) {π : PoseProj} (hπ : ∀ c, ActsPosewise π (o.opt c))
    {L α β ε : ℝ} (hL0 : 0 < L) (hα : 0 ≤ α) (hβ : 0 ≤ β) (ht : ∀ c, Tame α β (o.opt c)) {B : Nat} (hε : 0 < ε)
    (hγ : 0 < p.localOpt.RGDStepsize)
    (hsm : p.localOpt.RGDStepsize *
      (β * Real.sqrt (2 * L * teamCost p.r p.d E s.estimate) + α ^ 2 * L / 2 + L * α * B) ≤ 1 / 2)
    (hE : ∀ m ∈ E, m.r1 < N ∧ m.r2 < N) (hpr : Precise E) (hw : ∀ m ∈ E, 0 ≤ m.weight)
    (h : ∀ i < N, OnDuty o p E i (s.agents i))
    (hfe : ∀ i < N, Orthonormal p.r p.d (s.agents i).graph.n (s.agents i).X)
    (hL : ∀ i < N, SmoothFor p.r p.d (s.agents i).graph.n E i L) (hm : s.mail = []) (sched : Nat → NetOp)
    (hs : ∀ k, Sound N (Clock.after ((List.range k).map sched)) (sched k))
    (hr : ∀ k, Recent E B ((List.range k).map sched) (sched k)) :
    ∃ k₀, ∀ k ≥ k₀, ∀ i t Gr, sched k = .iterate i true → netRun o s ((List.range k).map sched) = ok t →
      IsBlockGradient p.r p.d (s.agents i).graph.n E t.estimate i Gr →
      Real.sqrt (slopeSq π p.r p.d (s.agents i).graph.n (t.estimate i) Gr) < ε :=
  (asyncHyp_plain hd hp hl hrgd hpre hfs hπ hL0 hα hβ ht hγ hsm hE hpr hw hL).settles hε rfl h hm hfe sched hs hr

/-- **C82.** With the preconditioner (the default), for steps a tenth as long and with another share per step, if
solving with the preconditioner is exact; it does not matter whether or when factorisations succeed. -/
theorem C82_preconditioned (hd : 0 < p.d) (hp : p.acceleration = false) (hl : p.robust.costType = .L2)
    (hrgd : p.localOpt.method = .RGD) (hpre : p.localOpt.RGDUsePreconditioner = true)
    (hfs : FeasibleSolver o p) {π : PoseProj} (hπ : ∀ c, ActsPosewise π (o.opt c))
    {L α β : ℝ} (hL0 : 0 < L) (hα : 0 ≤ α) (hβ : 0 ≤ β) (ht : ∀ c, Tame α β (o.opt c))
    (hex : ∀ c, ExactSolve (o.opt c)) {B : Nat} (hγ : 0 < p.localOpt.RGDStepsize)
    (hsm : p.localOpt.RGDStepsize *
      (β * Real.sqrt (2 * L * teamCost p.r p.d E s.estimate) + α ^ 2 * L / 2 + L * α * B) ≤ 1 / 20)
    (hE : ∀ m ∈ E, m.r1 < N ∧ m.r2 < N) (hpr : Precise E) (hw : ∀ m ∈ E, 0 ≤ m.weight)
    (h : ∀ i < N, OnDuty o p E i (s.agents i))
    (hfe : ∀ i < N, Orthonormal p.r p.d (s.agents i).graph.n (s.agents i).X)
    (hL : ∀ i < N, SmoothFor p.r p.d (s.agents i).graph.n E i L) (hm : s.mail = []) :
    (∀ ε ≥ 0, ∀ ops, Always (Sound N) ops → Throughout (Recent E B) ops → ∀ t, netRun o s ops = ok t →
      ∀ K : Finset Nat, (∀ k ∈ K, Steep o p E π ε s ops k) →
      teamCost p.r p.d E t.estimate + K.card * (p.localOpt.RGDStepsize / (40 * (L + 1) ^ 2 + 1 / 10) * ε ^ 2) ≤
        teamCost p.r p.d E s.estimate) ∧
    (∀ ε > 0, ∀ sched : Nat → NetOp, (∀ k, Sound N (Clock.after ((List.range k).map sched)) (sched k)) →
      (∀ k, Recent E B ((List.range k).map sched) (sched k)) →
      ∃ k₀, ∀ k ≥ k₀, ∀ i t Gr, sched k = .iterate i true → netRun o s ((List.range k).map sched) = ok t →
        IsBlockGradient p.r p.d (s.agents i).graph.n E t.estimate i Gr →
        Real.sqrt (slopeSq π p.r p.d (s.agents i).graph.n (t.estimate i) Gr) < ε) := by
  have hy := asyncHyp_preconditioned hd hp hl hrgd hpre hfs hπ hL0 hα hβ ht hex hγ hsm hE hpr hw hL
  refine ⟨fun ε hε ops hs hr t e K hK => ?_, fun ε hε sched hs hr => hy.settles hε rfl h hm hfe sched hs hr⟩
  obtain ⟨H, hH⟩ := AsyncInv.all hy hε rfl h hm hfe hs hr e
  have := hH.budget hy K hK
  rwa [show p.localOpt.RGDStepsize * (1 / 10) / (4 * (L + 1) ^ 2 + (1 / 10) ^ 2) =
    p.localOpt.RGDStepsize / (40 * (L + 1) ^ 2 + 1 / 10) by field_simp; ring] at this

/-- Timely schedules are admitted, and so is any delay below the bound. -/
theorem C82_timely {ops : List NetOp} {B B' : Nat} : (Always (Timely E) ops → Throughout (Recent E B) ops) ∧
    (B ≤ B' → Throughout (Recent E B) ops → Throughout (Recent E B') ops) := by
  constructor
  · intro h before op after e
    have := h before op after e
    cases op with
    | iterate i b =>
      cases b with
      | true => exact fun j hj => ⟨_, this j hj, Nat.le_add_right _ _⟩
      | false => trivial
    | send => trivial
    | deliver => trivial
  · intro hB h before op after e
    have := h before op after e
    cases op with
    | iterate i b =>
      cases b with
      | true =>
        intro j hj
        obtain ⟨v, h1, h2⟩ := this j hj
        exact ⟨v, h1, h2.trans (Nat.add_le_add_left
          (List.Sublist.count_le j (List.take_sublist_take_left hB)) _)⟩
      | false => trivial
    | send => trivial
    | deliver => trivial

/-- The manifold of poses, with the orthogonal projection to its tangent spaces and the retraction by polar
decomposition, is as assumed. -/
theorem C82_manifold {svd : SvdOracle} (hsvd : LawfulSvd svd) (oo : OptOracles) :
    Tame 2 (1 / 2) (onManifold svd oo) ∧ ActsPosewise tangent (onManifold svd oo) ∧
      RetractsToManifold (onManifold svd oo) :=
  ⟨onManifold_tame hsvd oo, onManifold_posewise svd oo, onManifold_retracts hsvd oo⟩

end

/-! ### Examples -/

/-- Gradient steps on the manifold, with an exact preconditioner. -/
noncomputable def exGliding (svd : SvdOracle) : AgentOracles :=
  { exOracle with opt := fun _ => onManifold svd (inverting exOpt) }

/-- Step size for steps with delay one from cost `9 / 2`. -/
noncomputable def exShort (L : ℝ) : ℝ :=
  1 / 20 / (1 / 2 * Real.sqrt (2 * L * (9 / 2)) + 2 ^ 2 * L / 2 + L * 2 * (1 : Nat))

/-- Gradient steps. -/
noncomputable def exGlide (b : Bool) (L : ℝ) : OptParams :=
  { OptParams.default with method := .RGD, RGDUsePreconditioner := b, RGDStepsize := exShort L }

/-- The hypotheses hold for two robots that step at the same time, the second without knowing of the step of the
first, with and without preconditioner; the first step is steep. -/
example : ∀ b : Bool, ∃ (svd : SvdOracle) (L ε : ℝ) (s t : Net) (ops : List NetOp), 0 < L ∧ 0 < ε ∧ LawfulSvd svd ∧
    FeasibleSolver (exGliding svd) { exParams with localOpt := exGlide b L } ∧
    (∀ c, ActsPosewise tangent ((exGliding svd).opt c)) ∧ (∀ c, Tame 2 (1 / 2) ((exGliding svd).opt c)) ∧
    (∀ c, ExactSolve ((exGliding svd).opt c)) ∧ 0 < exShort L ∧
    exShort L * (1 / 2 * Real.sqrt (2 * L * teamCost 3 2 exJoined s.estimate) + 2 ^ 2 * L / 2 + L * 2 * (1 : Nat)) ≤
      1 / 20 ∧
    (∀ i < 2, Orthonormal 3 2 (s.agents i).graph.n (s.agents i).X) ∧
    (∀ i < 2, OnDuty (exGliding svd) { exParams with localOpt := exGlide b L } exJoined i (s.agents i)) ∧
    s.mail = [] ∧ (∀ i < 2, SmoothFor 3 2 (s.agents i).graph.n exJoined i L) ∧
    Always (Sound 2) ops ∧ Throughout (Recent exJoined 1) ops ∧ ¬ Always (Timely exJoined) ops ∧
    netRun (exGliding svd) s ops = ok t ∧
    Steep (exGliding svd) { exParams with localOpt := exGlide b L } exJoined tangent ε s ops 4 ∧
    teamCost 3 2 exJoined t.estimate < teamCost 3 2 exJoined s.estimate := by
  intro b
  obtain ⟨svd, hsvd⟩ := exists_lawfulSvd
  obtain ⟨L, hL0, hsm⟩ : ∃ L, 0 < L ∧ ∀ i, SmoothFor 3 2 2 exJoined i L := by
    refine C80_smooth 3 2 exJoined (fun _ => 2) fun i m hm x hx => ?_
    have h : x = m.p1 ∨ x = m.p2 := by
      unfold ownIndices at hx
      rcases List.mem_append.1 hx with h | h <;> split at h <;> simp_all
    have h1 : m.p1 < 2 ∧ m.p2 < 2 := by
      fin_cases hm <;> simp [exI]
    show x < 2
    omega
  obtain ⟨s, hs, hm, x0, x1, hn⟩ := exJoined_team_with (exGliding svd) (exGlide b L) 0 3
  have hE : ∀ m ∈ exJoined, m.r1 < 2 ∧ m.r2 < 2 := by
    intro m hm
    fin_cases hm <;> simp [exI]
  have hpr : Precise exJoined := by
    intro m hm
    fin_cases hm <;> simp [exI]
  have hw : ∀ m ∈ exJoined, 0 ≤ m.weight := by
    intro m hm
    fin_cases hm <;> simp [exI]
  have hP : ∀ i j, Partners exJoined i j → (i = 0 ∧ j = 1) ∨ (i = 1 ∧ j = 0) := by
    rintro i j ⟨hij, m, hm, h⟩
    fin_cases hm <;> simp [exI] at h <;> omega
  have hcost : teamCost 3 2 exJoined s.estimate = 9 / 2 := by
    rw [exJoined_cost _ 0 3 x0 x1]
    norm_num
  have hden : 0 < 1 / 2 * Real.sqrt (2 * L * (9 / 2)) + 2 ^ 2 * L / 2 + L * 2 * (1 : Nat) := by positivity
  have hγ : 0 < exShort L := by
    unfold exShort
    positivity
  have hsmall : exShort L * (1 / 2 * Real.sqrt (2 * L * teamCost 3 2 exJoined s.estimate) + 2 ^ 2 * L / 2 +
      L * 2 * (1 : Nat)) ≤ 1 / 20 := by
    rw [hcost]
    unfold exShort
    rw [div_mul_cancel₀ _ hden.ne']
  let l : List NetOp := [.send 1 none, .deliver 0 0, .send 0 none, .deliver 1 1]
  have q1 : Always (Sound 2) l := by
    refine Always.snoc (l := [_, _, _]) (Always.snoc (l := [_, _]) (Always.snoc (l := [_])
      (Always.snoc (l := []) (Always.nil _) ?_) ?_) ?_) ?_
    · exact ⟨by omega, by simp⟩
    · exact ⟨by omega, (1, none, 0), rfl, by simp⟩
    · exact ⟨by omega, by simp⟩
    · exact ⟨by omega, (0, none, 0), rfl, by simp⟩
  have q2 : Always (Sound 2) ((l ++ [.iterate 0 true]) ++ [.iterate 1 true]) :=
    Always.snoc (Always.snoc q1 (show 0 < 2 by omega)) (show 1 < 2 by omega)
  have t1 : Timely exJoined (Clock.after l) (.iterate 0 true) := by
    intro j hj
    obtain ⟨-, rfl⟩ | ⟨h, -⟩ := hP _ _ hj
    · rfl
    · cases h
  have r2 : Throughout (Recent exJoined 1) ((l ++ [.iterate 0 true]) ++ [.iterate 1 true]) := by
    refine Throughout.snoc (Throughout.snoc (Throughout.snoc (ops := [_, _, _]) (Throughout.snoc (ops := [_, _])
      (Throughout.snoc (ops := [_]) (Throughout.snoc (ops := []) (Throughout.nil _) ?_) ?_) ?_) ?_) ?_) ?_
    · trivial
    · trivial
    · trivial
    · trivial
    · exact fun j hj => ⟨_, t1 j hj, Nat.le_add_right _ _⟩
    · intro j hj
      obtain ⟨h, -⟩ | ⟨-, rfl⟩ := hP _ _ hj
      · cases h
      · exact ⟨0, rfl, by decide⟩
  have r3 : ¬ Always (Timely exJoined) ((l ++ [.iterate 0 true]) ++ [.iterate 1 true]) := by
    intro h
    have := h _ _ [] rfl 0 ⟨by decide, exI 0 1 1 0, by simp [exJoined], Or.inr ⟨rfl, rfl⟩⟩
    revert this
    decide
  have hacc : AgentParams.acceleration { exParams with localOpt := exGlide b L } = true →
      AccelOk { exParams with localOpt := exGlide b L } := fun c => by cases c
  obtain ⟨u, hu⟩ := NetInv.all (o := exGliding svd) (show 0 < 2 by decide) rfl hacc hs hm q1
  obtain ⟨t, e, -⟩ := C79_total (o := exGliding svd) (show 0 < 2 by decide) rfl hacc hs hm q2
  have same : ∀ j, u.estimate j = s.estimate j := by
    intro j
    have := hu.still rfl j (s.agents j).X ⟨[], s, List.nil_prefix, rfl, by
      show 0 = (Clock.after l).moves j
      rfl, rfl⟩
    unfold Net.estimate
    rw [this]
  obtain ⟨k, hk⟩ := hu.member 0 (by omega)
  obtain ⟨w, a', ea, -, -, -⟩ := hk.iterate (show 0 < 2 by decide) rfl hacc true
  obtain ⟨ht, hπ, hre⟩ := C82_manifold hsvd (inverting exOpt)
  have hex : ExactSolve (onManifold svd (inverting exOpt)) := inverting_exact exOpt
  have hrot : ∀ (x : ℝ) (n : Nat), n = 2 → Orthonormal 3 2 n ⟨3, 2, n, exAt x⟩ := by
    rintro x n rfl i hi
    have : rotM 3 2 ⟨3, 2, 2, exAt x⟩ i = Matrix.of fun (a : Fin 3) (c : Fin 2) => if a.1 = c.1 then 1 else 0 := by
      ext a c
      interval_cases i <;> fin_cases a <;> fin_cases c <;> simp [rotM, exAt]
    rw [this]
    ext a c
    fin_cases a <;> fin_cases c <;> simp [Matrix.mul_apply, Fin.sum_univ_three]
  have hfe : ∀ i < 2, Orthonormal 3 2 (s.agents i).graph.n (s.agents i).X := by
    intro i hi
    have : ∃ x, (s.agents i).X.X = exAt x := by
      interval_cases i
      · exact ⟨_, x0⟩
      · exact ⟨_, x1⟩
    obtain ⟨x, hx⟩ := this
    have := hrot x _ (hn i hi)
    rw [← hx] at this
    exact this
  have hsm' : ∀ i < 2, SmoothFor 3 2 (s.agents i).graph.n exJoined i L := fun i hi => by rw [hn i hi]; exact hsm i
  have hfs : FeasibleSolver (exGliding svd) { exParams with localOpt := exGlide b L } :=
    ⟨fun h => absurd h (by rintro (h | h) <;> cases h), fun _ _ => hre⟩
  -- some gradient
  obtain ⟨Gr, hG⟩ : ∃ Gr, IsBlockGradient 3 2 (s.agents 0).graph.n exJoined u.estimate 0 Gr := by
    have hfe0 : Orthonormal 3 2 (s.agents 0).graph.n (u.agents 0).X := by
      have := hrot 0 _ (hn 0 (by omega))
      rw [← show (u.agents 0).X.X = exAt 0 from (same 0).trans x0] at this
      exact this
    cases b with
    | false =>
      obtain ⟨V, Gr, hg⟩ := hk.gradient (show 0 < 2 by decide) rfl rfl rfl rfl hγ.le (fun _ => hπ) (fun _ => ht)
        (X := u.estimate) rfl hfe0 (hu.upToDate rfl hE (by omega) t1 hk) ea
      exact ⟨Gr, hg.grad⟩
    | true =>
      obtain ⟨V, Gr, hg⟩ := hk.preconditioned (show 0 < 2 by decide) rfl rfl rfl rfl hγ.le (fun _ => hπ) (fun _ => ht)
        (fun _ => hex) hL0 (teamCost_nonneg hpr hw) (hsm' 0 (by omega))
        (X := u.estimate) rfl hfe0 (hu.upToDate rfl hE (by omega) t1 hk) ea
      exact ⟨Gr, hg.grad⟩
  -- it does not vanish: moving to the other robot is better
  have hslope : 0 < slopeSq tangent 3 2 (s.agents 0).graph.n (u.estimate 0) Gr := by
    refine lt_of_le_of_ne (slopeSq_nonneg ..) fun hz => ?_
    obtain ⟨g1, g2, g3⟩ := hG
    have hdot : Gr.dot ((exAt 3).sub (exAt 0)) = 0 := by
      unfold DMat.dot
      refine sum_eq_zero fun ρ hρ => sum_eq_zero fun j hj => ?_
      rw [mem_range, g1] at hρ
      rw [mem_range, g2] at hj
      by_cases hc : j % 3 = 2
      · have h1 := (sum_eq_zero_iff_of_nonneg fun k _ => sum_nonneg fun ρ _ => sum_nonneg fun c _ => sq_nonneg _).1
          hz.symm (j / 3) (mem_range.2 (by omega))
        have h2 := (sum_eq_zero_iff_of_nonneg fun ρ _ => sum_nonneg fun c _ => sq_nonneg _).1 h1 ⟨ρ, hρ⟩ (mem_univ _)
        have h3 := (sum_eq_zero_iff_of_nonneg fun c _ => sq_nonneg _).1 h2 (Fin.last 2) (mem_univ _)
        have h4 : Gr.v ρ j = 0 := by
          have := pow_eq_zero_iff (n := 2) (by norm_num) |>.1 h3
          have h5 : tangent 3 2 (poseOf 3 2 (u.estimate 0) (j / 3)) (poseOf 3 2 Gr (j / 3)) ⟨ρ, hρ⟩ (Fin.last 2) =
              Gr.v ρ (j / 3 * 3 + 2) := by
            unfold tangent mkPose
            rw [Matrix.of_apply, Fin.lastCases_last]
            rfl
          rw [this] at h5
          rw [show j = j / 3 * 3 + 2 by omega]
          exact h5.symm
        rw [h4, zero_mul]
      · unfold DMat.sub exAt
        simp [hc]
    have hb := g3 ((exAt 3).sub (exAt 0)) rfl (by rw [hn 0 (by omega)]; rfl)
    rw [hdot] at hb
    have hc1 : teamCost 3 2 exJoined (Function.update u.estimate 0 ((u.estimate 0).add ((exAt 3).sub (exAt 0)))) =
        (3 - 3) ^ 2 / 2 := by
      refine exJoined_cost _ 3 3 ?_ ?_
      · rw [Function.update_self, same 0, show s.estimate 0 = exAt 0 from x0]
        unfold DMat.add DMat.sub
        show DMat.mk 3 6 _ = exAt 3
        unfold exAt
        congr 1
        funext i j
        ring
      · rw [Function.update_of_ne (by omega), same 1]
        exact x1
    have hc2 : teamCost 3 2 exJoined u.estimate = (0 - 3) ^ 2 / 2 :=
      exJoined_cost _ 0 3 (by rw [same 0]; exact x0) (by rw [same 1]; exact x1)
    have hc3 := teamCost_nonneg (r := 3) (d := 2) hpr hw (only 0 ((exAt 3).sub (exAt 0)))
    rw [hc1, hc2] at hb
    norm_num at hb
    linarith
  have hst : Steep (exGliding svd) { exParams with localOpt := exGlide b L } exJoined tangent
      (Real.sqrt (slopeSq tangent 3 2 (s.agents 0).graph.n (u.estimate 0) Gr)) s
      ((l ++ [.iterate 0 true]) ++ [.iterate 1 true]) 4 := ⟨0, u, Gr, rfl, hu.run, hG, le_rfl⟩
  have hε := Real.sqrt_pos.2 hslope
  refine ⟨svd, L, _, s, t, _, hL0, hε, hsvd, hfs, fun _ => hπ, fun _ => ht, fun _ => hex, hγ, hsmall, hfe, hs, hm, hsm',
    q2, r2, r3, e, hst, ?_⟩
  have h1 : ((({4} : Finset ℕ).card : ℕ) : ℝ) = 1 := by rw [card_singleton]; norm_num
  have hK : ∀ k ∈ ({4} : Finset ℕ), Steep (exGliding svd) { exParams with localOpt := exGlide b L } exJoined tangent
      (Real.sqrt (slopeSq tangent 3 2 (s.agents 0).graph.n (u.estimate 0) Gr)) s
      ((l ++ [.iterate 0 true]) ++ [.iterate 1 true]) k := fun k hk => by
    rw [mem_singleton.1 hk]; exact hst
  cases b with
  | false =>
    have := C82_budget (show 0 < 2 by decide) rfl rfl rfl rfl hfs (fun _ => hπ) hL0 (by norm_num) (by norm_num)
      (fun _ => ht) hε.le hγ (hsmall.trans (by norm_num)) hE hpr hw hs hfe hsm' hm q2 r2 e {4} hK
    rw [h1, one_mul] at this
    have h2 : 0 < exShort L / 5 * Real.sqrt (slopeSq tangent 3 2 (s.agents 0).graph.n (u.estimate 0) Gr) ^ 2 := by
      positivity
    exact lt_of_lt_of_le (lt_add_of_pos_right _ h2) this
  | true =>
    have := (C82_preconditioned (show 0 < 2 by decide) rfl rfl rfl rfl hfs (fun _ => hπ) hL0 (by norm_num)
      (by norm_num) (fun _ => ht) (fun _ => hex) hγ hsmall hE hpr hw hs hfe hsm' hm).1 _ hε.le _ q2 r2 t e {4} hK
    rw [h1, one_mul] at this
    have h2 : 0 < exShort L / (40 * (L + 1) ^ 2 + 1 / 10) *
        Real.sqrt (slopeSq tangent 3 2 (s.agents 0).graph.n (u.estimate 0) Gr) ^ 2 := by
      positivity
    exact lt_of_lt_of_le (lt_add_of_pos_right _ h2) this

end Dpgo.Props
