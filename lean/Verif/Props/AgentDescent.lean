import Verif.Lemmas.Descent
import Verif.Lemmas.AgentStale
import Verif.Props.AgentMessages

/-!
# C75: a step does not make the estimate worse
-/

namespace Dpgo.Props

open Res Spec PoseGraph

variable {o : AgentOracles} {ID : Nat} {p : AgentParams} {a a' : Agent}

/-- **C75** (one iteration).  Without acceleration, as long as weights and priors were changed only while
nothing was cached: an iteration does not increase the cost of the estimate, with the neighbours where they
said they are; and it does not change what the cost is. -/
theorem C75_step (hd : 0 < p.d) (hC : ∀ k k', (o.opt k).chol = (o.opt k').chol)
    (hp : p.acceleration = false) (hm : p.localOpt.method = .RTR) (ho : ∀ k, LawfulRtr (o.opt k))
    {t : List Ev} (h : Hist o ID p t a) (hk : CarefulHist t) {doOpt s : Bool}
    (e : a.iterate o doOpt = ok (s, a')) :
    seenCost a' a'.X.X ≤ seenCost a a.X.X ∧ ∀ X, seenCost a' X = seenCost a X := by
  have hi := agReach_inv h.reach
  have hf := (careful_current (C := (o.opt 0).chol) hd (fun k => hC k 0) h hk).1
  refine ⟨?_, iterate_seen e⟩
  rw [iterate_seen e]
  exact iterate_descent hd (stepReady hd h.reach hf) (by rw [hi.params]; exact hp) ho
    (by rw [hi.params]; exact hm) e

/-- **C75** (runs).  Any number of iterations in a row, in whatever of them the robot optimises. -/
theorem C75_run (hd : 0 < p.d) (hC : ∀ k k', (o.opt k).chol = (o.opt k').chol)
    (hp : p.acceleration = false) (hm : p.localOpt.method = .RTR) (ho : ∀ k, LawfulRtr (o.opt k))
    {t : List Ev} (h : Hist o ID p t a) (hk : CarefulHist t) {bs : List Bool}
    (e : iterations o a bs = ok a') :
    seenCost a' a'.X.X ≤ seenCost a a.X.X ∧ ∀ X, seenCost a' X = seenCost a X := by
  induction bs generalizing a t with
  | nil => cases e; exact ⟨le_rfl, fun _ => rfl⟩
  | cons b bs ih =>
    unfold iterations at e
    rw [Res.foldl, bind_eq_ok'] at e
    obtain ⟨a1, e1, e2⟩ := e
    rw [bind_eq_ok] at e1
    obtain ⟨⟨s, a2⟩, e1, e3⟩ := e1
    cases e3
    obtain ⟨h1, h2⟩ := C75_step hd hC hp hm ho h hk e1
    have h3 : Hist o ID p _ a1 := Hist.call (op := .iterate b) h trivial (by
      simp only [Agent.step, e1, ok_bind])
    obtain ⟨h4, h5⟩ := ih h3 (by
      intro x hx
      rcases List.mem_append.1 hx with c | c
      · exact hk x c
      · rw [List.mem_singleton.1 c]; trivial) e2
    exact ⟨h4.trans h1, fun X => (h5 X).trans (h2 X)⟩

/-- **C75** (with acceleration).  An iteration that restarts the acceleration does not increase the cost
either.  (Between restarts the accelerated method is not monotone.) -/
theorem C75_restart (hd : 0 < p.d) (hC : ∀ k k', (o.opt k).chol = (o.opt k').chol)
    (hp : p.acceleration = true) (hm : p.localOpt.method = .RTR) (ho : ∀ k, LawfulRtr (o.opt k))
    {t : List Ev} (h : Hist o ID p t a) (hk : CarefulHist t) (hs : a.state = .INITIALIZED)
    (hr : RestartsNext p a) {doOpt s : Bool} (e : a.iterate o doOpt = ok (s, a')) :
    seenCost a' a'.X.X ≤ seenCost a a.X.X := by
  have hi := agReach_inv h.reach
  have hf := (careful_current (C := (o.opt 0).chol) hd (fun k => hC k 0) h hk).1
  rw [iterate_seen e]
  exact iterate_restart_descent hd (stepReady hd h.reach hf) hs (by rw [hi.params]; exact hp)
    (by rw [hi.params]; exact hr) ho (by rw [hi.params]; exact hm) e

/-- Non-vacuity of `C75_step` and `C75_run`: robot 2 of the trio, its neighbour's pose delivered and the
matrices cached, iterates twice more. -/
example : ∃ (t : List Ev) (a a1 a2 a3 : Agent) (s1 s2 : Bool), Hist exOracle 2 (exTrio .L2) t a ∧
    CarefulHist t ∧ a.state = .INITIALIZED ∧ a.iterate exOracle true = ok (s1, a1) ∧
    a1.iterate exOracle false = ok (s2, a2) ∧ iterations exOracle a [true, false] = ok a3 ∧
    (exTrio .L2).acceleration = false ∧ (exTrio .L2).localOpt.method = .RTR ∧
    ∀ k, LawfulRtr (exOracle.opt k) := by
  obtain ⟨t, a, Q, h, hk, hQ, hs, -, -, od, pr, -, n⟩ := exCached
  have hi := agReach_inv h.reach
  have hc := agReach_cache (by decide) h.reach
  obtain ⟨h1, h2⟩ := exSecond od pr n
  obtain ⟨s1, a1, e1, -⟩ := iterate_total (o := exOracle) (by decide) hi hc hs h1 h2
    (fun c => absurd rfl c) (fun c => by cases c) true
  have h' : Hist exOracle 2 (exTrio .L2) _ a1 := Hist.call (op := .iterate true) h trivial (by
    simp only [Agent.step, e1, ok_bind])
  obtain ⟨f, sU, -⟩ := Agent.iterate_frame e1
  have bk := updating_book sU
  obtain ⟨h3, h4⟩ := exSecond (bk.odometry.trans od) (bk.privateLcs.trans pr) (bk.n.trans n)
  obtain ⟨s2, a2, e2, -⟩ := iterate_total (o := exOracle) (by decide) (agReach_inv h'.reach)
    (agReach_cache (by decide) h'.reach) (by rw [f]; exact hs) h3 h4
    (fun c => absurd rfl c) (fun c => by cases c) false
  refine ⟨t, a, a1, a2, a2, s1, s2, h, hk, hs, e1, e2, ?_, rfl, rfl, fun _ => exOpt_lawful⟩
  unfold iterations
  simp only [foldl_cons, foldl_nil, e1, e2, ok_bind, ok_bind']

/-- The accelerated robot, initialised, with the whole history at hand. -/
theorem exCalm : ∃ (t : List Ev) (a : Agent), Hist exOracle 0 exAccel t a ∧ CarefulHist t ∧
    a.state = .INITIALIZED ∧ ExGraph a.graph := by
  obtain ⟨g0, g1, g2, e0, e1, e2, hG, -⟩ := exG
  have hnew : ∃ a0, Agent.new exOracle 0 exAccel = ok a0 ∧ a0.graph = g0 ∧ a0.state = .WAIT_FOR_DATA ∧
      ∃ Y, a0.YLift = some Y := by
    obtain ⟨X, hX, -, -⟩ := PArr.make_ok (K := ℝ) (r := 3) (d := 2) (n := 1) (by omega)
    unfold Agent.new
    rw [show exAccel.r = 3 from rfl, show exAccel.d = 2 from rfl, hX, e0]
    simp only [ok_bind, if_pos, Agent.setLiftingMatrix, DMat.ofMat, beq_self_eq_true, check_true]
    exact ⟨_, rfl, rfl, rfl, _, rfl⟩
  obtain ⟨a0, n0, n1, n2, Y, n3⟩ := hnew
  have r1 := Hist.call (op := .addMeasurement (exI 0 0 0 1)) (a' := { a0 with graph := g1 }) (.new n0)
    (exAgOps_wf _ (by simp [exAgOps]))
    (by simp only [Agent.step, Agent.addMeasurement, n2, ne_eq, not_true_eq_false, if_false, n1, e1,
        ok_bind])
  have r2 := Hist.call (op := .addMeasurement (exI 0 1 1 0)) (a' := { a0 with graph := g2 }) r1
    (exAgOps_wf _ (by simp [exAgOps]))
    (by simp only [Agent.step, Agent.addMeasurement, n2, ne_eq, not_true_eq_false, if_false, e2,
        ok_bind])
  generalize ha : ({ a0 with graph := g2 } : Agent) = a at r2
  have hg : a.graph = g2 := by rw [← ha]
  have hs : a.state = .WAIT_FOR_DATA := by rw [← ha]; exact n2
  have hY : a.YLift = some Y := by rw [← ha]; exact n3
  have hi := agReach_inv r2.reach
  obtain ⟨a', S, e, -, -, -, -, hst⟩ := Agent.init_chosen (o := exOracle) (TI := some exTwo) hi hs
    (Agent.choose_supplied (a := { a with running := false }) (by rw [hg]; exact hG.d.symm)
      (by rw [hg]; exact hG.n.symm))
    (by rw [hg, hG.n]; exact exTwo_ok) (by rw [hg, hG.n]; omega)
    (by show (rotM 2 2 exTwo 0).det ≠ 0; rw [exTwo_rot]; simp) (fun c => by cases c)
    (fun _ => ⟨Y, hY⟩)
  rw [if_pos (Or.inl rfl)] at hst
  have e' : a.step exOracle (.init (some exTwo)) = ok a' := e
  have r3 := Hist.call (op := .init (some exTwo)) r2 (fun P hP => by cases hP; exact exTwo_ok) e'
  have hq := Agent.step_quiet_of hi e' (fun _ => ⟨fun _ => by simp, fun _ _ _ => by simp⟩)
  refine ⟨_, a', r3, ?_, hst, (hg ▸ hG : ExGraph a.graph).same (hq.topology (fun _ h => h))⟩
  intro x hx
  simp only [List.nil_append, List.mem_append, List.mem_singleton] at hx
  rcases hx with (rfl | rfl) | rfl <;> trivial

/-- Non-vacuity of `C75_restart`: that robot restarts in every iteration. -/
example : ∃ (t : List Ev) (a a' : Agent) (s : Bool), Hist exOracle 0 exAccel t a ∧ CarefulHist t ∧
    a.state = .INITIALIZED ∧ RestartsNext exAccel a ∧ a.iterate exOracle true = ok (s, a') ∧
    exAccel.acceleration = true ∧ exAccel.localOpt.method = .RTR := by
  obtain ⟨t, a, h, hk, hs, hG⟩ := exCalm
  obtain ⟨s, a', e, -⟩ := C66_iterate (by decide) h.reach hs hG.noSelf hG.covered
    (by simp [exAccel, exParams, AgentParams.default, RobustParams.default])
    (by intro; decide) true
  exact ⟨t, a, a', s, h, hk, hs, show u32 _ % 1 = 0 from Nat.mod_one _, e, rfl, rfl⟩

end Dpgo.Props
