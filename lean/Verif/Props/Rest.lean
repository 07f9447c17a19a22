import Verif.Lemmas.RestAccel
import Verif.Props.Schedule
import Verif.Props.Demo
import Verif.Props.Examples
import Verif.Props.Main

/-! # C90: converged robots stay where they are -/

namespace Dpgo.Props

open Res Spec PoseGraph Example

section
variable {o : AgentOracles} {p : AgentParams} {E : List (Meas ℝ)} {N : Nat} {s t : Net} {ops : List NetOp}

/-- **C90.** If the projected gradient of every robot is below the tolerance of its solver, no robot ever moves: not
under any schedule, however late, often or out of order messages arrive, and not before they arrive. -/
theorem C90_rest (hd : 0 < p.d) (hp : p.acceleration = false) (hl : p.robust.costType = .L2)
    (hrtr : p.localOpt.method = .RTR) (h : ∀ i < N, OnDuty o p E i (s.agents i)) (hm : s.mail = [])
    (hst : ∀ i < N, TrueStore p.r p.d s.estimate (s.agents i))
    (hset : ∀ i < N, Settled o p E s.estimate i (s.agents i).graph.n) (hs : Always (Sound N) ops) :
    ∃ t, netRun o s ops = ok t ∧ ∀ i, (t.agents i).X = (s.agents i).X := by
  obtain ⟨t, ht, -⟩ := C79_total hd hl (fun c => by rw [hp] at c; cases c) h hm hs
  exact ⟨t, ht, (NetInv.rest hd hp hl hrtr h hm hst hset hs ops t List.prefix_rfl ht).1⟩

/-- **C90.** In particular, a team whose estimates agree with all its measurements keeps them. -/
theorem C90_exact (hd : 0 < p.d) (hp : p.acceleration = false) (hl : p.robust.costType = .L2)
    (hrtr : p.localOpt.method = .RTR) (htol : 0 < p.localOpt.gradnormTol) (hz : ∀ c, KeepsZero (o.opt c))
    (hE : Precise E) (hw : ∀ m ∈ E, 0 ≤ m.weight)
    (h : ∀ i < N, OnDuty o p E i (s.agents i)) (hm : s.mail = [])
    (hst : ∀ i < N, TrueStore p.r p.d s.estimate (s.agents i)) (h0 : teamCost p.r p.d E s.estimate = 0)
    (hs : Always (Sound N) ops) :
    ∃ t, netRun o s ops = ok t ∧ ∀ i, (t.agents i).X = (s.agents i).X := by
  refine C90_rest hd hp hl hrtr h hm hst (fun i _ c Gr hG => ?_) hs
  rw [norm_projected_zero (hz c) hG.1 hG.2.1 (blockGradient_zero (teamCost_nonneg hE hw) h0 hG)]
  exact htol

end

/-! ### The multi-robot example -/

section
variable {o : AgentOracles} {oc : OptOracles} {q : Options} {d N n : Nat} {D : List (Meas ℝ)}
  {Rs : Nat → Matrix (Fin d) (Fin d) ℝ} {ts : Nat → Fin d → ℝ}

/-- **C90.** For noise-free measurements the multi-robot example, without acceleration, prints a single line, with
cost 0 and gradient norm 0, and stops. -/
theorem C90_demo (hN : 2 ≤ N) (hNn : 2 * N ≤ n) (hn : n * (d + 1) < 2 ^ 32) (hD : Dataset d n D) (hrd : d ≤ q.r)
    (hq : 0 < q.numIters) (hq' : q.numIters < 2 ^ 32) (hno : q.acceleration = false) (hx : NoiseFree d n D Rs ts)
    (hs : LawfulSvd o.svd) (ho : LawfulLsq o.qr) (hrtr : ∀ c, LawfulRtr (o.opt c)) (hz : KeepsZero oc)
    (junk : Nat → Nat → ℝ) :
    ∃ s, demo o oc q junk (N : Int) n D = ok s ∧ s.lines = [⟨0, 0, 0, 0⟩] := by
  have hN0 : 0 < N := by omega
  have hacc : q.acceleration = true → u32 (2 * N) ≠ 0 := fun c => by rw [hno] at c; cases c
  obtain ⟨s, e⟩ := C68_runs (o := o) (oc := oc) hN0 hNn hn hD hrd hacc ho hq' junk
  refine ⟨s, e, ?_⟩
  obtain ⟨T, eT, -, hle⟩ := C69_descent (oc := oc) hN0 hNn hn hD hrd hacc ho hq' hno hrtr junk e
  obtain ⟨T', eT', -, hT⟩ := C64_exact hs ho hD.dim (chordalWF hD.toOneRobot hD.precise) hD.num hx.pos
    (linked_dataset hD) Rs ts hx.rot hx.R hx.t
  rw [eT] at eT'
  cases eT'
  have h0 : teamCost q.r d D (fun _ => (DMat.ofMat (o.stiefel d q.r)).mul T.X) = 0 :=
    lifted_zero rfl (truth_satisfied hx hT hD.num.1)
  rw [h0, mul_zero] at hle
  exact exact_lines hN hNn hn hD hrd hacc ho hq hq' hz e fun l hl => hle l (List.mem_of_getElem? hl)

/-- **C90.** The first iteration of the example as shipped, with acceleration, does not make the initial guess worse:
the momentum sequences start at the guess, so the robot that moves first takes a plain trust-region step. -/
theorem C90_first_round (hN : 0 < N) (hNn : 2 * N ≤ n) (hn : n * (d + 1) < 2 ^ 32) (hD : Dataset d n D) (hrd : d ≤ q.r)
    (hq' : q.numIters < 2 ^ 32) (hyes : q.acceleration = true) (hacc : u32 (2 * N) ≠ 0)
    (hs : LawfulSvd o.svd) (ho : LawfulLsq o.qr) (hY : OrthoCols (o.stiefel d q.r))
    (hrtr : ∀ c, LawfulRtr (o.opt c)) {junk : Nat → Nat → ℝ} {s : LoopState}
    (e : demo o oc q junk (N : Int) n D = ok s) :
    ∃ T, chordalInitialization o.svd o.qr D = ok T ∧ ∀ l, s.lines[0]? = some l →
      l.cost ≤ 2 * teamCost q.r d D (fun _ => (DMat.ofMat (o.stiefel d q.r)).mul T.X) :=
  first_line hN hNn hn hD hrd hyes hacc ho hs hY hrtr hq' e

/-- **C90.** For noise-free measurements the multi-robot example as shipped, with acceleration, prints a single line,
with cost 0 and gradient norm 0, and stops. -/
theorem C90_demo_accelerated (hN : 2 ≤ N) (hNn : 2 * N ≤ n) (hn : n * (d + 1) < 2 ^ 32) (hD : Dataset d n D)
    (hrd : d ≤ q.r) (hq : 0 < q.numIters) (hq' : q.numIters < 2 ^ 32) (hyes : q.acceleration = true)
    (hacc : u32 (2 * N) ≠ 0) (hx : NoiseFree d n D Rs ts) (hs : LawfulSvd o.svd) (ho : LawfulLsq o.qr)
    (hY : OrthoCols (o.stiefel d q.r)) (hrtr : ∀ c, LawfulRtr (o.opt c)) (hz : KeepsZero oc)
    (junk : Nat → Nat → ℝ) :
    ∃ s, demo o oc q junk (N : Int) n D = ok s ∧ s.lines = [⟨0, 0, 0, 0⟩] := by
  have hN0 : 0 < N := by omega
  obtain ⟨s, e⟩ := C68_runs (o := o) (oc := oc) hN0 hNn hn hD hrd (fun _ => hacc) ho hq' junk
  refine ⟨s, e, ?_⟩
  obtain ⟨T, eT, hle⟩ := C90_first_round hN0 hNn hn hD hrd hq' hyes hacc hs ho hY hrtr e
  obtain ⟨T', eT', -, hT⟩ := C64_exact hs ho hD.dim (chordalWF hD.toOneRobot hD.precise) hD.num hx.pos
    (linked_dataset hD) Rs ts hx.rot hx.R hx.t
  rw [eT] at eT'
  cases eT'
  have h0 : teamCost q.r d D (fun _ => (DMat.ofMat (o.stiefel d q.r)).mul T.X) = 0 :=
    lifted_zero rfl (truth_satisfied hx hT hD.num.1)
  rw [h0, mul_zero] at hle
  exact exact_lines hN hNn hn hD hrd (fun _ => hacc) ho hq hq' hz e hle

end

open Text Spec.G2o in
/-- **C90.** If the edges of a pose-graph file agree with a trajectory, the multi-robot example, started on the file
with or without acceleration, prints a single line, with cost 0 and gradient norm 0. -/
theorem C90_program {o : AgentOracles} {files : Files} {d n : Nat} {es : List Entry} {text prog name : Str}
    {oc : OptOracles} {q : Options} (h : GraphFile d n es text) (hf : files name = some text)
    (hs : LawfulSvd o.svd) (ho : LawfulLsq o.qr) (hY : OrthoCols (o.stiefel d q.r)) (hrtr : ∀ c, LawfulRtr (o.opt c))
    (hz : KeepsZero oc) {N : Nat} (hN : 2 ≤ N) (hNn : 2 * N ≤ n) (hn : n * (d + 1) < 2 ^ 32) (hrd : d ≤ q.r)
    (hq : 0 < q.numIters) (hq' : q.numIters < 2 ^ 32) {Rs : Nat → Matrix (Fin d) (Fin d) ℝ} {ts : Nat → Fin d → ℝ}
    (hx : ∀ D, List.Forall₂ Says (es.filter Entry.isEdge) D → NoiseFree d n D Rs ts)
    {w rest : Str} (hw : IndexText N w) (hr : ∀ c t, rest = c :: t → c.isDigit = false)
    (junk : Nat → Nat → ℝ) (more : List Str) :
    ∃ s, mainMulti o oc q junk files (prog :: (w ++ rest) :: name :: more) = ok (.done s) ∧
      s.lines = [⟨0, 0, 0, 0⟩] := by
  obtain ⟨D, s, hsays, hD, e, em, -⟩ := C88_multi (oc := oc) (q := q) (prog := prog) h hf ho (by omega) hNn hn hrd hq'
    hw hr junk more
  have hsm := h.small
  have hacc : u32 (2 * N) ≠ 0 := by
    have : u32 (2 * N) = 2 * N := Nat.mod_eq_of_lt (by omega)
    omega
  refine ⟨s, em, ?_⟩
  have key : ∃ s, demo o oc q junk (N : Int) n D = ok s ∧ s.lines = [⟨0, 0, 0, 0⟩] := by
    cases hb : q.acceleration with
    | true => exact C90_demo_accelerated hN hNn hn hD hrd hq hq' hb hacc (hx D hsays) hs ho hY hrtr hz junk
    | false => exact C90_demo hN hNn hn hD hrd hq hq' hb (hx D hsays) hs ho hrtr hz junk
  obtain ⟨s', e', hl⟩ := key
  rw [e] at e'
  cases e'
  exact hl

/-! ### Examples -/

/-- The team of two robots of `exJoined_team_with`, before any message. -/
theorem exRest_team (o : AgentOracles) (q : OptParams) (x y : ℝ) :
    ∃ s : Net, (∀ i < 2, OnDuty o { exParams with localOpt := q } exJoined i (s.agents i)) ∧ s.mail = [] ∧
      (s.agents 0).X.X = exAt x ∧ (s.agents 1).X.X = exAt y ∧ ∀ i < 2, (s.agents i).neighborPoses = [] := by
  have one : ∀ i < 2, ∀ z : ℝ, ∃ a, OnDuty o { exParams with localOpt := q } exJoined i a ∧ a.X.X = exAt z ∧
      a.neighborPoses = [] := by
    intro i hi z
    obtain ⟨n, hn, ⟨m, hm, x, hx, hn'⟩, h⟩ := C79_start (o := o) (p := { exParams with localOpt := q })
      (E := exJoined) (i := i) (show 2 ≤ 3 by decide) rfl rfl (exJoined_equips i hi) (Y := DMat.one 3 2) rfl rfl
    have : n = 2 := by
      have h1 : x ≤ 1 := by
        interval_cases i <;> fin_cases hm <;> simp [ownIndices, exI] at hx <;> omega
      have h2 : 1 < n := by
        interval_cases i
        · exact hn (exI 0 0 0 1) (by simp [exJoined]) 1 (by simp [ownIndices, exI])
        · exact hn (exI 1 1 0 1) (by simp [exJoined]) 1 (by simp [ownIndices, exI])
      omega
    subst this
    obtain ⟨_, _, _, _, a, e0, e1, e2, e3, e4, h1, h2, -⟩ := h exTwo (exAt z) exTwo_ok (by
      rw [show AgentParams.d { exParams with localOpt := q } = 2 from rfl, exTwo_rot, Matrix.det_one]
      exact one_ne_zero) rfl rfl
    refine ⟨a, h1, h2, fresh_store ?_ e0 e1 e2 e3 e4⟩
    intro m hm
    simp only [List.mem_append, List.mem_filter] at hm
    exact (exJoined_equips i hi).wf m (by tauto)
  obtain ⟨a, a1, a2, a3⟩ := one 0 (by omega) x
  obtain ⟨b, b1, b2, b3⟩ := one 1 (by omega) y
  refine ⟨⟨fun i => if i = 0 then a else b, []⟩, ?_, rfl, a2, b2, ?_⟩
  · intro i hi
    interval_cases i
    · exact a1
    · exact b1
  · intro i hi
    interval_cases i
    · exact a3
    · exact b3

/-- Non-vacuity of the first two theorems: two robots whose estimates agree with the three edges between them, under
a schedule in which robot 1 optimises before it has heard of robot 0 and again after a message sent before. -/
example : ∃ (o : AgentOracles) (p : AgentParams) (s t : Net), p.localOpt.gradnormTol = 1 / 100 ∧
    (∀ i < 2, OnDuty o p exJoined i (s.agents i)) ∧ (s.agents 0).X.X = exAt 3 ∧
    netRun o s [.send 0 none, .iterate 1 true, .iterate 0 true, .deliver 1 0, .iterate 1 true] = ok t ∧
    ∀ i, (t.agents i).X = (s.agents i).X := by
  let q : OptParams := { OptParams.default with gradnormTol := 1 / 100 }
  obtain ⟨s, hs, hm, x0, x1, hn⟩ := exRest_team exOracle q 3 3
  have hs5 : Always (Sound 2) [.send 0 none, .iterate 1 true, .iterate 0 true, .deliver 1 0, .iterate 1 true] := by
    have := Always.snoc (op := .iterate 1 true) (Always.snoc (op := .deliver 1 0) (Always.snoc (op := .iterate 0 true)
      (Always.snoc (op := .iterate 1 true) (Always.snoc (op := .send 0 none) (Always.nil (Sound 2)) ?_) ?_) ?_) ?_) ?_
    · exact this
    · exact ⟨by omega, by simp⟩
    · exact (show 1 < 2 by omega)
    · exact (show 0 < 2 by omega)
    · exact ⟨by omega, (0, none, 0), rfl, by simp⟩
    · exact (show 1 < 2 by omega)
  obtain ⟨t, ht, h⟩ := C90_exact (o := exOracle) (p := { exParams with localOpt := q }) (E := exJoined) (N := 2)
    (by decide) rfl rfl rfl (show (0 : ℝ) < 1 / 100 by norm_num) (fun _ _ _ _ _ => rfl)
    (by intro m hm; fin_cases hm <;> simp [exI]) (by intro m hm; fin_cases hm <;> simp [exI]) hs hm
    (fun i hi => TrueStore.fresh (hn i hi))
    ((exJoined_cost _ 3 3 x0 x1).trans (by norm_num)) hs5
  exact ⟨_, _, s, t, rfl, hs, x0, ht, h⟩

/-- Non-vacuity of the theorems on the example as shipped: the unit square. -/
example : ∃ o : AgentOracles, ∃ s, demo o exOpt Options.shipped (fun _ _ => 7) 2 4 exSquare = ok s ∧
    s.lines = [⟨0, 0, 0, 0⟩] := by
  obtain ⟨svd, hs⟩ := exists_lawfulSvd
  obtain ⟨qr, hq⟩ := exists_lawfulLsq
  have ho : LawfulLsq (exDemo svd qr).qr := hq
  have hs' : LawfulSvd (exDemo svd qr).svd := hs
  have hr : ∀ c, LawfulRtr ((exDemo svd qr).opt c) := fun _ => exOpt_lawful
  have hz : KeepsZero exOpt := fun _ _ _ _ => rfl
  have hY : OrthoCols ((exDemo svd qr).stiefel 2 5) := by
    have : (exDemo svd qr).stiefel 2 5 = Matrix.of fun (a : Fin 5) (c : Fin 2) => if a.1 = c.1 then 1 else 0 := rfl
    rw [this]
    unfold OrthoCols
    ext i j
    fin_cases i <;> fin_cases j <;> simp [Matrix.mul_apply, Fin.sum_univ_five]
  obtain ⟨s, e, h⟩ := C90_demo_accelerated (o := exDemo svd qr) (oc := exOpt) (q := Options.shipped)
    (N := 2) (n := 4) (by omega) (by omega) (by norm_num) exSquare_dataset (by decide) (by decide) (by decide) rfl
    (by decide) exSquare_noiseFree hs' ho hY hr hz (fun _ _ => 7)
  exact ⟨exDemo svd qr, s, e, h⟩

/-- Non-vacuity of the theorem on files: four poses on a line. -/
example : ∃ (o : AgentOracles) (files : Files) (s : LoopState), files "line.g2o".toList = some exLineText ∧
    mainMulti o exOpt Options.shipped (fun _ _ => 7) files ["multi".toList, "2".toList, "line.g2o".toList] =
      ok (.done s) ∧ s.lines = [⟨0, 0, 0, 0⟩] := by
  obtain ⟨svd, hs⟩ := exists_lawfulSvd
  obtain ⟨qr, hq⟩ := exists_lawfulLsq
  have ho : LawfulLsq (exDemo svd qr).qr := hq
  have hs' : LawfulSvd (exDemo svd qr).svd := hs
  have hr : ∀ c, LawfulRtr ((exDemo svd qr).opt c) := fun _ => exOpt_lawful
  have hz : KeepsZero exOpt := fun _ _ _ _ => rfl
  have hY : OrthoCols ((exDemo svd qr).stiefel 2 5) := by
    have : (exDemo svd qr).stiefel 2 5 = Matrix.of fun (a : Fin 5) (c : Fin 2) => if a.1 = c.1 then 1 else 0 := rfl
    rw [this]
    unfold OrthoCols
    ext i j
    fin_cases i <;> fin_cases j <;> simp [Matrix.mul_apply, Fin.sum_univ_five]
  obtain ⟨s, e, h⟩ := C90_program (o := exDemo svd qr) (oc := exOpt) (q := Options.shipped)
    (files := fun _ => some exLineText) (prog := "multi".toList) (name := "line.g2o".toList) exLine_file rfl hs' ho hY
    hr hz (N := 2) (by norm_num) (by norm_num) (by norm_num) (by norm_num [Options.shipped])
    (by norm_num [Options.shipped]) (by norm_num [Options.shipped]) exLine_exact (w := ['2']) (rest := [])
    (digit_index '2' (by decide)) (by simp) (fun _ _ => 7) []
  exact ⟨exDemo svd qr, fun _ => some exLineText, s, rfl, e, h⟩

/-- Non-vacuity of the theorem on the example without acceleration: the unit square. -/
example : ∃ o : AgentOracles, ∃ s, demo o exOpt { Options.shipped with acceleration := false } (fun _ _ => 7) 2 4
    exSquare = ok s ∧ s.lines = [⟨0, 0, 0, 0⟩] := by
  obtain ⟨svd, hs⟩ := exists_lawfulSvd
  obtain ⟨qr, hq⟩ := exists_lawfulLsq
  have ho : LawfulLsq (exDemo svd qr).qr := hq
  have hs' : LawfulSvd (exDemo svd qr).svd := hs
  have hr : ∀ c, LawfulRtr ((exDemo svd qr).opt c) := fun _ => exOpt_lawful
  have hz : KeepsZero exOpt := fun _ _ _ _ => rfl
  obtain ⟨s, e, h⟩ := C90_demo (o := exDemo svd qr) (oc := exOpt) (q := { Options.shipped with acceleration := false })
    (N := 2) (n := 4) (by omega) (by omega) (by norm_num) exSquare_dataset (by decide) (by decide) (by decide) rfl
    exSquare_noiseFree hs' ho hr hz (fun _ _ => 7)
  exact ⟨exDemo svd qr, s, e, h⟩

end Dpgo.Props
