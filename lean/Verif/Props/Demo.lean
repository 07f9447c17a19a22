import Verif.Lemmas.DemoGreedy
import Verif.Lemmas.DemoSingle
import Verif.Props.Solver

/-!
# The demo: C68–C70
-/

namespace Dpgo.Props

open Res Spec Example

section
variable {o : AgentOracles} {oc : OptOracles} {q : Options} {d N n : Nat} {D : List (Meas ℝ)}
  (hN : 0 < N) (hNn : 2 * N ≤ n) (hn : n * (d + 1) < 2 ^ 32) (hD : Dataset d n D) (hrd : d ≤ q.r)
  (hacc : q.acceleration = true → u32 (2 * N) ≠ 0) (ho : LawfulLsq o.qr)
include hN hNn hn hD hrd hacc ho

/-! ### C68 -/

/-- **C68.** With at least two poses per robot the demo runs to its end, whatever the trust-region solver,
the projections and the uninitialised memory do: no assertion fails, no check aborts, nothing is accessed
out of range. -/
theorem C68_runs (hq : q.numIters < 2 ^ 32) (junk : Nat → Nat → ℝ) :
    ∃ s, demo o oc q junk (N : Int) n D = ok s := by
  obtain ⟨-, s', -, e, -⟩ := demo_total (oc := oc) hN hNn hn hD hrd hacc ho hq junk
  exact ⟨s', e⟩

/-- **C68.** What it prints: one line per iteration, numbered from 0, at most `numIters` of them; it stops
early exactly when the last gradient norm is below 0.1, and never goes on after such a line. -/
theorem C68_output (hq : q.numIters < 2 ^ 32) (junk : Nat → Nat → ℝ) {s : LoopState}
    (e : demo o oc q junk (N : Int) n D = ok s) :
    s.lines.map (·.iter) = List.range s.lines.length ∧ s.lines.length ≤ q.numIters ∧
      (∀ l ∈ s.lines, l.robot < N) ∧ (∀ l ∈ s.lines.dropLast, 1 / 10 ≤ l.gradnorm) ∧
      (s.lines.length < q.numIters → ∃ l, s.lines.getLast? = some l ∧ l.gradnorm < 1 / 10) := by
  obtain ⟨s₀, s', e₀, e', h1, -, h3⟩ := demo_total (oc := oc) hN hNn hn hD hrd hacc ho hq junk
  rw [e] at e'
  cases e'
  obtain ⟨T, X, s'', -, -, e₁, h⟩ := loop_total (oc := oc) hN hNn hn hD hrd hacc ho hq junk
  rw [e₀] at e₁
  cases e₁
  rw [h1]
  refine ⟨h.iters, h.count.1, h.robots, h.early, fun hlt => ?_⟩
  have hdone : s₀.done = true := by
    by_contra c
    have := h.count.2 (by simpa using c)
    omega
  have hne := h.stopped hdone
  refine ⟨s₀.lines.getLast hne, List.getLast?_eq_getLast_of_ne_nil hne, ?_⟩
  exact (h.last _ (List.getLast?_eq_getLast_of_ne_nil hne)).2.1 hdone

/-! ### C69 -/

/-- **C69.** The cost on line `k` is the cost of the whole dataset (sum of the weighted squared residuals of
its distinct edges) at the joint estimate of the agents after `k + 1` iterations, the state reached by the
same program with `numIters` set to `k + 1`. -/
theorem C69_cost (hq : q.numIters < 2 ^ 32) (junk : Nat → Nat → ℝ) {s : LoopState}
    (e : demo o oc q junk (N : Int) n D = ok s) {k : Nat} {l : Line} (hl : s.lines[k]? = some l) :
    ∃ sk, demoLoop o oc { q with numIters := k + 1 } junk (N : Int) n D = ok sk ∧
      l.cost = 2 * teamCost q.r d D (fun _ => sk.Xopt) ∧
      ∀ i < n, ∀ ρ < q.r, ∀ c < d + 1, sk.Xopt.v ρ (i * (d + 1) + c) =
        (estimates sk.agents (owner N n i)).v ρ ((i - owner N n i * (n / N)) * (d + 1) + c) := by
  obtain ⟨s₀, s', e₀, e', h1, -, -⟩ := demo_total (oc := oc) hN hNn hn hD hrd hacc ho hq junk
  rw [e] at e'
  cases e'
  rw [h1] at hl
  obtain ⟨T, X, s'', -, -, e₁, h⟩ := loop_total (oc := oc) hN hNn hn hD hrd hacc ho hq junk
  rw [e₀] at e₁
  cases e₁
  have hk : k < s₀.lines.length := (List.getElem?_eq_some_iff.1 hl).1
  have hk' : k + 1 ≤ q.numIters := by have := h.count.1; omega
  obtain ⟨sk, ek, hsk⟩ := lines_prefix (oc := oc) (q := q) hN hNn hn hD hrd hacc ho hk' hq e₀
  obtain ⟨T', X', sk', -, -, ek', h'⟩ := loop_total (oc := oc) (q := { q with numIters := k + 1 }) hN hNn hn hD hrd
    hacc ho (show k + 1 < 2 ^ 32 by omega) junk
  rw [ek] at ek'
  cases ek'
  have hlen : sk.lines.length = k + 1 := by
    rw [hsk, List.length_take]
    omega
  have hlast : sk.lines.getLast? = some l := by
    rw [List.getLast?_eq_getElem?, hlen, hsk, List.getElem?_take]
    simpa using hl
  refine ⟨sk, ek, (h'.last l hlast).1, fun i hi ρ hρ c hc => ?_⟩
  exact h'.joins (by intro c; rw [c] at hlen; simp at hlen) i hi ρ c hρ hc

/-- **C69.** Without acceleration and with a trust-region solver that does not make its own cost worse, the
printed costs never increase, and the first is at most the cost of the lifted chordal guess. -/
theorem C69_descent (hq : q.numIters < 2 ^ 32) (hno : q.acceleration = false)
    (hrtr : ∀ c, LawfulRtr (o.opt c)) (junk : Nat → Nat → ℝ) {s : LoopState}
    (e : demo o oc q junk (N : Int) n D = ok s) :
    ∃ T, chordalInitialization o.svd o.qr D = ok T ∧
      (s.lines.map (·.cost)).Pairwise (fun x y => y ≤ x) ∧
      ∀ l ∈ s.lines, l.cost ≤ 2 * teamCost q.r d D (fun _ => (DMat.ofMat (o.stiefel d q.r)).mul T.X) := by
  obtain ⟨s₀, s', e₀, e', h1, -, -⟩ := demo_total (oc := oc) hN hNn hn hD hrd hacc ho hq junk
  rw [e] at e'
  cases e'
  obtain ⟨T, X, s'', eT, hX, e₁, h⟩ := loop_total (oc := oc) hN hNn hn hD hrd hacc ho hq junk
  rw [e₀] at e₁
  cases e₁
  obtain ⟨m1, m2, -⟩ := h.mono ⟨hno, hrtr⟩
  rw [h1]
  exact ⟨T, eT, m1, fun l hl => by rw [← hX]; exact (m2 l hl).1⟩

/-! ### C70 -/

omit hN in
/-- **C70.** The gradient norm on the last line is the norm of the Riemannian gradient (projection, at the
joint estimate, of the Euclidean gradient of the cost of the whole dataset), and if the loop goes on, the
robot selected next is the first whose part of this gradient is largest; its part carries at least a
`1/N` fraction of the squared norm. -/
theorem C70_greedy (hN2 : 2 ≤ N) {k : Nat} (hk : k + 1 < 2 ^ 32) (junk : Nat → Nat → ℝ) {s : LoopState}
    (e : demoLoop o oc { q with numIters := k + 1 } junk (N : Int) n D = ok s) :
    ∃ Gr R, IsGradient q.r d n D s.Xopt Gr ∧
      R = DMat.ofMat (oc.proj q.r d n (s.Xopt.toMat _ _) (Gr.toMat _ _)) ∧
      (∀ l, s.lines.getLast? = some l → l.gradnorm = PArr.norm R) ∧
      (s.done = false →
        (∀ b < N, robotNormSq q.r d N n R b ≤ robotNormSq q.r d N n R s.selected) ∧
        (∀ b < s.selected, robotNormSq q.r d N n R b < robotNormSq q.r d N n R s.selected) ∧
        R.normSq ≤ N * robotNormSq q.r d N n R s.selected) :=
  greedy hNn hn hD hrd hacc ho hN2 hk e

/-- **C70.** The robot optimised and printed in an iteration is the one selected in the iteration before;
the first one is robot 0. -/
theorem C70_order (junk : Nat → Nat → ℝ) :
    (∀ s, demoLoop o oc { q with numIters := 1 } junk (N : Int) n D = ok s →
      ∃ l, s.lines = [l] ∧ l.robot = 0) ∧
    ∀ k s s', k + 1 < 2 ^ 32 → demoLoop o oc { q with numIters := k } junk (N : Int) n D = ok s →
      demoLoop o oc { q with numIters := k + 1 } junk (N : Int) n D = ok s' → s.done = false →
      ∃ l, s'.lines = s.lines ++ [l] ∧ l.robot = s.selected := by
  have step : ∀ k s s', k + 1 < 2 ^ 32 → demoLoop o oc { q with numIters := k } junk (N : Int) n D = ok s →
      demoLoop o oc { q with numIters := k + 1 } junk (N : Int) n D = ok s' → s.done = false →
      ∃ l, s'.lines = s.lines ++ [l] ∧ l.robot = s.selected := by
    intro k s s' hk e e' hd
    obtain ⟨s₀, e₀, -, -, h⟩ := lines_step hN hNn hn hD hrd hacc ho hk e'
    rw [e] at e₀
    cases e₀
    exact h hd
  refine ⟨fun s e => ?_, step⟩
  obtain ⟨T, X, s₀, -, -, e₀, -, h1, h2, h3, -⟩ := start_total (o := o) (q := q) hN hNn hn hD hrd ho junk
  have e₁ : demoLoop o oc { q with numIters := 0 } junk (N : Int) n D = ok s₀ := by
    unfold demoLoop
    rw [show demoStart o { q with numIters := 0 } junk (N : Int) n D = ok s₀ from e₀]
    rfl
  obtain ⟨l, hl, hr⟩ := step 0 s₀ s (by omega) e₁ e h3
  rw [h1] at hl
  rw [h2] at hr
  exact ⟨l, hl, hr⟩

end

/-- **C68** (limits).  With fewer than two poses per robot the program always aborts: the first robot has
no odometry, ignores its data, and a check fails when it is given its share of the initial guess. -/
theorem C68_single_pose_abort {o : AgentOracles} {oc : OptOracles} {q : Options} {d N n : Nat}
    {D : List (Meas ℝ)} (hN : 2 ≤ N) (hNn : N ≤ n) (hlt : n < 2 * N) (hn : n * (d + 1) < 2 ^ 32)
    (hD : Dataset d n D) (hrd : d ≤ q.r) (ho : LawfulLsq o.qr) (junk : Nat → Nat → ℝ) :
    demo o oc q junk (N : Int) n D = abort :=
  demo_single hN hNn hlt hn hD hrd ho junk

/-! ## Example: the unit square over two robots (and over three: too many) -/

theorem exSquare_dataset : Dataset 2 4 exSquare where
  toOneRobot := exSquare_one
  precise := exSquare_precise
  unit m hm := by rcases exSquare_mem hm with rfl | rfl | rfl | rfl <;> rfl
  chain := by simp [exSquare, exSq, firstWins, sameEnds, List.range, List.range.loop]

/-- The trust-region solver stays where it is; the projection keeps everything; no lifting. -/
noncomputable def exDemo (svd : SvdOracle) (qr : LsqOracle) : AgentOracles :=
  { svd := svd, qr := qr, opt := fun _ => exOpt, stiefel := fun _ _ i j => if i.1 = j.1 then 1 else 0 }

/-- Non-vacuity of C68–C70: the hypotheses hold for the square over two robots, with the options compiled
in and with acceleration switched off; over three robots the program aborts. -/
example : ∃ o : AgentOracles, LawfulLsq o.qr ∧ (∀ c, LawfulRtr (o.opt c)) ∧ Dataset 2 4 exSquare ∧
    (∃ s, demo o exOpt Options.shipped (fun _ _ => 7) 2 4 exSquare = ok s) ∧
    (∃ s, demo o exOpt { Options.shipped with acceleration := false } (fun _ _ => 7) 2 4 exSquare = ok s ∧
      (s.lines.map (·.cost)).Pairwise (fun x y => y ≤ x)) ∧
    (∃ s Gr, demoLoop o exOpt { Options.shipped with numIters := 1 } (fun _ _ => 7) 2 4 exSquare = ok s ∧
      s.lines ≠ [] ∧ IsGradient 5 2 4 exSquare s.Xopt Gr) ∧
    demo o exOpt Options.shipped (fun _ _ => 7) 3 4 exSquare = abort := by
  obtain ⟨svd, -⟩ := exists_lawfulSvd
  obtain ⟨qr, hq⟩ := exists_lawfulLsq
  have ho : LawfulLsq (exDemo svd qr).qr := hq
  have hr : ∀ c, LawfulRtr ((exDemo svd qr).opt c) := fun _ => exOpt_lawful
  obtain ⟨s1, e1⟩ := C68_runs (o := exDemo svd qr) (oc := exOpt) (q := Options.shipped) (N := 2) (n := 4) (by omega)
    (by omega) (by norm_num) exSquare_dataset (by decide) (by decide) ho (by decide) (fun _ _ => 7)
  obtain ⟨s2, e2⟩ := C68_runs (o := exDemo svd qr) (oc := exOpt) (q := { Options.shipped with acceleration := false })
    (N := 2) (n := 4) (by omega) (by omega) (by norm_num) exSquare_dataset (by decide) (by decide) ho (by decide)
    (fun _ _ => 7)
  obtain ⟨T, -, m, -⟩ := C69_descent (o := exDemo svd qr) (oc := exOpt)
    (q := { Options.shipped with acceleration := false }) (N := 2) (n := 4) (by omega) (by omega) (by norm_num)
    exSquare_dataset (by decide) (by decide) ho (by decide) rfl hr _ e2
  obtain ⟨-, -, s3, -, -, e3, h3⟩ := loop_total (o := exDemo svd qr) (oc := exOpt)
    (q := { Options.shipped with numIters := 1 }) (N := 2) (n := 4) (by omega) (by omega) (by norm_num)
    exSquare_dataset (by decide) (by decide) ho (by decide) (fun _ _ => 7)
  obtain ⟨l, hl, -⟩ := (C70_order (o := exDemo svd qr) (oc := exOpt) (q := Options.shipped) (N := 2) (n := 4) (by omega)
    (by omega) (by norm_num) exSquare_dataset (by decide) (by decide) ho (fun _ _ => 7)).1 s3 e3
  obtain ⟨Gr, -, hg, -⟩ := C70_greedy (o := exDemo svd qr) (oc := exOpt) (q := Options.shipped) (N := 2) (n := 4)
    (by omega) (by norm_num) exSquare_dataset (by decide) (by decide) ho (by omega) (k := 0) (by norm_num)
    (fun _ _ => 7) e3
  exact ⟨_, ho, hr, exSquare_dataset, ⟨s1, e1⟩, ⟨s2, e2, m⟩, ⟨s3, Gr, e3, by rw [hl]; simp, hg⟩,
    C68_single_pose_abort (N := 3) (by omega) (by omega) (by omega) (by norm_num) exSquare_dataset (by decide) ho _⟩

end Dpgo.Props
