import Verif.Props.Concurrency

/-!
# C53: starting and stopping the optimisation thread

User thread 0 is the only one to start and stop the optimisation thread; any number of other threads make any
other calls.  With two such threads the property is false (`C53_two_starts`, `C53_two_stops`).
-/

namespace Dpgo.Props

open Conc

variable {cfg : Config} {may : Nat → Call → Prop} {s s' : State}

/-- Any call, but only thread 0 controls the optimisation thread and nobody calls `setMeasurements`. -/
def exControl (n : Nat) (c : Call) : Prop := (Controls c → n = 0) ∧ c ≠ .setMeasurements

theorem exControl_one : OneController exControl := fun _ _ h => h.1

/-- `startOptimizationLoop`, once it has returned: the thread runs; it has been created by this call if there
was none, and otherwise nothing has been created.  Other threads may do anything meanwhile. -/
theorem C53_start (hr : Reach cfg may s) (h1 : OneController may) (ha : cfg.acceleration = false) {s₁ : State}
    {es : List Event} (hcall : Step cfg may s (.call 0 .startOptimizationLoop) s₁) (hp : Path cfg may s₁ es s')
    (hes : NoCallBy 0 es) (hret : s'.stack (.api 0) = []) :
    s'.handle = .joinable ∧ s'.spawned = if s.handle = .null then s.spawned + 1 else s.spawned := by
  have hA := allowed_tame (cfg := cfg) h1
  have hC := controlled hA hr
  have hC1 := hC.step hA hcall
  have hidle : s.stack (.api 0) = [] := by cases hcall; assumption
  have h0 : InStart s s₁ := by
    cases hcall
    refine .inl ⟨?_, rfl, rfl⟩
    rw [set_self]
    simp [prog, start, ha]
  rcases inStart_path hA hC1 h0 hp hes with h | h
  · rcases h with ⟨g, -⟩ | ⟨g, -⟩ | ⟨g, -⟩ | ⟨-, g1, g2, g3⟩ | ⟨-, g1, g2, g3⟩
    · rw [hret] at g; cases g
    · rw [hret] at g; cases g
    · rw [hret] at g; cases g
    · refine ⟨?_, by rw [if_neg g1]; exact g3⟩
      have := (hC.between hidle).2
      rw [g2]
      cases hh : s.handle with
      | null => exact absurd hh g1
      | joinable => rfl
      | joined => exact absurd hh this
    · exact ⟨g2, by rw [if_pos g1]; exact g3⟩
  · exact absurd hret h.2

/-- A second start, the thread being in its first round. -/
example : ∃ s, Reach exSync exControl s ∧ s.handle = .joinable ∧ s.spawned = 1 ∧ s.rounds = 1 := by
  obtain ⟨s, hr, h⟩ := reach_run (cfg := exSync) (may := exControl)
    (es := exStarted ++ exLoop 3 ++ [.call 0 .startOptimizationLoop] ++ exUser 0 2)
    (fun s => decide (s.handle = .joinable) && decide (s.spawned = 1) && decide (s.rounds = 1))
    (fun n c hc => by
      simp [exStarted, exUser, exLoop] at hc
      obtain ⟨rfl, rfl⟩ := hc
      exact ⟨fun _ => rfl, by simp⟩) (by decide)
  simp only [Bool.and_eq_true, decide_eq_true_eq] at h
  exact ⟨s, hr, h.1.1, h.1.2, h.2⟩

/-- `endOptimizationLoop`, once it has returned: the optimisation thread has nothing left to do, is not
referred to any more, and the request is cleared; no thread has been created. -/
theorem C53_end (hr : Reach cfg may s) (h1 : OneController may) {s₁ : State} {es : List Event}
    (hcall : Step cfg may s (.call 0 .endOptimizationLoop) s₁) (hp : Path cfg may s₁ es s') (hes : NoCallBy 0 es)
    (hret : s'.stack (.api 0) = []) :
    s'.stack .loop = [] ∧ s'.handle = .null ∧ s'.flag = false ∧ s'.spawned = s.spawned := by
  have hA := allowed_tame (cfg := cfg) h1
  have hC1 := (controlled hA hr).step hA hcall
  have h0 : InEnd s₁ := by
    cases hcall
    exact .inl (set_self _ _ _)
  have hsp : s₁.spawned = s.spawned := by cases hcall; rfl
  have hC' := hC1.path hA hp
  rcases inEnd_path hA hC1 h0 hp hes with ⟨h, h'⟩ | h
  · have hn : s'.handle = .null := by
      rcases h with g | g | ⟨g, -⟩ | g | g | g | g | g | ⟨g, -⟩ | ⟨-, g⟩ <;>
        first | exact g | (rw [hret] at g; cases g)
    exact ⟨hC'.ended (by rw [hn]; simp), hn, (hC'.between hret).1, h'.trans hsp⟩
  · exact absurd hret h.2

/-- A stop requested while the thread holds the locks, with a query waiting. -/
example : ∃ s s₁ es s', Reach exSync exControl s ∧ Step exSync exControl s (.call 0 .endOptimizationLoop) s₁ ∧
    Path exSync exControl s₁ es s' ∧ NoCallBy 0 es ∧ s'.stack (.api 0) = [] ∧ s.owner .poses = some .loop ∧
    s'.rounds = 1 := by
  have h : ((run? exSync .new (exStarted ++ exLoop 8)).bind fun s =>
      (run? exSync (s.set (.api 0) [prog exSync .endOptimizationLoop])
        (exUser 0 4 ++ [.call 1 .getX] ++ exLoop 11 ++ exUser 1 3 ++ exLoop 4 ++ exUser 0 4)).map fun s' =>
        decide (s.crashed = false) && decide (s.stack (.api 0) = []) && decide (s'.stack (.api 0) = []) &&
        decide (s.owner .poses = some .loop) && decide (s'.rounds = 1)) = some true := by decide
  rw [Option.bind_eq_some_iff] at h
  obtain ⟨s, h1, h2⟩ := h
  rw [Option.map_eq_some_iff] at h2
  obtain ⟨s', h2, h3⟩ := h2
  simp only [Bool.and_eq_true, decide_eq_true_eq] at h3
  refine ⟨s, _, _, s', ⟨_, run?_sound (fun n c hc => ?_) h1⟩, .call h3.1.1.1.1 ⟨fun _ => rfl, by simp⟩ h3.1.1.1.2,
    run?_sound (fun n c hc => ?_) h2, fun c hc => ?_, h3.1.1.2, h3.1.2, h3.2⟩
  · simp [exStarted, exUser, exLoop] at hc
    obtain ⟨rfl, rfl⟩ := hc
    exact ⟨fun _ => rfl, by simp⟩
  · simp [exUser, exLoop] at hc
    obtain ⟨rfl, rfl⟩ := hc
    exact ⟨fun h => h.elim, by simp⟩
  · simp [exUser, exLoop, Choice.event] at hc

/-- After a request to stop (by any call that makes one), at most one further round begins, until another
thread is created. -/
theorem C53_one_more_round (hr : Reach cfg may s) (h1 : OneController may) (hf : s.flag = true) {es : List Event}
    (hp : Path cfg may s es s') (hsp : s'.spawned = s.spawned) : s'.rounds ≤ s.rounds + 1 := by
  have hA := allowed_tame (cfg := cfg) h1
  have h := (stopping_path hA (controlled hA hr) (.inl hf) hp hsp).2.1
  have := room_le (cfg := cfg) s
  omega

/-- One further round does happen if the request comes between the check and the round. -/
example : ∃ s s' es, Reach exSync exControl s ∧ s.flag = true ∧ Path exSync exControl s es s' ∧
    s'.spawned = s.spawned ∧ s'.rounds = s.rounds + 1 := by
  have h : ((run? exSync .new (exStarted ++ [.call 0 .endOptimizationLoop] ++ exUser 0 3)).bind fun s =>
      (run? exSync s (exLoop 20)).map fun s' =>
        s.flag && decide (s'.spawned = s.spawned) && decide (s'.rounds = s.rounds + 1)) = some true := by decide
  rw [Option.bind_eq_some_iff] at h
  obtain ⟨s, h1, h2⟩ := h
  rw [Option.map_eq_some_iff] at h2
  obtain ⟨s', h2, h3⟩ := h2
  simp only [Bool.and_eq_true, decide_eq_true_eq] at h3
  refine ⟨s, s', _, ⟨_, run?_sound (fun n c hc => ?_) h1⟩, h3.1.1, run?_sound (fun n c hc => ?_) h2, h3.1.2, h3.2⟩
  · simp [exStarted, exUser] at hc
    rcases hc with ⟨rfl, rfl⟩ | ⟨rfl, rfl⟩ <;> exact ⟨fun _ => rfl, by simp⟩
  · simp [exLoop] at hc

/-- After a request, the optimisation thread takes a bounded number of steps in total, until another thread is
created; the bound does not depend on the execution. -/
theorem C53_bounded (cfg : Config) : ∃ N, ∀ (may : Nat → Call → Prop) (s s' : State) (es : List Event),
    OneController may → Reach cfg may s → s.flag = true → Path cfg may s es s' → s'.spawned = s.spawned →
    es.count (.move .loop) ≤ N := by
  refine ⟨loopBound cfg, fun may s s' es h1 hr hf hp hsp => ?_⟩
  have hA := allowed_tame (cfg := cfg) h1
  have h := (stopping_path hA (controlled hA hr) (.inl hf) hp hsp).2.2
  have := reach_bound hA hr
  unfold loopMoves at h
  omega

/-- While no optimisation thread runs and the controlling thread is between calls, no round happens and no
thread is created, until a call that starts one. -/
theorem C53_stopped (hr : Reach cfg may s) (h1 : OneController may) (h0 : s.stack (.api 0) = [])
    (hh : s.handle = .null) {es : List Event} (hp : Path cfg may s es s')
    (hes : ∀ n c, Event.call n c ∈ es → ¬ Starts cfg c) :
    s'.rounds = s.rounds ∧ s'.spawned = s.spawned ∧ s'.handle = .null ∧ s'.stack .loop = [] := by
  have hA := allowed_tame (cfg := cfg) h1
  obtain ⟨g1, g2, g3⟩ := ((controlled hA hr).dormant h0 hh).path hp hes
  exact ⟨g2, g3, g1.handle, g1.loop⟩

/-- Every thread created runs at least one round before it is stopped. -/
theorem C53_runs (hr : Reach cfg may s) (h1 : OneController may) (hh : s.handle = .null) :
    s.spawned ≤ s.rounds := by
  have hA := allowed_tame (cfg := cfg) h1
  have hC := controlled hA hr
  have h := reach_rounds hA hr
  rwa [room_zero (by rw [hC.ended (by rw [hh]; simp)]; simp), Nat.add_zero] at h

/-- The process never ends abnormally: `join` is only called on a running thread and no thread object is
overwritten or destroyed before it has been joined. -/
theorem C53_no_crash (hr : Reach cfg may s) (h1 : OneController may) (ha : cfg.acceleration = false)
    (hm : ∀ n, ¬ may n .setMeasurements) : s.crashed = false := by
  have hA := allowed_tame' h1 ha hm
  obtain ⟨es, hp⟩ := hr
  cases hp with
  | nil => rfl
  | snoc hp hs => exact (controlled hA ⟨_, hp⟩).step_crashed hA (fun _ => rfl) hs

/-- Starting and stopping can be repeated any number of times: from every reachable state between two calls
without optimisation thread there is an execution that creates and stops `n` of them. -/
theorem C53_repeat (h1 : OneController may) (ha : cfg.acceleration = false) (hm : ∀ n, ¬ may n .setMeasurements)
    (h : cfg.resets = false ∨ ∀ n, ¬ may n .updateMeasurementWeights) (hs : may 0 .startOptimizationLoop)
    (he : may 0 .endOptimizationLoop) (hr : Reach cfg may s) (h0 : s.stack (.api 0) = []) (hh : s.handle = .null)
    (n : Nat) : ∃ es s', Path cfg may s es s' ∧ s'.spawned = s.spawned + n ∧ s'.handle = .null ∧
      s'.stack (.api 0) = [] ∧ es.count (.call 0 .startOptimizationLoop) = n ∧
      es.count (.call 0 .endOptimizationLoop) = n := by
  have noCall : ∀ {es : List Event}, (∀ e ∈ es, ∃ t, e = .move t) → ∀ m c, Event.call m c ∉ es := by
    intro es hes m c hc
    obtain ⟨t, ht⟩ := hes _ hc
    cases ht
  induction n with
  | zero => exact ⟨[], s, .nil, rfl, hh, h0, rfl, rfl⟩
  | succ n ih =>
    obtain ⟨es, s₁, hp, g1, g2, g3, g4, g5⟩ := ih
    obtain ⟨es0, hp0⟩ := hr
    have hr1 : Reach cfg may s₁ := ⟨_, hp0.append hp⟩
    have st1 := Step.call (cfg := cfg) (may := may) (C53_no_crash hr1 h1 ha hm) hs g3
    have hr2 : Reach cfg may _ := ⟨_, (hp0.append hp).snoc st1⟩
    obtain ⟨es2, s₂, hp2, m2, i2⟩ := C52_completes_partial hr2 (C53_no_crash hr2 h1 ha hm) h1 ha hm h
    have r2 := C53_start hr1 h1 ha st1 hp2 (noCall m2 0) (i2 0)
    rw [if_pos g2] at r2
    have hr3 : Reach cfg may s₂ := ⟨_, ((hp0.append hp).snoc st1).append hp2⟩
    have st3 := Step.call (cfg := cfg) (may := may) (C53_no_crash hr3 h1 ha hm) he (i2 0)
    have hr4 : Reach cfg may _ := ⟨_, (((hp0.append hp).snoc st1).append hp2).snoc st3⟩
    obtain ⟨es4, s₄, hp4, m4, i4⟩ := C52_completes_partial hr4 (C53_no_crash hr4 h1 ha hm) h1 ha hm h
    obtain ⟨-, r4, -, r4'⟩ := C53_end hr3 h1 st3 hp4 (noCall m4 0) (i4 0)
    refine ⟨_, s₄, (((hp.snoc st1).append hp2).snoc st3).append hp4, ?_, r4, i4 0, ?_, ?_⟩
    · rw [r4', r2.2, g1]; omega
    · simp only [List.count_append, List.count_eq_zero.2 (noCall m2 _ _), List.count_eq_zero.2 (noCall m4 _ _), g4]
      simp
    · simp only [List.count_append, List.count_eq_zero.2 (noCall m2 _ _), List.count_eq_zero.2 (noCall m4 _ _), g5]
      simp

/-- Met by a new agent. -/
example (n : Nat) : ∃ es s', Path exSync exControl .new es s' ∧ s'.spawned = n ∧ n ≤ s'.rounds := by
  obtain ⟨es, s', hp, h1, h2, -⟩ := C53_repeat (cfg := exSync) (may := exControl) exControl_one rfl
    (fun n h => h.2 rfl) (.inl rfl) ⟨fun _ => rfl, by simp⟩ ⟨fun _ => rfl, by simp⟩ ⟨[], .nil⟩ rfl rfl n
  have hsp : s'.spawned = n := by rw [h1]; simp [State.new]
  exact ⟨es, s', hp, hsp, hsp ▸ C53_runs ⟨es, hp⟩ exControl_one h2⟩

/-- `C53_stopped` and `C53_runs` apply after a stop, with another thread inside `iterate`. -/
example : ∃ s, Reach exSync exControl s ∧ s.stack (.api 0) = [] ∧ s.handle = .null ∧ s.spawned = 1 ∧
    Busy s (.api 1) := by
  obtain ⟨s, hr, h⟩ := reach_run (cfg := exSync) (may := exControl)
    (es := exStarted ++ [.call 0 .endOptimizationLoop] ++ exUser 0 4 ++ exLoop 23 ++ exUser 0 4 ++
      [.call 1 (.iterate true)] ++ exUser 1 8)
    (fun s => decide (s.stack (.api 0) = []) && decide (s.handle = .null) && decide (s.spawned = 1) &&
      decide (s.stack (.api 1) ≠ []))
    (fun n c hc => by
      simp [exStarted, exUser, exLoop] at hc
      rcases hc with ⟨rfl, rfl⟩ | ⟨rfl, rfl⟩ | ⟨rfl, rfl⟩
      · exact ⟨fun _ => rfl, by simp⟩
      · exact ⟨fun _ => rfl, by simp⟩
      · exact ⟨fun h => h.elim, by simp⟩) (by decide)
  simp only [Bool.and_eq_true, decide_eq_true_eq] at h
  exact ⟨s, hr, h.1.1.1, h.1.1.2, h.1.2, h.2⟩

/-- Two threads must not start it: both may find no thread running, and the second creation destroys the
thread object of the first (`std::terminate`). -/
theorem C53_two_starts : ∃ s, Reach exSync (fun _ c => c = .startOptimizationLoop) s ∧ s.crashed = true := by
  obtain ⟨s, hr, h⟩ := reach_run (cfg := exSync) (may := fun _ c => c = .startOptimizationLoop)
    (es := [.call 0 .startOptimizationLoop, .call 1 .startOptimizationLoop] ++ exUser 0 1 ++ exUser 1 1 ++
      exUser 0 1 ++ exUser 1 1)
    (fun s => s.crashed)
    (fun n c hc => by
      simp [exUser] at hc
      rcases hc with ⟨-, rfl⟩ | ⟨-, rfl⟩ <;> rfl) (by decide)
  exact ⟨s, hr, h⟩

/-- Two threads must not stop it: both may find it running, and the second joins a thread already joined. -/
theorem C53_two_stops : ∃ s,
    Reach exSync (fun _ c => c = .startOptimizationLoop ∨ c = .endOptimizationLoop) s ∧ s.crashed = true := by
  obtain ⟨s, hr, h⟩ := reach_run (cfg := exSync)
    (may := fun _ c => c = .startOptimizationLoop ∨ c = .endOptimizationLoop)
    (es := exStarted ++ [.call 0 .endOptimizationLoop, .call 1 .endOptimizationLoop] ++ exUser 0 4 ++ exUser 1 4 ++
      exLoop 1 ++ exLoop 1 false ++ exLoop 2 ++ exUser 0 1 ++ exUser 1 1)
    (fun s => s.crashed)
    (fun n c hc => by
      simp [exStarted, exUser, exLoop] at hc
      rcases hc with ⟨-, rfl⟩ | ⟨-, rfl⟩ | ⟨-, rfl⟩
      · exact .inl rfl
      · exact .inr rfl
      · exact .inr rfl) (by decide)
  exact ⟨s, hr, h⟩

/-- The request is a data race even with one controlling thread: `mEndLoopRequested` is a plain `bool`
(PGOAgent.h:621) written by one thread while the other reads it. -/
theorem C53_flag_race : ∃ s, Reach exSync exControl s ∧ FlagRace s := by
  obtain ⟨s, hr, h⟩ := reach_run (cfg := exSync) (may := exControl)
    (es := exStarted ++ [.call 0 .endOptimizationLoop] ++ exUser 0 2 ++ exLoop 1 ++ exLoop 1 false ++ exLoop 1)
    (fun s => flagNow s 0)
    (fun n c hc => by
      simp [exStarted, exUser, exLoop] at hc
      rcases hc with ⟨rfl, rfl⟩ | ⟨rfl, rfl⟩ <;> exact ⟨fun _ => rfl, by simp⟩) (by decide)
  exact ⟨s, hr, flagNow_sound h⟩

end Dpgo.Props
