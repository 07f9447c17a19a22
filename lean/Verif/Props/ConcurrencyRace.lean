import Verif.Props.ConcurrencyLoop

/-! # C54: accesses to the trajectory estimate -/

namespace Dpgo.Props

open Conc

variable {cfg : Config} {may : Nat → Call → Prop} {s s' : State}

/-- If no careless function is called, user threads use the estimate only while they own its lock; whatever the
interleaving and whether or not the optimisation thread runs.
(Partial: the careless functions, `C54_careless`, and the optimisation thread do not, `C54_violated`.) -/
theorem C54_locked_partial (hr : Reach cfg may s) (h : ∀ n c, may n c → ¬ Careless cfg c) {n : Nat}
    (ht : Touches s (.api n) .estimate) : s.owner .poses = some (.api n) := by
  obtain ⟨H, hD⟩ := reach_locked h hr
  refine (hD.owner _ _).2 ?_
  rcases hD.touches ht with h | h <;> simpa [lockedUsers, locked] using h

/-- The list of careless functions is exact: each of them, called alone, uses the estimate without the lock. -/
theorem C54_careless (cfg : Config) (c : Call) (h : Careless cfg c) :
    ∃ s, Reach cfg (fun n c' => n = 0 ∧ c' = c) s ∧ Touches s (.api 0) .estimate ∧ s.owner .poses = none := by
  have wit : ∀ (es : List Choice) (w : Bool), (∀ n c', Choice.call n c' ∈ es → n = 0 ∧ c' = c) →
      (run? cfg .new es).any (fun s => (if w then writesNow s (.api 0) .estimate else readsNow s (.api 0) .estimate) &&
        decide (s.owner .poses = none)) = true →
      ∃ s, Reach cfg (fun n c' => n = 0 ∧ c' = c) s ∧ Touches s (.api 0) .estimate ∧ s.owner .poses = none := by
    intro es w hm h
    obtain ⟨s, hr, h⟩ := reach_run (may := fun n c' => n = 0 ∧ c' = c) _ hm h
    rw [Bool.and_eq_true, decide_eq_true_eq] at h
    refine ⟨s, hr, ?_, h.2⟩
    cases w with
    | true => exact writesNow_touches h.1
    | false => exact readsNow_sound h.1
  have calls : ∀ k k' k'' : Nat, ∀ b b' b'' : Bool, ∀ n c',
      Choice.call n c' ∈ Choice.call 0 c :: exUser 0 k b ++ exUser 0 k' b' ++ exUser 0 k'' b'' → n = 0 ∧ c' = c := by
    intro k k' k'' b b' b'' n c' hc
    simpa [exUser] using hc
  obtain ⟨a, r, x, y, z⟩ := cfg
  by_cases hi : c = .initialize
  · subst hi
    exact wit _ true (calls 6 1 1 true false true) rfl
  · by_cases hr : c = .reset
    · subst hr
      cases h
      exact wit _ false (calls 5 1 1 true false true) rfl
    · by_cases hw : c = .updateMeasurementWeights
      · subst hw
        exact wit _ false (calls 6 0 0 true true true) rfl
      · by_cases hn : ∃ b, c = .restartNesterovAcceleration b
        · obtain ⟨b, rfl⟩ := hn
          cases h
          exact wit _ true (calls 4 0 0 true true true) rfl
        · cases c <;> first
            | exact absurd h (by trivial)
            | exact absurd rfl hi
            | exact absurd rfl hr
            | exact absurd rfl hw
            | exact absurd ⟨_, rfl⟩ hn
            | exact wit _ false (calls 2 0 0 true true true) rfl
            | exact wit _ false (calls 1 0 0 true true true) rfl

/-- Met with two threads, one inside a function that locks and one waiting. -/
example : ∃ s, Reach exSync (fun _ c => ¬ Careless exSync c) s ∧ Touches s (.api 0) .estimate ∧
    s.owner .poses = some (.api 0) ∧ WaitsFor s (.api 1) (.api 0) := by
  obtain ⟨s, hr, h⟩ := reach_run (cfg := exSync) (may := fun _ c => ¬ Careless exSync c)
    (es := [.call 0 .setX, .call 1 .getX] ++ exUser 0 2)
    (fun s => writesNow s (.api 0) .estimate && waitsLock s (.api 1) (.api 0))
    (fun n c hc => by
      simp [exUser] at hc
      rcases hc with ⟨-, rfl⟩ | ⟨-, rfl⟩ <;> exact id) (by decide)
  rw [Bool.and_eq_true] at h
  exact ⟨s, hr, writesNow_touches h.1, C54_locked_partial hr (fun _ _ h => h) (writesNow_touches h.1),
    waitsLock_sound h.2⟩

/-- Asynchronous use without data race on the estimate: the optimisation thread runs and is controlled by one
thread, which also handles messages (`updateNeighborPoses`) and moves the agent into the global frame; any number
of other threads make queries or other calls that neither are careless nor write the estimate.
(Partial: not with acceleration or the functions left out, `C54_violated`, `C54_violated_query`.) -/
theorem C54_async_partial (hr : Reach cfg may s) (ha : cfg.acceleration = false) (h1 : OneController may)
    (hc : ∀ n c, may n c → ¬ Careless cfg c)
    (hw : ∀ n c, may n c → WritesEstimate c → c = .initializeInGlobalFrame ∨ c = .updateNeighborPoses) :
    ¬ Race s .estimate :=
  noRace_async ha h1 hc hw hr

/-- What the asynchronous use allows. -/
def exAsync (n : Nat) (c : Call) : Prop :=
  (Controls c → n = 0) ∧ ¬ Careless exSync c ∧
    (WritesEstimate c → c = .initializeInGlobalFrame ∨ c = .updateNeighborPoses)

/-- Met when the controlling thread writes the estimate, having stopped the optimisation thread, while a query
waits. -/
example : ∃ s, Reach exSync exAsync s ∧ s.spawned = 1 ∧ Writes s (.api 0) .estimate ∧ WaitsFor s (.api 1) (.api 0) ∧
    ¬ Race s .estimate := by
  obtain ⟨s, hr, h⟩ := reach_run (cfg := exSync) (may := exAsync)
    (es := exStarted ++ [.call 0 .updateNeighborPoses] ++ exUser 0 9 ++ exLoop 23 ++ exUser 0 11 ++
      [.call 1 .getX])
    (fun s => decide (s.spawned = 1) && writesNow s (.api 0) .estimate && waitsLock s (.api 1) (.api 0))
    (fun n c hc => by
      simp [exStarted, exUser, exLoop] at hc
      rcases hc with ⟨rfl, rfl⟩ | ⟨rfl, rfl⟩ | ⟨rfl, rfl⟩
      · exact ⟨fun _ => rfl, id, fun h => h.elim⟩
      · exact ⟨fun _ => rfl, id, fun _ => .inr rfl⟩
      · exact ⟨fun h => h.elim, id, fun h => h.elim⟩) (by decide)
  simp only [Bool.and_eq_true, decide_eq_true_eq] at h
  exact ⟨s, hr, h.1.1, writesNow_sound h.1.2, waitsLock_sound h.2,
    C54_async_partial hr rfl (fun _ _ h => h.1) (fun _ _ h => h.2.1) (fun _ _ h => h.2.2)⟩

/-- Synchronous use without data race on the estimate: the optimisation thread is never started, one thread
drives the agent with any calls except `initialize`, the others make calls that neither are careless nor write
the estimate.  (Partial: not with acceleration, `C54_violated_query`.) -/
theorem C54_driver_partial (hr : Reach cfg may s) (ha : cfg.acceleration = false)
    (hs : ∀ n c, may n c → ¬ Starts cfg c) (h0 : ¬ may 0 .initialize)
    (h : ∀ n c, n ≠ 0 → may n c → ¬ Careless cfg c ∧ ¬ WritesEstimate c) : ¬ Race s .estimate :=
  noRace_driver ha hs h0 h hr

/-- What the synchronous use allows. -/
def exDriven (n : Nat) (c : Call) : Prop :=
  ¬ Starts exSync c ∧ c ≠ .initialize ∧ (n ≠ 0 → ¬ Careless exSync c ∧ ¬ WritesEstimate c)

/-- Met when `iterate` reads the estimate without the lock while a query reads it too. -/
example : ∃ s, Reach exSync exDriven s ∧ Touches s (.api 0) .estimate ∧ Touches s (.api 1) .estimate ∧
    ¬ Race s .estimate := by
  obtain ⟨s, hr, h⟩ := reach_run (cfg := exSync) (may := exDriven)
    (es := [.call 0 (.iterate true), .call 1 .getX] ++ exUser 0 2 ++ exUser 1 1)
    (fun s => readsNow s (.api 0) .estimate && readsNow s (.api 1) .estimate)
    (fun n c hc => by
      simp [exUser] at hc
      rcases hc with ⟨rfl, rfl⟩ | ⟨rfl, rfl⟩
      · exact ⟨id, by simp, fun h => absurd rfl h⟩
      · exact ⟨id, by simp, fun _ => ⟨id, id⟩⟩) (by decide)
  rw [Bool.and_eq_true] at h
  exact ⟨s, hr, readsNow_sound h.1, readsNow_sound h.2,
    C54_driver_partial hr rfl (fun _ _ h => h.1) (fun h => h.2.1 rfl) (fun _ _ hn h => h.2.2 hn)⟩

/-- The property is false: the optimisation thread copies the estimate without its lock
(`XPrev = X`, src/PGOAgent.cpp:385) while `setX` writes it under the lock. -/
theorem C54_violated : ∃ s,
    Reach exSync (fun n c => (n = 0 ∧ c = .startOptimizationLoop) ∨ (n = 1 ∧ c = .setX)) s ∧ Race s .estimate := by
  obtain ⟨s, hr, h⟩ := reach_run (cfg := exSync)
    (may := fun n c => (n = 0 ∧ c = .startOptimizationLoop) ∨ (n = 1 ∧ c = .setX))
    (es := exStarted ++ exLoop 3 ++ [.call 1 .setX] ++ exUser 1 2)
    (fun s => readsNow s .loop .estimate && writesNow s (.api 1) .estimate)
    (fun n c hc => by
      simp [exStarted, exUser, exLoop] at hc
      exact hc) (by decide)
  rw [Bool.and_eq_true] at h
  exact ⟨s, hr, .api 1, .loop, by simp, writesNow_sound h.2, readsNow_sound h.1⟩

/-- With acceleration, a query races with an iteration: the restart overwrites the estimate without its lock
(`X = XPrev`, src/PGOAgent.cpp:890) while `getX` reads it. -/
theorem C54_violated_query : ∃ s,
    Reach exFast (fun n c => (n = 0 ∧ c = .iterate true) ∨ (n = 1 ∧ c = .getX)) s ∧ Race s .estimate := by
  obtain ⟨s, hr, h⟩ := reach_run (cfg := exFast)
    (may := fun n c => (n = 0 ∧ c = .iterate true) ∨ (n = 1 ∧ c = .getX))
    (es := .call 0 (.iterate true) :: exUser 0 36 ++ [.call 1 .getX] ++ exUser 1 1)
    (fun s => writesNow s (.api 0) .estimate && readsNow s (.api 1) .estimate)
    (fun n c hc => by
      simp [exUser] at hc
      exact hc) (by decide)
  rw [Bool.and_eq_true] at h
  exact ⟨s, hr, .api 0, .api 1, by simp, writesNow_sound h.1, readsNow_sound h.2⟩

/-- Without acceleration, a query races with `initialize`, which assigns the estimate without the lock
(src/PGOAgent.cpp:292). -/
theorem C54_violated_init : ∃ s,
    Reach exSync (fun n c => (n = 0 ∧ c = .initialize) ∨ (n = 1 ∧ c = .getX)) s ∧ Race s .estimate := by
  obtain ⟨s, hr, h⟩ := reach_run (cfg := exSync)
    (may := fun n c => (n = 0 ∧ c = .initialize) ∨ (n = 1 ∧ c = .getX))
    (es := .call 0 .initialize :: exUser 0 6 ++ exUser 0 1 false ++ exUser 0 1 ++ [.call 1 .getX] ++ exUser 1 1)
    (fun s => writesNow s (.api 0) .estimate && readsNow s (.api 1) .estimate)
    (fun n c hc => by
      simp [exUser] at hc
      exact hc) (by decide)
  rw [Bool.and_eq_true] at h
  exact ⟨s, hr, .api 0, .api 1, by simp, writesNow_sound h.1, readsNow_sound h.2⟩

end Dpgo.Props
