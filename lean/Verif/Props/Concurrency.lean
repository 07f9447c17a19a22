import Verif.Lemmas.ConcurrencyComplete
import Verif.Lemmas.ConcurrencyRace

/-!
# Threads of an agent: deadlocks, the optimisation thread, data races

`may n c` says which functions user thread `n` calls; there is any number of user threads, each making any
number of calls, interleaved in any way with each other and with the optimisation thread.
-/

namespace Dpgo.Props

open Conc

variable {cfg : Config} {may : Nat → Call → Prop} {s s' : State}

/-- No acceleration, robust cost or logging. -/
def exSync : Config := ⟨false, false, false, false, false⟩

/-- Weight updates reset the estimate. -/
def exResets : Config := ⟨false, true, true, false, false⟩

/-- Accelerated. -/
def exFast : Config := ⟨true, false, false, false, false⟩

/-- `k` steps of user thread `n` (taking the second branch, unless told otherwise). -/
def exUser (n k : Nat) (b := true) : List Choice := List.replicate k (.go (.api n) b)

/-- `k` steps of the optimisation thread. -/
def exLoop (k : Nat) (b := true) : List Choice := List.replicate k (.go .loop b)

/-- The optimisation thread is started. -/
def exStarted : List Choice := .call 0 .startOptimizationLoop :: exUser 0 2

/-! ## C52: deadlocks -/

/-- If weight updates do not reset the estimate (or nobody updates weights), there is no deadlock, whatever
functions the threads call and however they are interleaved.
(Partial: false with resets, see `C52_violated`.) -/
theorem C52_order_partial (hr : Reach cfg may s)
    (h : cfg.resets = false ∨ ∀ n, ¬ may n .updateMeasurementWeights) : ¬ Deadlock s := by
  obtain ⟨H, hd⟩ := reach_ordered h hr
  exact noDeadlock_ordered hd

/-- Under the same conditions some thread can always go on as long as one is inside a call (or the
optimisation thread runs). -/
theorem C52_progress_partial (hr : Reach cfg may s) (hc : s.crashed = false)
    (h : cfg.resets = false ∨ ∀ n, ¬ may n .updateMeasurementWeights) {t : Thread} (hb : Busy s t) :
    ∃ t' s', Busy s t' ∧ Step cfg may s (.move t') s' := by
  obtain ⟨H, hd⟩ := reach_ordered h hr
  exact progress hd (noDeadlock_ordered hd) hb hc

/-- The hypotheses can be met with two threads waiting: the optimisation thread holds the first two locks,
user thread 0 holds the third and user thread 1 waits for the first. -/
example : ∃ s, Reach exSync (fun _ _ => True) s ∧ s.owner .poses = some .loop ∧
    s.owner .measurements = some .loop ∧ WaitsFor s (.api 1) .loop ∧ WaitsFor s .loop (.api 0) ∧ ¬ Deadlock s := by
  obtain ⟨s, hr, h⟩ := reach_run (cfg := exSync) (may := fun _ _ => True)
    (es := exStarted ++ [.call 0 .clearNeighborPoses] ++ exUser 0 1 ++ exLoop 9 ++ [.call 1 .setX])
    (fun s => decide (s.owner .poses = some .loop) && decide (s.owner .measurements = some .loop) &&
      waitsLock s (.api 1) .loop && waitsLock s .loop (.api 0)) (fun _ _ _ => trivial) (by decide)
  simp only [Bool.and_eq_true, decide_eq_true_eq] at h
  exact ⟨s, hr, h.1.1.1, h.1.1.2, waitsLock_sound h.1.2, waitsLock_sound h.2, C52_order_partial hr (.inl rfl)⟩

/-- Even with resets there is no deadlock if the optimisation thread is never started and only one thread
makes calls other than those that hold one lock at a time (queries, message handlers, …).
(Partial: see `C52_violated`.) -/
theorem C52_driver_partial (hr : Reach cfg may s) (hs : ∀ n c, may n c → ¬ Starts cfg c)
    (h : ∀ n c, may n c → n = 0 ∨ Leaf c) : ¬ Deadlock s := by
  obtain ⟨es, hp⟩ := hr
  have hdorm := (Dormant.new.path hp fun n c hc => hs n c (path_may hp n c hc)).1
  obtain ⟨H, hd⟩ := reach_driver h ⟨es, hp⟩
  exact noDeadlock_driver hd hdorm

/-- The driver resets the estimate inside a weight update and waits for another thread's `setX`. -/
example : ∃ s, Reach exResets (fun n c => ¬ Starts exResets c ∧ (n = 0 ∨ Leaf c)) s ∧
    s.owner .measurements = some (.api 0) ∧ WaitsFor s (.api 0) (.api 1) ∧ ¬ Deadlock s := by
  obtain ⟨s, hr, h⟩ := reach_run (cfg := exResets)
    (may := fun n c => ¬ Starts exResets c ∧ (n = 0 ∨ Leaf c))
    (es := .call 1 .setX :: exUser 1 1 ++ [.call 0 .updateMeasurementWeights] ++ exUser 0 3 ++ exUser 0 1 false ++
      exUser 0 3)
    (fun s => decide (s.owner .measurements = some (.api 0)) && waitsLock s (.api 0) (.api 1))
    (fun n c hc => by
      simp [exUser] at hc
      rcases hc with ⟨rfl, rfl⟩ | ⟨rfl, rfl⟩
      · exact ⟨id, .inr trivial⟩
      · exact ⟨id, .inl rfl⟩) (by decide)
  simp only [Bool.and_eq_true, decide_eq_true_eq] at h
  exact ⟨s, hr, h.1, waitsLock_sound h.2, C52_driver_partial hr (fun _ _ h => h.1) (fun _ _ h => h.2)⟩

/-- With resets, the property is false: one user thread starts the optimisation thread and updates the weights.
The update holds the lock of the measurements and asks for the one of the estimate
(src/PGOAgent.cpp:1109, :68), the optimisation thread holds the latter and asks for the former (:940-941). -/
theorem C52_violated : ∃ s, Reach exResets (fun n _ => n = 0) s ∧ Deadlock s := by
  obtain ⟨s, hr, h⟩ := reach_run (cfg := exResets) (may := fun n _ => n = 0)
    (es := exStarted ++ exLoop 8 ++ [.call 0 .updateMeasurementWeights] ++ exUser 0 3 ++ exUser 0 1 false ++
      exUser 0 3)
    (fun s => waitsLock s (.api 0) .loop && waitsLock s .loop (.api 0))
    (fun n c hc => by
      simp [exStarted, exUser, exLoop] at hc
      rcases hc with ⟨rfl, -⟩ | ⟨rfl, -⟩ <;> rfl) (by decide)
  rw [Bool.and_eq_true] at h
  refine ⟨s, hr, {.loop, .api 0}, ⟨.loop, by simp⟩, ?_⟩
  rintro t (rfl | rfl)
  · exact ⟨.api 0, by simp, waitsLock_sound h.2⟩
  · exact ⟨.loop, by simp, waitsLock_sound h.1⟩

/-- The same with two user threads and no optimisation thread: one iterates while the other updates weights. -/
theorem C52_violated_users :
    ∃ s, Reach exResets (fun _ c => c = .iterate true ∨ c = .updateMeasurementWeights) s ∧ Deadlock s := by
  obtain ⟨s, hr, h⟩ := reach_run (cfg := exResets)
    (may := fun _ c => c = .iterate true ∨ c = .updateMeasurementWeights)
    (es := .call 1 (.iterate true) :: exUser 1 7 ++ [.call 0 .updateMeasurementWeights] ++ exUser 0 3 ++
      exUser 0 1 false ++ exUser 0 3)
    (fun s => waitsLock s (.api 0) (.api 1) && waitsLock s (.api 1) (.api 0))
    (fun n c hc => by
      simp [exUser] at hc
      rcases hc with ⟨-, rfl⟩ | ⟨-, rfl⟩
      · exact .inl rfl
      · exact .inr rfl) (by decide)
  rw [Bool.and_eq_true] at h
  refine ⟨s, hr, {.api 0, .api 1}, ⟨.api 0, by simp⟩, ?_⟩
  rintro t (rfl | rfl)
  · exact ⟨.api 1, by simp, waitsLock_sound h.1⟩
  · exact ⟨.api 0, by simp, waitsLock_sound h.2⟩

/-- Calls never get stuck: from every reachable state there is a schedule without new calls after which all
calls have returned, stops of the optimisation thread included.
(Partial: one thread controls the optimisation thread, no acceleration, no resets.) -/
theorem C52_completes_partial (hr : Reach cfg may s) (hc : s.crashed = false) (h1 : OneController may)
    (ha : cfg.acceleration = false) (hm : ∀ n, ¬ may n .setMeasurements)
    (h : cfg.resets = false ∨ ∀ n, ¬ may n .updateMeasurementWeights) :
    ∃ es s', Path cfg may s es s' ∧ (∀ e ∈ es, ∃ t, e = .move t) ∧ ∀ n, s'.stack (.api n) = [] :=
  complete h1 ha hm h hr hc

/-- Met in the middle of a stop that waits, while a query waits for the optimisation thread too. -/
example : ∃ s, Reach exSync (fun n c => (Controls c → n = 0) ∧ c ≠ .setMeasurements) s ∧ s.crashed = false ∧
    WaitsFor s (.api 1) .loop ∧ s.flag = true ∧
    ∃ es s', Path exSync (fun n c => (Controls c → n = 0) ∧ c ≠ .setMeasurements) s es s' ∧
      (∀ e ∈ es, ∃ t, e = .move t) ∧ ∀ n, s'.stack (.api n) = [] := by
  obtain ⟨s, hr, h⟩ := reach_run (cfg := exSync)
    (may := fun n c => (Controls c → n = 0) ∧ c ≠ .setMeasurements)
    (es := exStarted ++ exLoop 8 ++ [.call 0 .endOptimizationLoop] ++ exUser 0 4 ++ [.call 1 .getX])
    (fun s => decide (s.crashed = false) && waitsLock s (.api 1) .loop && s.flag)
    (fun n c hc => by
      simp [exStarted, exUser, exLoop] at hc
      rcases hc with ⟨rfl, rfl⟩ | ⟨rfl, rfl⟩ | ⟨rfl, rfl⟩ <;> exact ⟨fun h => by trivial, by simp⟩) (by decide)
  simp only [Bool.and_eq_true, decide_eq_true_eq] at h
  exact ⟨s, hr, h.1.1, waitsLock_sound h.1.2, h.2,
    C52_completes_partial hr h.1.1 (fun _ _ h => h.1) rfl (fun _ h => h.2 rfl) (.inl rfl)⟩

end Dpgo.Props
