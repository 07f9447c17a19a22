import Verif.Lemmas.Concurrency

/-! # Executions given by a schedule -/

namespace Dpgo.Conc

open Cmd

/-- A step of the command `c`, with the branch to take. -/
def exec? (cfg : Config) (s : State) (t : Thread) (b : Bool) (k : List Cmd) : Cmd → Option State
  | .skip => some (s.set t k)
  | .seq x y => some (s.set t (x :: y :: k))
  | .either x y => some (s.set t ((if b then y else x) :: k))
  | .many x => some (s.set t (if b then x :: .many x :: k else k))
  | .hold l x => if s.owner l = none then
      some ({ s with owner := upd s.owner l (some t) }.set t (x :: .unlock l :: k)) else none
  | .unlock l => some ({ s with owner := upd s.owner l none }.set t k)
  | .ifRunning x y => some (s.set t ((if s.handle = .null then y else x) :: k))
  | .act (.read _) => some (s.set t k)
  | .act (.write _) => some (s.set t k)
  | .act .request => some ({ s with flag := true }.set t k)
  | .act .join => if s.handle = .joinable then
      (if s.stack .loop = [] then some ({ s with handle := .joined }.set t k) else none) else some s.crash
  | .act .drop => if s.handle = .joinable then some s.crash else some ({ s with handle := .null }.set t k)
  | .act .clear => some ({ s with flag := false }.set t k)
  | .act .spawn => if s.handle = .joinable then some s.crash else
      some (({ s with handle := .joinable, spawned := s.spawned + 1 }.set .loop [.loop (iterate cfg true)]).set t k)
  | .act .abort => some s.crash
  | .loop x => some ({ s with rounds := s.rounds + 1 }.set t (x :: .test x :: k))
  | .test x => some (if s.flag then s.set t k else s.set t (.loop x :: k))

theorem exec?_sound {cfg : Config} {s s' : State} {t : Thread} {b : Bool} {k : List Cmd} {c : Cmd}
    (h : exec? cfg s t b k c = some s') : Exec cfg s t c k s' := by
  cases c with
  | skip => cases h; exact .skip
  | seq x y => cases h; exact .seq
  | either x y =>
    cases h
    cases b
    · exact .left
    · exact .right
  | many x =>
    cases h
    cases b
    · exact .done
    · exact .more
  | hold l x =>
    simp only [exec?] at h
    split at h
    · cases h; exact .acquire ‹_›
    · cases h
  | unlock l => cases h; exact .release
  | ifRunning x y =>
    cases h
    split
    · exact .idle ‹_›
    · exact .running ‹_›
  | loop x => cases h; exact .round
  | test x =>
    cases h
    split
    · exact .finish ‹_›
    · exact .again (Bool.eq_false_iff.2 ‹_›)
  | act a =>
    cases a with
    | read c => cases h; exact .read
    | write c => cases h; exact .write
    | request => cases h; exact .request
    | clear => cases h; exact .clear
    | abort => cases h; exact .abort
    | join =>
      simp only [exec?] at h
      split at h
      · split at h
        · cases h; exact .join ‹_› ‹_›
        · cases h
      · cases h; exact .joinCrash ‹_›
    | drop =>
      simp only [exec?] at h
      split at h
      · cases h; exact .dropCrash ‹_›
      · cases h; exact .drop ‹_›
    | spawn =>
      simp only [exec?] at h
      split at h
      · cases h; exact .spawnCrash ‹_›
      · cases h; exact .spawn ‹_›

/-- Entries of a schedule: a call, or a step of a thread with the branch to take. -/
inductive Choice where
  | call (n : Nat) (c : Call)
  | go (t : Thread) (b : Bool := false)
  deriving DecidableEq, Repr

def Choice.event : Choice → Event
  | .call n c => .call n c
  | .go t _ => .move t

/-- Follows a schedule. -/
def run? (cfg : Config) : State → List Choice → Option State
  | s, [] => some s
  | s, .call n c :: es =>
    if s.crashed = false ∧ s.stack (.api n) = [] then run? cfg (s.set (.api n) [prog cfg c]) es else none
  | s, .go t b :: es =>
    if s.crashed = false then
      match s.stack t with
      | [] => none
      | c :: k => (exec? cfg s t b k c).bind fun s' => run? cfg s' es
    else none

section
variable {cfg : Config} {may : Nat → Call → Prop} {s s₁ s' : State}

theorem Path.cons {e : Event} {es : List Event} (h : Step cfg may s e s₁) (h' : Path cfg may s₁ es s') :
    Path cfg may s (e :: es) s' := by
  induction h' with
  | nil => exact .snoc (es := []) .nil h
  | snoc _ hs ih => exact .snoc (es := _ :: _) ih hs

theorem Path.append {es es' : List Event} (h : Path cfg may s es s₁) (h' : Path cfg may s₁ es' s') :
    Path cfg may s (es ++ es') s' := by
  induction h' with
  | nil => rw [List.append_nil]; exact h
  | snoc _ hs ih => rw [← List.append_assoc]; exact .snoc ih hs

theorem run?_sound {es : List Choice} (hm : ∀ n c, Choice.call n c ∈ es → may n c)
    (h : run? cfg s es = some s') : Path cfg may s (es.map Choice.event) s' := by
  induction es generalizing s with
  | nil => cases h; exact .nil
  | cons e es ih =>
    have hm' : ∀ n c, Choice.call n c ∈ es → may n c := fun n c hc => hm n c (by simp [hc])
    cases e with
    | call n c =>
      simp only [run?] at h
      split at h
      · rename_i hc
        exact Path.cons (.call hc.1 (hm n c (by simp)) hc.2) (ih hm' h)
      · cases h
    | go t b =>
      simp only [run?] at h
      split at h
      · rename_i hc
        split at h
        · cases h
        · rename_i c k hs
          rw [Option.bind_eq_some_iff] at h
          obtain ⟨s₁, h1, h2⟩ := h
          exact Path.cons (.move hc hs (exec?_sound h1)) (ih hm' h2)
      · cases h

/-- A schedule that works gives a reachable state with the properties checked. -/
theorem reach_run {es : List Choice} (p : State → Bool) (hm : ∀ n c, Choice.call n c ∈ es → may n c)
    (h : (run? cfg .new es).any p = true) : ∃ s, Reach cfg may s ∧ p s = true := by
  rw [Option.any_eq_true] at h
  obtain ⟨s, h1, h2⟩ := h
  exact ⟨s, ⟨_, run?_sound hm h1⟩, h2⟩

/-- `t` asks for a lock of `t'`. -/
def waitsLock (s : State) (t t' : Thread) : Bool :=
  match s.stack t with | .hold l _ :: _ => decide (s.owner l = some t') | _ => false

theorem waitsLock_sound {t t' : Thread} (h : waitsLock s t t' = true) : WaitsFor s t t' := by
  unfold waitsLock at h
  split at h
  · rename_i l a k hs
    exact .inl ⟨l, a, k, hs, of_decide_eq_true h⟩
  · cases h

/-- `t` is about to write the cell. -/
def writesNow (s : State) (t : Thread) (c : Cell) : Bool :=
  match s.stack t with | .act (.write c') :: _ => decide (c' = c) | _ => false

/-- `t` is about to read the cell. -/
def readsNow (s : State) (t : Thread) (c : Cell) : Bool :=
  match s.stack t with | .act (.read c') :: _ => decide (c' = c) | _ => false

theorem writesNow_sound {t : Thread} {c : Cell} (h : writesNow s t c = true) : Writes s t c := by
  unfold writesNow at h
  split at h
  · rename_i c' k hs
    have := of_decide_eq_true h
    subst this
    exact ⟨k, hs⟩
  · cases h

theorem readsNow_sound {t : Thread} {c : Cell} (h : readsNow s t c = true) : Touches s t c := by
  unfold readsNow at h
  split at h
  · rename_i c' k hs
    have := of_decide_eq_true h
    subst this
    exact ⟨k, .inl hs⟩
  · cases h

/-- The optimisation thread tests the flag that `t` sets. -/
def flagNow (s : State) (n : Nat) : Bool :=
  match s.stack .loop, s.stack (.api n) with | .test _ :: _, .act .request :: _ => true | _, _ => false

theorem flagNow_sound {n : Nat} (h : flagNow s n = true) : FlagRace s := by
  unfold flagNow at h
  split at h
  · rename_i a k k' h1 h2
    exact ⟨⟨a, k, h1⟩, n, k', h2⟩
  · cases h

theorem writesNow_touches {t : Thread} {c : Cell} (h : writesNow s t c = true) : Touches s t c :=
  (writesNow_sound h).imp fun _ h => .inr h

end

end Dpgo.Conc
