import Verif.Lemmas.ConcurrencyDeadlock

/-! # One thread controls the optimisation thread -/

namespace Dpgo.Conc

open Cmd

/-- Reads and writes. -/
def plain : Act → Bool
  | .read _ | .write _ => true
  | _ => false

/-- Only actions `Q`, no look at the optimisation thread, and loops only if `m`. -/
def Cmd.quiet (Q : Act → Bool) (m : Bool := true) : Cmd → Bool
  | .skip => true
  | .act a => Q a
  | .seq a b => a.quiet Q m && b.quiet Q m
  | .either a b => a.quiet Q m && b.quiet Q m
  | .many a => m && a.quiet Q m
  | .hold _ a => a.quiet Q m
  | .unlock _ => true
  | .ifRunning _ _ | .loop _ | .test _ => false

/-- Steps left, at most, for commands without loops. -/
def Cmd.weight : Cmd → Nat
  | .skip => 1
  | .act _ => 1
  | .seq a b => a.weight + b.weight + 1
  | .either a b => a.weight + b.weight + 1
  | .many _ => 1
  | .hold _ a => a.weight + 2
  | .ifRunning a b => a.weight + b.weight + 1
  | .unlock _ => 1
  | .loop a => a.weight + 2
  | .test _ => 1

/-- The same for the rest of a thread. -/
def weight (k : List Cmd) : Nat := (k.map Cmd.weight).sum

theorem weight_append (k k' : List Cmd) : weight (k ++ k') = weight k + weight k' := by simp [weight]

/-- `endOptimizationLoop` once it has found the thread running. -/
def endBody : Cmd := act .request ;; act .join ;; act .drop ;; act .clear

/-- What the controlling thread knows: `true` if the optimisation thread does not run.  `A b a` says which
actions it may do with this knowledge. -/
def Cmd.flow (A : Bool → Act → Bool) : Bool → Cmd → Option Bool
  | b, .skip => some b
  | b, .act a => if A b a then some b else none
  | b, .seq x y => (x.flow A b).bind fun b' => y.flow A b'
  | b, .either x y => (x.flow A b).bind fun u => (y.flow A b).map fun v => u && v
  | b, .many x => if x.quiet (A false) then some b else none
  | b, .hold _ x => x.flow A b
  | _, .ifRunning x y =>
    if x = endBody ∧ y = .skip then some true
    else if x = .skip ∧ y = .act .spawn then some false
    else (x.flow A false).bind fun u => (y.flow A true).map fun v => u && v
  | b, .unlock _ => some b
  | _, .loop _ => none
  | _, .test _ => none

/-- The same for the rest of a thread. -/
def Flows (A : Bool → Act → Bool) : Bool → List Cmd → Prop
  | _, [] => True
  | b, c :: k => ∃ r, c.flow A b = some r ∧ Flows A r k

/-- Knowing more allows more; control of the thread only in `start` and `end`. -/
structure Lawful (A : Bool → Act → Bool) : Prop where
  mono : ∀ a, A false a = true → A true a = true
  tame : ∀ b a, A b a = true → a = .abort ∨ plain a = true

section
variable {cfg : Config} {may : Nat → Call → Prop} {s s' : State} {A : Bool → Act → Bool}

theorem Lawful.le (hA : Lawful A) {b b' : Bool} (hb : b = true → b' = true) {a : Act} (h : A b a = true) :
    A b' a = true := by
  cases b <;> cases b'
  · exact h
  · exact hA.mono a h
  · exact absurd (hb rfl) (by decide)
  · exact h

theorem flow_mono (hA : Lawful A) (c : Cmd) : ∀ {b b' r : Bool}, (b = true → b' = true) →
    c.flow A b = some r → ∃ r', c.flow A b' = some r' ∧ (r = true → r' = true) := by
  induction c with
  | skip => intro b b' r hb h; cases h; exact ⟨b', rfl, hb⟩
  | act a =>
    intro b b' r hb h
    simp only [Cmd.flow] at h ⊢
    split at h
    · rename_i ha
      cases h
      rw [if_pos (hA.le hb ha)]
      exact ⟨b', rfl, hb⟩
    · cases h
  | seq x y ihx ihy =>
    intro b b' r hb h
    simp only [Cmd.flow, Option.bind_eq_some_iff] at h ⊢
    obtain ⟨u, h1, h2⟩ := h
    obtain ⟨u', g1, g2⟩ := ihx hb h1
    obtain ⟨r', g3, g4⟩ := ihy g2 h2
    exact ⟨r', ⟨u', g1, g3⟩, g4⟩
  | either x y ihx ihy =>
    intro b b' r hb h
    simp only [Cmd.flow, Option.bind_eq_some_iff, Option.map_eq_some_iff] at h ⊢
    obtain ⟨u, h1, v, h2, rfl⟩ := h
    obtain ⟨u', g1, g2⟩ := ihx hb h1
    obtain ⟨v', g3, g4⟩ := ihy hb h2
    refine ⟨u' && v', ⟨u', g1, v', g3, rfl⟩, fun h => ?_⟩
    rw [Bool.and_eq_true] at h ⊢
    exact ⟨g2 h.1, g4 h.2⟩
  | many x ih =>
    intro b b' r hb h
    simp only [Cmd.flow] at h ⊢
    split at h
    · rename_i hx
      cases h
      rw [if_pos hx]
      exact ⟨b', rfl, hb⟩
    · cases h
  | hold l x ih => intro b b' r hb h; exact ih hb h
  | ifRunning x y ihx ihy => intro b b' r hb h; exact ⟨r, h, id⟩
  | unlock l => intro b b' r hb h; cases h; exact ⟨b', rfl, hb⟩
  | loop x ih => intro b b' r hb h; cases h
  | test x ih => intro b b' r hb h; cases h

theorem Flows.mono (hA : Lawful A) {k : List Cmd} : ∀ {b b' : Bool}, (b = true → b' = true) → Flows A b k →
    Flows A b' k := by
  induction k with
  | nil => intro b b' _ _; trivial
  | cons c k ih =>
    intro b b' hb h
    obtain ⟨r, h1, h2⟩ := h
    obtain ⟨r', g1, g2⟩ := flow_mono hA c hb h1
    exact ⟨r', g1, ih g2 h2⟩

theorem flow_quiet (hA : Lawful A) (c : Cmd) {b : Bool} (h : c.quiet (A false) = true) :
    c.flow A b = some b := by
  induction c with
  | skip => rfl
  | act a => simp only [Cmd.flow]; rw [if_pos (hA.le (by simp) h)]
  | seq x y ihx ihy =>
    simp only [Cmd.quiet, Bool.and_eq_true] at h
    simp only [Cmd.flow, ihx h.1, ihy h.2, Option.bind_some]
  | either x y ihx ihy =>
    simp only [Cmd.quiet, Bool.and_eq_true] at h
    simp [Cmd.flow, ihx h.1, ihy h.2]
  | many x ih =>
    simp only [Cmd.quiet, Bool.true_and] at h
    simp only [Cmd.flow]; exact if_pos h
  | hold l x ih => exact ih h
  | unlock l => rfl
  | ifRunning x y => cases h
  | loop x => cases h
  | test x => cases h

/-- Where the controlling thread is: `k` is its rest, `h` the thread object, `f` the request. -/
inductive Phase (A : Bool → Act → Bool) : List Cmd → Handle → Bool → Prop
  | calm {b k h} : Flows A b k → (b = true → h = .null) → h ≠ .joined → Phase A k h false
  | found {k} : Flows A true k → Phase A (endBody :: k) .joinable false
  | asking {k} : Flows A true k → Phase A (.act .request :: (act .join ;; act .drop ;; act .clear) :: k) .joinable false
  | asked {k} : Flows A true k → Phase A ((act .join ;; act .drop ;; act .clear) :: k) .joinable true
  | joining {k} : Flows A true k → Phase A (.act .join :: (act .drop ;; act .clear) :: k) .joinable true
  | joined {k} : Flows A true k → Phase A ((act .drop ;; act .clear) :: k) .joined true
  | dropping {k} : Flows A true k → Phase A (.act .drop :: .act .clear :: k) .joined true
  | dropped {k} : Flows A true k → Phase A (.act .clear :: k) .null true
  | starting {k} : Flows A false k → Phase A (.act .spawn :: k) .null false

/-- What the optimisation thread still has to do. -/
def LoopForm (cfg : Config) (k : List Cmd) : Prop :=
  k = [] ∨ k = [.loop (iterate cfg true)] ∨
    ∃ k', k = k' ++ [.test (iterate cfg true)] ∧ ∀ c ∈ k', c.quiet plain false = true

/-- User thread 0 controls the optimisation thread; the other threads read and write. -/
structure Controlled (cfg : Config) (A : Bool → Act → Bool) (s : State) : Prop where
  phase : Phase A (s.stack (.api 0)) s.handle s.flag
  ended : s.handle ≠ .joinable → s.stack .loop = []
  loop : LoopForm cfg (s.stack .loop)
  others : ∀ n, n ≠ 0 → ∀ c ∈ s.stack (.api n), c.quiet plain = true

/-- What does not change when a thread does something quiet. -/
structure Frame (s s' : State) (t : Thread) (k : List Cmd) : Prop where
  stack : s'.stack = upd s.stack t k
  handle : s'.handle = s.handle
  flag : s'.flag = s.flag
  rounds : s'.rounds = s.rounds
  spawned : s'.spawned = s.spawned
  crashed : s'.crashed = s.crashed

theorem exec_quiet {t : Thread} {c : Cmd} {k : List Cmd} {Q : Act → Bool} {m : Bool} (hQ : ∀ a, Q a = true → plain a = true)
    (hc : c.quiet Q m = true) (he : Exec cfg s t c k s') :
    ∃ k', Frame s s' t (k' ++ k) ∧ (∀ c ∈ k', c.quiet Q m = true) ∧ (m = false → weight k' < c.weight) := by
  cases he with
  | skip => exact ⟨[], ⟨rfl, rfl, rfl, rfl, rfl, rfl⟩, by simp, fun _ => by simp [weight, Cmd.weight]⟩
  | @seq a b _ =>
    simp only [Cmd.quiet, Bool.and_eq_true] at hc
    exact ⟨[a, b], ⟨rfl, rfl, rfl, rfl, rfl, rfl⟩, by simp [hc], fun _ => by simp [weight, Cmd.weight]⟩
  | @left a b _ =>
    simp only [Cmd.quiet, Bool.and_eq_true] at hc
    exact ⟨[a], ⟨rfl, rfl, rfl, rfl, rfl, rfl⟩, by simp [hc], fun _ => by simp [weight, Cmd.weight]; omega⟩
  | @right a b _ =>
    simp only [Cmd.quiet, Bool.and_eq_true] at hc
    exact ⟨[b], ⟨rfl, rfl, rfl, rfl, rfl, rfl⟩, by simp [hc], fun _ => by simp [weight, Cmd.weight]; omega⟩
  | done => exact ⟨[], ⟨rfl, rfl, rfl, rfl, rfl, rfl⟩, by simp, fun _ => by simp [weight, Cmd.weight]⟩
  | @more a _ =>
    simp only [Cmd.quiet, Bool.and_eq_true] at hc
    obtain ⟨rfl, hc⟩ := hc
    exact ⟨[a, .many a], ⟨rfl, rfl, rfl, rfl, rfl, rfl⟩, by simp [hc, Cmd.quiet], fun e => by cases e⟩
  | @acquire l a _ ho =>
    simp only [Cmd.quiet] at hc
    exact ⟨[a, .unlock l], ⟨rfl, rfl, rfl, rfl, rfl, rfl⟩, by simp [hc, Cmd.quiet], fun _ => by
      simp [weight, Cmd.weight]⟩
  | release => exact ⟨[], ⟨rfl, rfl, rfl, rfl, rfl, rfl⟩, by simp, fun _ => by simp [weight, Cmd.weight]⟩
  | running hh => cases hc
  | idle hh => cases hc
  | read => exact ⟨[], ⟨rfl, rfl, rfl, rfl, rfl, rfl⟩, by simp, fun _ => by simp [weight, Cmd.weight]⟩
  | write => exact ⟨[], ⟨rfl, rfl, rfl, rfl, rfl, rfl⟩, by simp, fun _ => by simp [weight, Cmd.weight]⟩
  | request => exact absurd (hQ _ hc) (by decide)
  | join h1 h2 => exact absurd (hQ _ hc) (by decide)
  | joinCrash h1 => exact absurd (hQ _ hc) (by decide)
  | drop h1 => exact absurd (hQ _ hc) (by decide)
  | dropCrash h1 => exact absurd (hQ _ hc) (by decide)
  | clear => exact absurd (hQ _ hc) (by decide)
  | spawn h1 => exact absurd (hQ _ hc) (by decide)
  | spawnCrash h1 => exact absurd (hQ _ hc) (by decide)
  | abort => exact absurd (hQ _ hc) (by decide)
  | round => cases hc
  | again h1 => cases hc
  | finish h1 => cases hc

/-- Steps of the controlling thread. -/
inductive ControlStep (A : Bool → Act → Bool) (cfg : Config) (s s' : State) (k : List Cmd) : Prop
  /-- the optimisation thread is not concerned -/
  | plain : Frame s s' (.api 0) k → Phase A k s.handle s.flag → ControlStep A cfg s s' k
  /-- the stop is requested, waited for or acknowledged -/
  | control : s'.stack = upd s.stack (.api 0) k → s'.rounds = s.rounds → s'.spawned = s.spawned →
      s'.crashed = s.crashed → (s'.flag = false → s'.handle ≠ .joinable) → (s.handle ≠ .joinable → s'.handle ≠ .joinable) →
      (s'.handle ≠ .joinable → s.stack .loop = []) → Phase A k s'.handle s'.flag → ControlStep A cfg s s' k
  /-- the thread is created -/
  | spawn : s'.stack = upd (upd s.stack .loop [.loop (iterate cfg true)]) (.api 0) k → s.handle = .null →
      s'.handle = .joinable → s.flag = false → s'.flag = false → s'.rounds = s.rounds →
      s'.spawned = s.spawned + 1 → s'.crashed = s.crashed → Phase A k .joinable false → ControlStep A cfg s s' k
  /-- a check fails -/
  | abort : s' = s.crash → (∃ b, A b .abort = true) → ControlStep A cfg s s' k

theorem ifRunning_flow {x y : Cmd} {r : Bool} (h : (Cmd.ifRunning x y).flow A false = some r) :
    (x = endBody ∧ y = .skip ∧ r = true) ∨ (x = .skip ∧ y = .act .spawn ∧ r = false) ∨
      ∃ u v, x.flow A false = some u ∧ y.flow A true = some v ∧ r = (u && v) := by
  simp only [Cmd.flow] at h
  split at h
  · rename_i c; cases h; exact .inl ⟨c.1, c.2, rfl⟩
  · split at h
    · rename_i c; cases h; exact .inr (.inl ⟨c.1, c.2, rfl⟩)
    · simp only [Option.bind_eq_some_iff, Option.map_eq_some_iff] at h
      obtain ⟨u, h1, v, h2, rfl⟩ := h
      exact .inr (.inr ⟨u, v, h1, h2, rfl⟩)

theorem exec_control (hA : Lawful A) (hC : Controlled cfg A s) {c : Cmd} {k : List Cmd}
    (hs : s.stack (.api 0) = c :: k) (he : Exec cfg s (.api 0) c k s') :
    ∃ k', ControlStep A cfg s s' k' := by
  have hp := hC.phase
  rw [hs] at hp
  generalize hh : s.handle = h at hp
  generalize hf : s.flag = f at hp
  cases hp with
  | @calm b _ _ hfl hb hj =>
    obtain ⟨r, h1, h2⟩ := hfl
    have calm : ∀ {k'}, Flows A b k' → Phase A k' s.handle s.flag := by
      intro k' hk
      rw [hh, hf]; exact .calm hk hb hj
    cases he with
    | skip => cases h1; exact ⟨k, .plain ⟨rfl, rfl, rfl, rfl, rfl, rfl⟩ (calm h2)⟩
    | @seq x y _ =>
      simp only [Cmd.flow, Option.bind_eq_some_iff] at h1
      obtain ⟨u, g1, g2⟩ := h1
      exact ⟨_, .plain ⟨rfl, rfl, rfl, rfl, rfl, rfl⟩ (calm ⟨u, g1, r, g2, h2⟩)⟩
    | @left x y _ =>
      simp only [Cmd.flow, Option.bind_eq_some_iff, Option.map_eq_some_iff] at h1
      obtain ⟨u, g1, v, g2, rfl⟩ := h1
      exact ⟨_, .plain ⟨rfl, rfl, rfl, rfl, rfl, rfl⟩
        (calm ⟨u, g1, h2.mono hA (by rw [Bool.and_eq_true]; exact fun h => h.1)⟩)⟩
    | @right x y _ =>
      simp only [Cmd.flow, Option.bind_eq_some_iff, Option.map_eq_some_iff] at h1
      obtain ⟨u, g1, v, g2, rfl⟩ := h1
      exact ⟨_, .plain ⟨rfl, rfl, rfl, rfl, rfl, rfl⟩
        (calm ⟨v, g2, h2.mono hA (by rw [Bool.and_eq_true]; exact fun h => h.2)⟩)⟩
    | done =>
      simp only [Cmd.flow] at h1
      split at h1
      · cases h1; exact ⟨k, .plain ⟨rfl, rfl, rfl, rfl, rfl, rfl⟩ (calm h2)⟩
      · cases h1
    | @more x _ =>
      have h1' := h1
      simp only [Cmd.flow] at h1
      split at h1
      · rename_i hq
        cases h1
        exact ⟨_, .plain ⟨rfl, rfl, rfl, rfl, rfl, rfl⟩ (calm ⟨b, flow_quiet hA x hq, b, h1', h2⟩)⟩
      · cases h1
    | @acquire l x _ ho =>
      exact ⟨_, .plain ⟨rfl, rfl, rfl, rfl, rfl, rfl⟩ (calm ⟨r, h1, r, rfl, h2⟩)⟩
    | release => cases h1; exact ⟨k, .plain ⟨rfl, rfl, rfl, rfl, rfl, rfl⟩ (calm h2)⟩
    | @running x y _ hrun =>
      have hjoin : s.handle = .joinable := by
        cases hq : s.handle with
        | null => exact absurd hq hrun
        | joinable => rfl
        | joined => exact absurd (hh.symm.trans hq) hj
      rcases ifRunning_flow (r := r) h1 with ⟨rfl, rfl, rfl⟩ | ⟨rfl, rfl, rfl⟩ | ⟨u, v, g1, g2, rfl⟩
      · exact ⟨_, .plain ⟨rfl, rfl, rfl, rfl, rfl, rfl⟩ (by rw [hjoin, hf]; exact .found h2)⟩
      · refine ⟨_, .plain ⟨rfl, rfl, rfl, rfl, rfl, rfl⟩ ?_⟩
        rw [hjoin, hf]; exact .calm (b := false) ⟨false, rfl, h2⟩ (by simp) (by simp)
      · refine ⟨_, .plain ⟨rfl, rfl, rfl, rfl, rfl, rfl⟩ ?_⟩
        rw [hjoin, hf]
        exact .calm (b := false) ⟨u, g1, h2.mono hA (by rw [Bool.and_eq_true]; exact fun h => h.1)⟩
          (by simp) (by simp)
    | @idle x y _ hidle =>
      rcases ifRunning_flow (r := r) h1 with ⟨rfl, rfl, rfl⟩ | ⟨rfl, rfl, rfl⟩ | ⟨u, v, g1, g2, rfl⟩
      · refine ⟨_, .plain ⟨rfl, rfl, rfl, rfl, rfl, rfl⟩ ?_⟩
        rw [hidle, hf]; exact .calm (b := true) ⟨true, rfl, h2⟩ (fun _ => rfl) (by simp)
      · refine ⟨_, .plain ⟨rfl, rfl, rfl, rfl, rfl, rfl⟩ ?_⟩
        rw [hidle, hf]; exact .starting h2
      · refine ⟨_, .plain ⟨rfl, rfl, rfl, rfl, rfl, rfl⟩ ?_⟩
        rw [hidle, hf]
        exact .calm (b := true) ⟨v, g2, h2.mono hA (by rw [Bool.and_eq_true]; exact fun h => h.2)⟩
          (fun _ => rfl) (by simp)
    | read =>
      simp only [Cmd.flow] at h1
      split at h1
      · cases h1; exact ⟨k, .plain ⟨rfl, rfl, rfl, rfl, rfl, rfl⟩ (calm h2)⟩
      · cases h1
    | write =>
      simp only [Cmd.flow] at h1
      split at h1
      · cases h1; exact ⟨k, .plain ⟨rfl, rfl, rfl, rfl, rfl, rfl⟩ (calm h2)⟩
      · cases h1
    | abort =>
      simp only [Cmd.flow] at h1
      split at h1
      · rename_i ha
        exact ⟨k, .abort rfl ⟨_, ha⟩⟩
      · cases h1
    | round => cases h1
    | again hflag => cases h1
    | finish hflag => cases h1
    | _ =>
      simp only [Cmd.flow] at h1
      split at h1
      · rename_i ha
        rcases hA.tame _ _ ha with c | c
        · cases c
        · exact absurd c (by decide)
      · cases h1
  | found hfl =>
    cases he
    exact ⟨_, .plain ⟨rfl, rfl, rfl, rfl, rfl, rfl⟩ (by rw [hh, hf]; exact .asking hfl)⟩
  | asking hfl =>
    cases he
    refine ⟨_, .control rfl rfl rfl rfl ?_ ?_ ?_ (by show Phase A _ s.handle true; rw [hh]; exact .asked hfl)⟩
    · intro c; cases c
    · intro c; exact c
    · intro c; exact absurd hh c
  | asked hfl =>
    cases he
    exact ⟨_, .plain ⟨rfl, rfl, rfl, rfl, rfl, rfl⟩ (by rw [hh, hf]; exact .joining hfl)⟩
  | joining hfl =>
    cases he with
    | join h1 h2 =>
      refine ⟨_, .control rfl rfl rfl rfl ?_ ?_ ?_ (by show Phase A _ .joined s.flag; rw [hf]; exact .joined hfl)⟩
      · intro _ c; cases c
      · intro _ c; cases c
      · intro _; exact h2
    | joinCrash h1 => exact absurd hh h1
  | joined hfl =>
    cases he
    exact ⟨_, .plain ⟨rfl, rfl, rfl, rfl, rfl, rfl⟩ (by rw [hh, hf]; exact .dropping hfl)⟩
  | dropping hfl =>
    cases he with
    | drop h1 =>
      refine ⟨_, .control rfl rfl rfl rfl ?_ ?_ ?_ (by show Phase A _ .null s.flag; rw [hf]; exact .dropped hfl)⟩
      · intro _ c; cases c
      · intro _ c; cases c
      · intro _; exact hC.ended h1
    | dropCrash h1 => rw [hh] at h1; cases h1
  | dropped hfl =>
    cases he
    refine ⟨_, .control rfl rfl rfl rfl ?_ ?_ ?_
      (by show Phase A _ s.handle false; rw [hh]; exact .calm hfl (fun _ => rfl) (by simp))⟩
    · intro _ c; rw [show s.handle = _ from c] at hh; cases hh
    · intro c; exact c
    · intro c; exact hC.ended c
  | starting hfl =>
    cases he with
    | spawn h1 =>
      exact ⟨_, .spawn rfl hh rfl hf hf rfl rfl rfl (.calm hfl (by simp) (by simp))⟩
    | spawnCrash h1 => rw [hh] at h1; cases h1

/-- Steps of the optimisation thread. -/
inductive LoopStep (cfg : Config) (s s' : State) (c : Cmd) (k : List Cmd) : Prop
  | quiet {k₁ k'} : c.quiet plain false = true → k = k₁ ++ [.test (iterate cfg true)] →
      Frame s s' .loop (k' ++ k) → weight k' < c.weight → (∀ c ∈ k', c.quiet plain false = true) →
      (∀ c ∈ k₁, c.quiet plain false = true) → LoopStep cfg s s' c k
  | round : c = .loop (iterate cfg true) → k = [] →
      s' = { s with rounds := s.rounds + 1 }.set .loop [iterate cfg true, .test (iterate cfg true)] →
      LoopStep cfg s s' c k
  | again : c = .test (iterate cfg true) → k = [] → s.flag = false →
      s' = s.set .loop [.loop (iterate cfg true)] → LoopStep cfg s s' c k
  | finish : c = .test (iterate cfg true) → k = [] → s.flag = true → s' = s.set .loop [] → LoopStep cfg s s' c k

theorem exec_loop (hL : LoopForm cfg (s.stack .loop)) {c : Cmd} {k : List Cmd} (hs : s.stack .loop = c :: k)
    (he : Exec cfg s .loop c k s') : LoopStep cfg s s' c k := by
  rw [hs] at hL
  rcases hL with h | h | ⟨k', h, hq⟩
  · cases h
  · cases h
    cases he
    exact .round rfl rfl rfl
  · cases k' with
    | nil =>
      cases h
      cases he with
      | again hf => exact .again rfl rfl hf rfl
      | finish hf => exact .finish rfl rfl hf rfl
    | cons c' k' =>
      cases h
      have hc := hq _ (by simp : c ∈ c :: k')
      obtain ⟨k'', hF, hq'', hw⟩ := exec_quiet (fun _ h => h) hc he
      exact .quiet hc rfl hF (hw rfl) hq'' fun c hc => hq c (by simp [hc])

theorem iterate_quiet : (iterate cfg true).quiet plain false = true := by
  obtain ⟨a, r, x, y, z⟩ := cfg
  cases a <;> rfl

theorem Frame.other {t t' : Thread} {k : List Cmd} (h : Frame s s' t k) (ht : t' ≠ t) :
    s'.stack t' = s.stack t' := by rw [h.stack, upd_ne _ _ ht]

theorem Frame.self {t : Thread} {k : List Cmd} (h : Frame s s' t k) : s'.stack t = k := by
  rw [h.stack, upd_self]

/-- The conditions on calls. -/
structure Allowed (cfg : Config) (A : Bool → Act → Bool) (may : Nat → Call → Prop) : Prop where
  lawful : Lawful A
  control : ∀ c, may 0 c → ((prog cfg c).flow A false).isSome = true
  others : ∀ n c, n ≠ 0 → may n c → (prog cfg c).quiet plain = true

theorem Controlled.step (hA : Allowed cfg A may) (hC : Controlled cfg A s) {e : Event}
    (hs : Step cfg may s e s') : Controlled cfg A s' := by
  cases hs with
  | @call n c hcr hm hi =>
    refine ⟨?_, ?_, ?_, ?_⟩
    · by_cases hn : n = 0
      · subst hn
        rw [set_self]
        show Phase A _ s.handle s.flag
        have hp := hC.phase
        rw [hi] at hp
        generalize hh : s.handle = h at hp
        generalize hf : s.flag = f at hp
        cases hp with
        | calm h1 h2 h3 =>
          obtain ⟨r, hr⟩ := Option.isSome_iff_exists.1 (hA.control c hm)
          exact .calm (b := false) ⟨r, hr, trivial⟩ (by simp) h3
      · rw [set_other _ _ (by simpa using Ne.symm hn)]; exact hC.phase
    · rw [set_other _ _ (by simp)]; exact hC.ended
    · rw [set_other _ _ (by simp)]; exact hC.loop
    · intro n' hn' c' hc'
      by_cases d : n' = n
      · subst d
        rw [set_self] at hc'
        rw [List.mem_singleton.1 hc']
        exact hA.others n' c hn' hm
      · rw [set_other _ _ (by simpa using d)] at hc'
        exact hC.others n' hn' c' hc'
  | @move t c k s' hcr hst he =>
    cases t with
    | loop =>
      have hne : ∀ n, Thread.api n ≠ .loop := fun n => by simp
      have hj : s.handle = .joinable := by
        by_contra hj
        rw [hC.ended hj] at hst; cases hst
      cases exec_loop hC.loop hst he with
      | quiet hc hk hF hw hq hq1 =>
        refine ⟨?_, ?_, ?_, ?_⟩
        · rw [hF.other (hne 0), hF.handle, hF.flag]; exact hC.phase
        · intro h; rw [hF.handle] at h; exact absurd hj h
        · rw [hF.self, hk, ← List.append_assoc]
          refine .inr (.inr ⟨_, rfl, fun c hc => ?_⟩)
          rcases List.mem_append.1 hc with h | h
          · exact hq c h
          · exact hq1 c h
        · intro n hn; rw [hF.other (hne n)]; exact hC.others n hn
      | round hc hk e =>
        subst e
        refine ⟨?_, ?_, ?_, ?_⟩
        · rw [set_other _ _ (hne 0)]; exact hC.phase
        · intro h; exact absurd hj h
        · rw [set_self]
          exact .inr (.inr ⟨[iterate cfg true], rfl, fun c hc => by
            rw [List.mem_singleton.1 hc]; exact iterate_quiet⟩)
        · intro n hn; rw [set_other _ _ (hne n)]; exact hC.others n hn
      | again hc hk hf e =>
        subst e
        refine ⟨?_, ?_, ?_, ?_⟩
        · rw [set_other _ _ (hne 0)]; exact hC.phase
        · intro h; exact absurd hj h
        · rw [set_self]; exact .inr (.inl rfl)
        · intro n hn; rw [set_other _ _ (hne n)]; exact hC.others n hn
      | finish hc hk hf e =>
        subst e
        refine ⟨?_, ?_, ?_, ?_⟩
        · rw [set_other _ _ (hne 0)]; exact hC.phase
        · intro h; exact absurd hj h
        · rw [set_self]; exact .inl rfl
        · intro n hn; rw [set_other _ _ (hne n)]; exact hC.others n hn
    | api n =>
      by_cases hn : n = 0
      · subst hn
        obtain ⟨k', hstep⟩ := exec_control hA.lawful hC hst he
        have hl : Thread.loop ≠ .api 0 := by simp
        cases hstep with
        | plain hF hp =>
          refine ⟨?_, ?_, ?_, ?_⟩
          · rw [hF.self, hF.handle, hF.flag]; exact hp
          · rw [hF.other hl, hF.handle]; exact hC.ended
          · rw [hF.other hl]; exact hC.loop
          · intro m hm; rw [hF.other (by simpa using hm)]; exact hC.others m hm
        | control h1 h2 h3 h4 h5 h6 h7 hp =>
          refine ⟨?_, ?_, ?_, ?_⟩
          · rw [h1, upd_self]; exact hp
          · rw [h1, upd_ne _ _ hl]; exact h7
          · rw [h1, upd_ne _ _ hl]; exact hC.loop
          · intro m hm; rw [h1, upd_ne _ _ (by simpa using hm)]; exact hC.others m hm
        | spawn h1 h2 h3 h4 h5 h6 h7 h8 hp =>
          refine ⟨?_, ?_, ?_, ?_⟩
          · rw [h1, upd_self, h3, h5]; exact hp
          · intro h; exact absurd h3 h
          · rw [h1, upd_ne _ _ hl, upd_self]; exact .inr (.inl rfl)
          · intro m hm; rw [h1, upd_ne _ _ (by simpa using hm), upd_ne _ _ (by simp)]; exact hC.others m hm
        | abort h1 h2 => subst h1; exact ⟨hC.phase, hC.ended, hC.loop, hC.others⟩
      · have hc := hC.others n hn c (by rw [hst]; simp)
        obtain ⟨k', hF, hq, -⟩ := exec_quiet (fun _ h => h) hc he
        refine ⟨?_, ?_, ?_, ?_⟩
        · rw [hF.other (by simpa using Ne.symm hn), hF.handle, hF.flag]; exact hC.phase
        · rw [hF.other (by simp), hF.handle]; exact hC.ended
        · rw [hF.other (by simp)]; exact hC.loop
        · intro m hm c' hc'
          by_cases d : m = n
          · subst d
            rw [hF.self] at hc'
            rcases List.mem_append.1 hc' with h | h
            · exact hq c' h
            · exact hC.others m hm c' (by rw [hst]; simp [h])
          · rw [hF.other (by simpa using d)] at hc'
            exact hC.others m hm c' hc'

theorem Controlled.new : Controlled cfg A .new :=
  ⟨.calm (b := false) (show Flows A false [] from trivial) (by simp) (by simp [State.new]), fun _ => rfl, .inl rfl, fun n _ c hc => by cases hc⟩

theorem Controlled.path (hA : Allowed cfg A may) (hC : Controlled cfg A s) {es : List Event}
    (hp : Path cfg may s es s') : Controlled cfg A s' := by
  induction hp with
  | nil => exact hC
  | snoc _ hs ih => exact ih.step hA hs

theorem controlled (hA : Allowed cfg A may) (hr : Reach cfg may s) : Controlled cfg A s := by
  obtain ⟨es, hp⟩ := hr
  exact Controlled.new.path hA hp

end

end Dpgo.Conc
