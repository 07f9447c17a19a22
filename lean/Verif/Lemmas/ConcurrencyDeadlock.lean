import Verif.Lemmas.Concurrency

/-! # Lock order and absence of deadlocks -/

namespace Dpgo.Conc

open Cmd

/-- Checks function bodies for all parameters. -/
macro "check_prog " a:ident r:ident x:ident y:ident z:ident : tactic =>
  `(tactic| first
    | rfl
    | (cases $a:ident <;> rfl)
    | (cases $z:ident <;> rfl)
    | (cases $a:ident <;> cases $r:ident <;> rfl)
    | (cases $a:ident <;> cases $x:ident <;> rfl)
    | (cases $a:ident <;> cases $r:ident <;> cases $y:ident <;> rfl)
    | (rename_i b; cases b <;> cases $a:ident <;> rfl))

/-- The order in which locks are acquired. -/
def Lock.rank : Lock → Nat
  | .poses => 0 | .measurements => 1 | .neighbors => 2

/-- Every lock held has a smaller rank. -/
def ordered (H : List Lock) (l : Lock) : Bool := H.all fun l' => l'.rank < l.rank

/-- Threads that wait for the optimisation thread hold no lock; that thread does neither. -/
def joinsFree (t : Thread) (H : List Lock) (a : Act) : Bool :=
  match a with
  | .join => H.isEmpty && (match t with | .loop => false | .api _ => true)
  | .spawn => (match t with | .loop => false | .api _ => true)
  | _ => true

section
variable {cfg : Config} {may : Nat → Call → Prop} {s s' : State} {H : Thread → List Lock}
  {P : Thread → List Lock → Lock → Bool} {A : Thread → List Lock → Act → Bool}

/-- Locks wanted by a thread are allowed by the discipline. -/
theorem Disciplined.wants (h : Disciplined P A s H) {t : Thread} {l : Lock} {a : Cmd} {k : List Cmd}
    (hs : s.stack t = .hold l a :: k) : P t (H t) l = true := by
  have h0 := h.stack t
  rw [hs] at h0
  obtain ⟨h1, -⟩ := h0.cons_inv (by simp)
  simp only [Cmd.ok, Bool.and_eq_true] at h1
  exact h1.1

/-- Actions of a thread are allowed by the discipline. -/
theorem Disciplined.does (h : Disciplined P A s H) {t : Thread} {a : Act} {k : List Cmd}
    (hs : s.stack t = .act a :: k) : A t (H t) a = true := by
  have h0 := h.stack t
  rw [hs] at h0
  obtain ⟨h1, -⟩ := h0.cons_inv (by simp)
  exact h1

/-- A thread that holds a lock has not finished. -/
theorem Disciplined.busy (h : Disciplined P A s H) {t : Thread} {l : Lock} (hl : l ∈ H t) : s.stack t ≠ [] := by
  intro c
  have h0 := h.stack t
  rw [c] at h0
  rw [h0.held] at hl
  cases hl

theorem noDeadlock_ordered (h : Disciplined (fun _ => ordered) joinsFree s H) : ¬ Deadlock s := by
  rintro ⟨S, ⟨t0, ht0⟩, hS⟩
  have key : ∀ n : Nat, ∀ t ∈ S, ∀ l ∈ H t, 2 - l.rank < n → False := by
    intro n
    induction n with
    | zero => intro t _ l _ hl; omega
    | succ n ih =>
      intro t ht l hl hn
      obtain ⟨t', ht', hw⟩ := hS t ht
      rcases hw with ⟨l', a, k, hs, ho⟩ | ⟨k, hs, -, -, -⟩
      · have hp := h.wants hs
        have hr : l.rank < l'.rank := by
          have := List.all_eq_true.1 hp l hl
          simpa using this
        have hb : l'.rank ≤ 2 := by cases l' <;> decide
        exact ih t' ht' l' ((h.owner l' t').1 ho) (by omega)
      · have hp := h.does hs
        simp only [joinsFree, Bool.and_eq_true, List.isEmpty_iff] at hp
        rw [hp.1] at hl
        cases hl
  have lockWait : ∀ t ∈ S, ∀ l a k, s.stack t = .hold l a :: k → False := by
    intro t ht l a k hs
    obtain ⟨t', ht', hw⟩ := hS t ht
    rcases hw with ⟨l', a', k', hs', ho⟩ | ⟨k', hs', -, -, -⟩
    · exact key _ t' ht' l' ((h.owner l' t').1 ho) (Nat.lt_succ_self _)
    · rw [hs] at hs'; simp at hs'
  obtain ⟨t', ht', hw⟩ := hS t0 ht0
  rcases hw with ⟨l, a, k, hs, -⟩ | ⟨k, hs, -, -, rfl⟩
  · exact lockWait t0 ht0 l a k hs
  · obtain ⟨t'', -, hw⟩ := hS _ ht'
    rcases hw with ⟨l, a, k', hs', -⟩ | ⟨k', hs', -, -, -⟩
    · exact lockWait _ ht' l a k' hs'
    · have hp := h.does hs'
      simp [joinsFree] at hp

/-- A thread that cannot take a step waits for another one that has not finished. -/
theorem blocked_waits (h : Disciplined P A s H) {t : Thread} (hb : Busy s t)
    (hno : ∀ s', ¬ Step cfg may s (.move t) s') (hc : s.crashed = false) :
    ∃ t', Busy s t' ∧ WaitsFor s t t' := by
  unfold Busy at hb
  cases hs : s.stack t with
  | nil => exact absurd hs hb
  | cons c k =>
    have no : ∀ s', ¬ Exec cfg s t c k s' := fun s' he => hno s' (.move hc hs he)
    cases c with
    | skip => exact absurd .skip (no _)
    | seq a b => exact absurd .seq (no _)
    | either a b => exact absurd .left (no _)
    | many a => exact absurd .done (no _)
    | hold l a =>
      cases ho : s.owner l with
      | none => exact absurd (.acquire ho) (no _)
      | some t' => exact ⟨t', h.busy ((h.owner l t').1 ho), .inl ⟨l, a, k, hs, ho⟩⟩
    | ifRunning a b =>
      by_cases hh : s.handle = .null
      · exact absurd (.idle hh) (no _)
      · exact absurd (.running hh) (no _)
    | unlock l => exact absurd .release (no _)
    | loop a => exact absurd .round (no _)
    | test a =>
      cases hf : s.flag with
      | true => exact absurd (.finish hf) (no _)
      | false => exact absurd (.again hf) (no _)
    | act a =>
      cases a with
      | read c => exact absurd .read (no _)
      | write c => exact absurd .write (no _)
      | request => exact absurd .request (no _)
      | join =>
        by_cases hj : s.handle = .joinable
        · by_cases hl : s.stack .loop = []
          · exact absurd (.join hj hl) (no _)
          · exact ⟨.loop, hl, .inr ⟨k, hs, hj, hl, rfl⟩⟩
        · exact absurd (.joinCrash hj) (no _)
      | drop =>
        by_cases hj : s.handle = .joinable
        · exact absurd (.dropCrash hj) (no _)
        · exact absurd (.drop hj) (no _)
      | clear => exact absurd .clear (no _)
      | spawn =>
        by_cases hj : s.handle = .joinable
        · exact absurd (.spawnCrash hj) (no _)
        · exact absurd (.spawn hj) (no _)
      | abort => exact absurd .abort (no _)

/-- Without a deadlock, some busy thread can take a step. -/
theorem progress (h : Disciplined P A s H) (hd : ¬ Deadlock s) {t : Thread} (hb : Busy s t)
    (hc : s.crashed = false) : ∃ t' s', Busy s t' ∧ Step cfg may s (.move t') s' := by
  by_contra hno
  refine hd ⟨{t | Busy s t}, ⟨t, hb⟩, fun t' ht' => ?_⟩
  exact blocked_waits (cfg := cfg) (may := may) h ht' (fun s' hs' => hno ⟨t', s', ht', hs'⟩) hc

/-! ## The lock order in the code -/

/-- Every function acquires locks in order, except the weight update that resets the estimate. -/
theorem prog_ordered (c : Call) (n : Nat) (h : cfg.resets = false ∨ c ≠ .updateMeasurementWeights) :
    (prog cfg c).ok ordered (joinsFree (.api n)) [] = true := by
  obtain ⟨a, r, x, y, z⟩ := cfg
  by_cases hc : c = .updateMeasurementWeights
  · subst hc
    have : x = false := h.resolve_right (fun c => c rfl)
    subst this
    cases a <;> rfl
  · clear h
    cases c <;> first | exact absurd rfl hc | (clear hc; check_prog a r x y z)

theorem loop_ordered : (iterate cfg true).ok ordered (joinsFree .loop) [] = true := by
  obtain ⟨a, r, x, y, z⟩ := cfg
  cases a <;> rfl

theorem reach_ordered (h : cfg.resets = false ∨ ∀ n, ¬ may n .updateMeasurementWeights) (hr : Reach cfg may s) :
    ∃ H, Disciplined (fun _ => ordered) joinsFree s H := by
  refine disciplined (fun n c hm => prog_ordered c n ?_) loop_ordered ?_ hr
  · exact h.imp_right fun h e => h n (e ▸ hm)
  · rintro t H h rfl
    simp [joinsFree] at h

/-! ## No thread is started -/

/-- Nothing here starts or waits for the optimisation thread as long as there is none. -/
def Cmd.dormant : Cmd → Bool
  | .skip => true
  | .act a => (match a with | .read _ => true | .write _ => true | .drop => true | .clear => true
                            | .abort => true | _ => false)
  | .seq a b => a.dormant && b.dormant
  | .either a b => a.dormant && b.dormant
  | .many a => a.dormant
  | .hold _ a => a.dormant
  | .ifRunning _ b => b.dormant
  | .unlock _ => true
  | .loop _ => false
  | .test _ => false

/-- There is no optimisation thread and none is about to be started. -/
structure Dormant (s : State) : Prop where
  handle : s.handle = .null
  loop : s.stack .loop = []
  rest : ∀ t, ∀ c ∈ s.stack t, c.dormant = true

theorem Dormant.keep (h : Dormant s) {t : Thread} {k : List Cmd} {c : Cmd} {k' : List Cmd}
    (hst : s.stack t = c :: k') (h1 : s'.handle = s.handle)
    (h2 : s'.stack = upd s.stack t k) (h3 : ∀ c ∈ k, c.dormant = true) : Dormant s' := by
  have hne : Thread.loop ≠ t := by
    rintro rfl
    rw [h.loop] at hst; cases hst
  refine ⟨h1.trans h.handle, ?_, fun t' => ?_⟩
  · rw [h2, upd_ne _ _ hne]; exact h.loop
  · rw [h2]
    by_cases d : t' = t
    · subst d; rw [upd_self]; exact h3
    · rw [upd_ne _ _ d]; exact h.rest t'

theorem Dormant.exec (h : Dormant s) {t : Thread} {c : Cmd} {k : List Cmd} (hs : s.stack t = c :: k)
    (he : Exec cfg s t c k s') : Dormant s' ∧ s'.rounds = s.rounds ∧ s'.spawned = s.spawned := by
  have hc : c.dormant = true := h.rest t c (by rw [hs]; simp)
  have hk : ∀ c ∈ k, c.dormant = true := fun c hc => h.rest t c (by rw [hs]; simp [hc])
  have two : ∀ {a : Cmd}, a.dormant = true → ∀ c ∈ a :: k, c.dormant = true := by
    intro a ha c hc
    rcases List.mem_cons.1 hc with rfl | hc
    · exact ha
    · exact hk c hc
  have three : ∀ {a b : Cmd}, a.dormant = true → b.dormant = true → ∀ c ∈ a :: b :: k, c.dormant = true := by
    intro a b ha hb c hc
    rcases List.mem_cons.1 hc with rfl | hc
    · exact ha
    · exact two hb c hc
  cases he with
  | skip => exact ⟨h.keep hs rfl rfl hk, rfl, rfl⟩
  | seq =>
    simp only [Cmd.dormant, Bool.and_eq_true] at hc
    exact ⟨h.keep hs rfl rfl (three hc.1 hc.2), rfl, rfl⟩
  | left =>
    simp only [Cmd.dormant, Bool.and_eq_true] at hc
    exact ⟨h.keep hs rfl rfl (two hc.1), rfl, rfl⟩
  | right =>
    simp only [Cmd.dormant, Bool.and_eq_true] at hc
    exact ⟨h.keep hs rfl rfl (two hc.2), rfl, rfl⟩
  | done => exact ⟨h.keep hs rfl rfl hk, rfl, rfl⟩
  | more => exact ⟨h.keep hs rfl rfl (three (by simpa only [Cmd.dormant] using hc) hc), rfl, rfl⟩
  | acquire ho =>
    exact ⟨h.keep hs rfl rfl (three (by simpa only [Cmd.dormant] using hc) (by simp [Cmd.dormant])), rfl, rfl⟩
  | release => exact ⟨h.keep hs rfl rfl hk, rfl, rfl⟩
  | running hh => exact absurd h.handle hh
  | idle hh => exact ⟨h.keep hs rfl rfl (two (by simpa only [Cmd.dormant] using hc)), rfl, rfl⟩
  | read => exact ⟨h.keep hs rfl rfl hk, rfl, rfl⟩
  | write => exact ⟨h.keep hs rfl rfl hk, rfl, rfl⟩
  | request => simp [Cmd.dormant] at hc
  | join h1 h2 => simp [Cmd.dormant] at hc
  | joinCrash h1 => simp [Cmd.dormant] at hc
  | drop h1 => exact ⟨h.keep hs h.handle.symm rfl hk, rfl, rfl⟩
  | dropCrash h1 => rw [h.handle] at h1; cases h1
  | clear => exact ⟨h.keep hs rfl rfl hk, rfl, rfl⟩
  | spawn h1 => simp [Cmd.dormant] at hc
  | spawnCrash h1 => simp [Cmd.dormant] at hc
  | abort => exact ⟨⟨h.handle, h.loop, h.rest⟩, rfl, rfl⟩
  | round => simp [Cmd.dormant] at hc
  | again h1 => simp [Cmd.dormant] at hc
  | finish h1 => simp [Cmd.dormant] at hc

theorem prog_dormant (c : Call) (h : ¬ Starts cfg c) : (prog cfg c).dormant = true := by
  obtain ⟨a, r, x, y, z⟩ := cfg
  by_cases hc : c = .initialize
  · subst hc
    cases y with
    | true => exact absurd rfl h
    | false => cases a <;> cases r <;> rfl
  · cases c <;> first | exact absurd rfl hc | exact absurd trivial h | (clear h hc; check_prog a r x y z)

/-- Without a call that starts it, there is no optimisation thread. -/
theorem Dormant.path (h : Dormant s) {es : List Event} (hp : Path cfg may s es s')
    (hes : ∀ n c, Event.call n c ∈ es → ¬ Starts cfg c) :
    Dormant s' ∧ s'.rounds = s.rounds ∧ s'.spawned = s.spawned := by
  induction hp with
  | nil => exact ⟨h, rfl, rfl⟩
  | @snoc es s₁ e s₂ hp hstep ih =>
    obtain ⟨h1, h2, h3⟩ := ih fun n c hc => hes n c (by simp [hc])
    cases hstep with
    | @call n c hcr hm hi =>
      refine ⟨⟨h1.handle, ?_, fun t => ?_⟩, h2, h3⟩
      · rw [set_other _ _ (by simp)]; exact h1.loop
      · by_cases d : t = .api n
        · subst d
          rw [set_self]
          intro c' hc'
          rw [List.mem_singleton.1 hc']
          exact prog_dormant c (hes n c (by simp))
        · rw [set_other _ _ d]; exact h1.rest t
    | move hcr hs he =>
      obtain ⟨g1, g2, g3⟩ := h1.exec hs he
      exact ⟨g1, g2.trans h2, g3.trans h3⟩

theorem Dormant.new : Dormant .new := ⟨rfl, rfl, fun t c hc => by cases hc⟩

/-! ## One thread with nested locks -/

/-- User thread 0 may nest locks in any order; the others hold one at a time. -/
def driverLocks (t : Thread) (H : List Lock) (l : Lock) : Bool :=
  match t with | .api 0 => !H.contains l | .api _ => H.isEmpty | .loop => !H.contains l

theorem noDeadlock_driver (h : Disciplined driverLocks A s H) (hn : Dormant s) : ¬ Deadlock s := by
  rintro ⟨S, ⟨t0, ht0⟩, hS⟩
  have wait : ∀ t ∈ S, ∃ t' ∈ S, ∃ l a k, s.stack t = .hold l a :: k ∧ l ∈ H t' := by
    intro t ht
    obtain ⟨t', ht', hw⟩ := hS t ht
    rcases hw with ⟨l, a, k, hs, ho⟩ | ⟨k, hs, hj, -⟩
    · exact ⟨t', ht', l, a, k, hs, (h.owner l t').1 ho⟩
    · rw [hn.handle] at hj; cases hj
  have holder : ∀ t ∈ S, ∀ l ∈ H t, t = .api 0 := by
    intro t ht l hl
    obtain ⟨t', ht', l', a, k, hs, -⟩ := wait t ht
    have hp := h.wants hs
    unfold driverLocks at hp
    split at hp
    · rfl
    · rw [List.isEmpty_iff.1 hp] at hl; cases hl
    · rw [hn.loop] at hs; cases hs
  obtain ⟨t', ht', l, a, k, -, hl⟩ := wait t0 ht0
  have e := holder t' ht' l hl
  subst e
  obtain ⟨t'', ht'', l', a', k', hs', hl'⟩ := wait _ ht'
  have e := holder t'' ht'' l' hl'
  subst e
  have hp := h.wants hs'
  simp [driverLocks] at hp
  exact hp hl'

theorem prog_driver (c : Call) : (prog cfg c).ok (driverLocks (.api 0)) (fun _ _ => true) [] = true := by
  obtain ⟨a, r, x, y, z⟩ := cfg
  cases c <;> check_prog a r x y z

theorem loop_driver : (iterate cfg true).ok (driverLocks .loop) (fun _ a => decide (a ≠ .spawn)) [] = true := by
  obtain ⟨a, r, x, y, z⟩ := cfg
  cases a <;> rfl

theorem prog_leaf (c : Call) (hc : Leaf c) :
    (prog cfg c).ok (fun H _ => H.isEmpty) (fun _ _ => true) [] = true := by
  obtain ⟨a, r, x, y, z⟩ := cfg
  cases c <;> first | exact False.elim hc | (clear hc; check_prog a r x y z)

theorem reach_driver (h : ∀ n c, may n c → n = 0 ∨ Leaf c) (hr : Reach cfg may s) :
    ∃ H, Disciplined driverLocks (fun t _ a => decide (t ≠ .loop ∨ a ≠ .spawn)) s H := by
  refine disciplined (fun n c hm => ?_) ?_ (fun t H h1 h2 => by subst h2; simp at h1) hr
  · have triv : (fun (_ : List Lock) (a : Act) => decide (Thread.api n ≠ .loop ∨ a ≠ .spawn)) =
        fun _ _ => true := by funext _ _; simp
    rw [triv]
    cases n with
    | zero => exact prog_driver c
    | succ n =>
      rcases h _ c hm with h0 | h0
      · cases h0
      · exact prog_leaf c h0
  · have same : (fun (_ : List Lock) (a : Act) => decide (Thread.loop ≠ .loop ∨ a ≠ .spawn)) =
        fun _ a => decide (a ≠ .spawn) := by funext _ _; simp
    rw [same]
    exact loop_driver

/-- Threads call only what they may. -/
theorem path_may {s₀ : State} {es : List Event} (hp : Path cfg may s₀ es s) :
    ∀ n c, Event.call n c ∈ es → may n c := by
  induction hp with
  | nil => intro n c hc; cases hc
  | snoc _ hstep ih =>
    intro n c hc
    rcases List.mem_append.1 hc with hc | hc
    · exact ih n c hc
    · cases hstep with
      | call h1 h2 h3 => cases List.mem_singleton.1 hc; exact h2
      | move h1 h2 h3 => cases List.mem_singleton.1 hc

end

end Dpgo.Conc
