import Verif.Spec.Concurrency

/-! # A discipline checked on function bodies holds in every execution -/

namespace Dpgo.Conc

open Cmd

/-- Locks are acquired only if `P held l` and actions done only if `A held a`, `held` being the locks held. -/
def Cmd.ok (P : List Lock → Lock → Bool) (A : List Lock → Act → Bool) : List Lock → Cmd → Bool
  | _, .skip => true
  | H, .act a => A H a
  | H, .seq a b => a.ok P A H && b.ok P A H
  | H, .either a b => a.ok P A H && b.ok P A H
  | H, .many a => a.ok P A H
  | H, .hold l a => P H l && a.ok P A (l :: H)
  | H, .ifRunning a b => a.ok P A H && b.ok P A H
  | _, .unlock _ => false
  | H, .loop a => H.isEmpty && a.ok P A []
  | H, .test a => H.isEmpty && a.ok P A []

/-- The rest of a thread, scopes being closed in order. -/
inductive StackOk (P : List Lock → Lock → Bool) (A : List Lock → Act → Bool) : List Lock → List Cmd → Prop
  | nil : StackOk P A [] []
  | cons {H c k} : c.ok P A H = true → StackOk P A H k → StackOk P A H (c :: k)
  | close {l H k} : l ∉ H → StackOk P A H k → StackOk P A (l :: H) (.unlock l :: k)

/-- The discipline holds for all threads, with `H t` the locks held by `t`. -/
structure Disciplined (P : Thread → List Lock → Lock → Bool) (A : Thread → List Lock → Act → Bool) (s : State)
    (H : Thread → List Lock) : Prop where
  stack : ∀ t, StackOk (P t) (A t) (H t) (s.stack t)
  owner : ∀ l t, s.owner l = some t ↔ l ∈ H t

theorem upd_self {α β : Type} [DecidableEq α] (f : α → β) (a : α) (b : β) : upd f a b a = b := if_pos rfl

theorem upd_ne {α β : Type} [DecidableEq α] (f : α → β) {a x : α} (b : β) (h : x ≠ a) : upd f a b x = f x :=
  if_neg h

section
variable {P : List Lock → Lock → Bool} {A : List Lock → Act → Bool} {H : List Lock} {c : Cmd} {k : List Cmd}

theorem StackOk.cons_inv (h : StackOk P A H (c :: k)) (hc : ∀ l, c ≠ .unlock l) :
    c.ok P A H = true ∧ StackOk P A H k := by
  cases h with
  | cons h1 h2 => exact ⟨h1, h2⟩
  | close h1 h2 => exact absurd rfl (hc _)

theorem StackOk.close_inv {l : Lock} (h : StackOk P A H (.unlock l :: k)) :
    ∃ H', H = l :: H' ∧ l ∉ H' ∧ StackOk P A H' k := by
  cases h with
  | cons h1 h2 => simp [Cmd.ok] at h1
  | close h1 h2 => exact ⟨_, rfl, h1, h2⟩

theorem StackOk.held (h : StackOk P A H []) : H = [] := by cases h; rfl

end

section
variable {cfg : Config} {may : Nat → Call → Prop} {P : Thread → List Lock → Lock → Bool}
  {A : Thread → List Lock → Act → Bool} {s s' : State} {H : Thread → List Lock}

/-- Same locks, other rest for one thread. -/
theorem Disciplined.keep (h : Disciplined P A s H) {t : Thread} {k : List Cmd} (ho : s'.owner = s.owner)
    (hs : s'.stack = upd s.stack t k) (hk : StackOk (P t) (A t) (H t) k) : Disciplined P A s' H := by
  refine ⟨fun t' => ?_, fun l t' => by rw [ho]; exact h.owner l t'⟩
  rw [hs]
  by_cases c : t' = t
  · subst c; rw [upd_self]; exact hk
  · rw [upd_ne _ _ c]; exact h.stack t'

theorem Disciplined.exec (h : Disciplined P A s H)
    (hloop : (iterate cfg true).ok (P .loop) (A .loop) [] = true)
    (hspawn : ∀ t H, A t H .spawn = true → t ≠ .loop)
    (hfree : s.handle ≠ .joinable → H .loop = [])
    {t : Thread} {c : Cmd} {k : List Cmd} (hs : s.stack t = c :: k)
    (he : Exec cfg s t c k s') : ∃ H', Disciplined P A s' H' := by
  have hst := h.stack t
  rw [hs] at hst
  cases he with
  | skip =>
    obtain ⟨-, h2⟩ := hst.cons_inv (by simp)
    exact ⟨H, h.keep rfl rfl h2⟩
  | seq =>
    obtain ⟨h1, h2⟩ := hst.cons_inv (by simp)
    simp only [Cmd.ok, Bool.and_eq_true] at h1
    exact ⟨H, h.keep rfl rfl (.cons h1.1 (.cons h1.2 h2))⟩
  | left =>
    obtain ⟨h1, h2⟩ := hst.cons_inv (by simp)
    simp only [Cmd.ok, Bool.and_eq_true] at h1
    exact ⟨H, h.keep rfl rfl (.cons h1.1 h2)⟩
  | right =>
    obtain ⟨h1, h2⟩ := hst.cons_inv (by simp)
    simp only [Cmd.ok, Bool.and_eq_true] at h1
    exact ⟨H, h.keep rfl rfl (.cons h1.2 h2)⟩
  | done =>
    obtain ⟨-, h2⟩ := hst.cons_inv (by simp)
    exact ⟨H, h.keep rfl rfl h2⟩
  | more =>
    obtain ⟨h1, h2⟩ := hst.cons_inv (by simp)
    exact ⟨H, h.keep rfl rfl (.cons (by simpa only [Cmd.ok] using h1) (.cons h1 h2))⟩
  | @acquire l a _ hfree =>
    obtain ⟨h1, h2⟩ := hst.cons_inv (by simp)
    simp only [Cmd.ok, Bool.and_eq_true] at h1
    have hno : ∀ t', l ∉ H t' := fun t' hin => by
      have := (h.owner l t').2 hin
      rw [hfree] at this; cases this
    refine ⟨upd H t (l :: H t), fun t' => ?_, fun l' t' => ?_⟩
    · show StackOk _ _ _ (upd s.stack t _ t')
      by_cases c : t' = t
      · subst c; rw [upd_self, upd_self]; exact .cons h1.2 (.close (hno t') h2)
      · rw [upd_ne _ _ c, upd_ne _ _ c]; exact h.stack t'
    · show upd s.owner l (some t) l' = some t' ↔ _
      by_cases c : l' = l
      · subst c
        rw [upd_self]
        by_cases d : t' = t
        · subst d; rw [upd_self]; simp
        · rw [upd_ne _ _ d]
          exact ⟨fun e => absurd (Option.some.inj e).symm d, fun e => absurd e (hno t')⟩
      · rw [upd_ne _ _ c, h.owner]
        by_cases d : t' = t
        · subst d; rw [upd_self]; simp [c]
        · rw [upd_ne _ _ d]
  | @release l _ =>
    obtain ⟨H', e1, e2, e3⟩ := hst.close_inv
    refine ⟨upd H t H', fun t' => ?_, fun l' t' => ?_⟩
    · show StackOk _ _ _ (upd s.stack t _ t')
      by_cases c : t' = t
      · subst c; rw [upd_self, upd_self]; exact e3
      · rw [upd_ne _ _ c, upd_ne _ _ c]; exact h.stack t'
    · show upd s.owner l none l' = some t' ↔ _
      by_cases c : l' = l
      · subst c
        rw [upd_self]
        refine ⟨fun e => (by cases e), fun e => ?_⟩
        by_cases d : t' = t
        · subst d; rw [upd_self] at e; exact absurd e e2
        · rw [upd_ne _ _ d] at e
          have o1 := (h.owner l' t').2 e
          have o2 := (h.owner l' t).2 (by rw [e1]; simp)
          rw [o1] at o2
          exact absurd (Option.some.inj o2) d
      · rw [upd_ne _ _ c, h.owner]
        by_cases d : t' = t
        · subst d; rw [upd_self, e1]; simp [c]
        · rw [upd_ne _ _ d]
  | running hh =>
    obtain ⟨h1, h2⟩ := hst.cons_inv (by simp)
    simp only [Cmd.ok, Bool.and_eq_true] at h1
    exact ⟨H, h.keep rfl rfl (.cons h1.1 h2)⟩
  | idle hh =>
    obtain ⟨h1, h2⟩ := hst.cons_inv (by simp)
    simp only [Cmd.ok, Bool.and_eq_true] at h1
    exact ⟨H, h.keep rfl rfl (.cons h1.2 h2)⟩
  | read =>
    obtain ⟨-, h2⟩ := hst.cons_inv (by simp)
    exact ⟨H, h.keep rfl rfl h2⟩
  | write =>
    obtain ⟨-, h2⟩ := hst.cons_inv (by simp)
    exact ⟨H, h.keep rfl rfl h2⟩
  | request =>
    obtain ⟨-, h2⟩ := hst.cons_inv (by simp)
    exact ⟨H, h.keep rfl rfl h2⟩
  | join hh hh' =>
    obtain ⟨-, h2⟩ := hst.cons_inv (by simp)
    exact ⟨H, h.keep rfl rfl h2⟩
  | joinCrash => exact ⟨H, h.stack, h.owner⟩
  | drop hh =>
    obtain ⟨-, h2⟩ := hst.cons_inv (by simp)
    exact ⟨H, h.keep rfl rfl h2⟩
  | dropCrash => exact ⟨H, h.stack, h.owner⟩
  | clear =>
    obtain ⟨-, h2⟩ := hst.cons_inv (by simp)
    exact ⟨H, h.keep rfl rfl h2⟩
  | spawn hh =>
    obtain ⟨h1, h2⟩ := hst.cons_inv (by simp)
    have hne := hspawn t _ h1
    refine ⟨H, fun t' => ?_, h.owner⟩
    show StackOk _ _ _ (upd (upd s.stack .loop _) t _ t')
    by_cases c : t' = t
    · subst c; rw [upd_self]; exact h2
    · rw [upd_ne _ _ c]
      by_cases d : t' = .loop
      · subst d
        rw [upd_self, hfree hh]
        exact .cons (by simp [Cmd.ok, hloop]) .nil
      · rw [upd_ne _ _ d]; exact h.stack t'
  | spawnCrash => exact ⟨H, h.stack, h.owner⟩
  | abort => exact ⟨H, h.stack, h.owner⟩
  | round =>
    obtain ⟨h1, h2⟩ := hst.cons_inv (by simp)
    have h3 := h1
    simp only [Cmd.ok, Bool.and_eq_true, List.isEmpty_iff] at h1
    exact ⟨H, h.keep rfl rfl (.cons (by rw [h1.1]; exact h1.2) (.cons (by simpa only [Cmd.ok] using h3) h2))⟩
  | again hh =>
    obtain ⟨h1, h2⟩ := hst.cons_inv (by simp)
    exact ⟨H, h.keep rfl rfl (.cons (by simpa only [Cmd.ok] using h1) h2)⟩
  | finish hh =>
    obtain ⟨-, h2⟩ := hst.cons_inv (by simp)
    exact ⟨H, h.keep rfl rfl h2⟩

theorem set_other (s : State) {t t' : Thread} (k : List Cmd) (h : t' ≠ t) : (s.set t k).stack t' = s.stack t' :=
  upd_ne _ _ h

theorem set_self (s : State) (t : Thread) (k : List Cmd) : (s.set t k).stack t = k := upd_self _ _ _

/-- No thread besides a joinable one is left over. -/
theorem Exec.ended (hi : s.handle ≠ .joinable → s.stack .loop = []) {t : Thread} {c : Cmd} {k : List Cmd}
    (hs : s.stack t = c :: k) (he : Exec cfg s t c k s') : s'.handle ≠ .joinable → s'.stack .loop = [] := by
  have gen : ∀ q : State, ∀ k', q.handle = s.handle → q.stack = s.stack →
      (q.set t k').handle ≠ .joinable → (q.set t k').stack .loop = [] := by
    intro q k' h1 h2 h3
    have h3' : s.handle ≠ .joinable := by rw [← h1]; exact h3
    have h4 := hi h3'
    by_cases d : t = .loop
    · subst d; rw [hs] at h4; cases h4
    · rw [set_other _ _ (Ne.symm d), h2]; exact h4
  cases he with
  | join h h' =>
    intro _
    by_cases d : t = .loop
    · subst d; rw [hs] at h'; cases h'
    · rw [set_other _ _ (Ne.symm d)]; exact h'
  | drop h =>
    intro _
    by_cases d : t = .loop
    · subst d; rw [hi h] at hs; cases hs
    · rw [set_other _ _ (Ne.symm d)]; exact hi h
  | spawn h => intro c; exact absurd rfl c
  | joinCrash => exact hi
  | dropCrash => exact hi
  | spawnCrash => exact hi
  | abort => exact hi
  | _ => exact gen _ _ rfl rfl

theorem Reach.ended (h : Reach cfg may s) : s.handle ≠ .joinable → s.stack .loop = [] := by
  obtain ⟨es, h⟩ := h
  induction h with
  | nil => exact fun _ => rfl
  | snoc _ hstep ih =>
    cases hstep with
    | call h hm hi => exact ih
    | move h hs he => exact Exec.ended ih hs he

/-- The discipline holds in every execution. -/
theorem disciplined (hcall : ∀ n c, may n c → (prog cfg c).ok (P (.api n)) (A (.api n)) [] = true)
    (hloop : (iterate cfg true).ok (P .loop) (A .loop) [] = true)
    (hspawn : ∀ t H, A t H .spawn = true → t ≠ .loop) (h : Reach cfg may s) :
    ∃ H, Disciplined P A s H := by
  obtain ⟨es, h⟩ := h
  induction h with
  | nil => exact ⟨fun _ => [], fun _ => .nil, fun l t => by simp [State.new]⟩
  | @snoc es s₁ e s₂ hp hstep ih =>
    obtain ⟨H, hd⟩ := ih
    cases hstep with
    | @call n c h hm hi =>
      refine ⟨H, hd.keep (t := .api n) rfl rfl ?_⟩
      have h0 := hd.stack (.api n)
      rw [hi] at h0
      rw [h0.held]
      exact .cons (hcall n c hm) .nil
    | move h hs he =>
      refine hd.exec hloop hspawn (fun hh => ?_) hs he
      have h0 := hd.stack .loop
      rw [Reach.ended ⟨es, hp⟩ hh] at h0
      exact h0.held

end

end Dpgo.Conc
