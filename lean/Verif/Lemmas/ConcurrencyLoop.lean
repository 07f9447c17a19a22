import Verif.Lemmas.ConcurrencyControl

/-! # Starting and stopping the optimisation thread -/

namespace Dpgo.Conc

open Cmd

/-- Reads, writes and, if `ab`, failed checks. -/
def tame (ab : Bool) : Bool → Act → Bool := fun _ a => plain a || (ab && decide (a = .abort))

theorem tame_lawful (ab : Bool) : Lawful (tame ab) where
  mono _ h := h
  tame b a h := by
    simp only [tame, Bool.or_eq_true, Bool.and_eq_true, decide_eq_true_eq] at h
    exact h.elim .inr fun h => .inl h.2

section
variable {cfg : Config} {may : Nat → Call → Prop} {s s' : State} {A : Bool → Act → Bool}

theorem prog_tame (c : Call) : ((prog cfg c).flow (tame true) false).isSome = true := by
  obtain ⟨a, r, x, y, z⟩ := cfg
  cases c <;> check_prog a r x y z

theorem prog_tame' (ha : cfg.acceleration = false) (c : Call) (hc : c ≠ .setMeasurements) :
    ((prog cfg c).flow (tame false) false).isSome = true := by
  obtain ⟨a, r, x, y, z⟩ := cfg
  cases ha
  cases c <;> first
    | exact absurd rfl hc
    | (clear hc
       first
        | rfl
        | (cases r <;> rfl)
        | (cases x <;> rfl)
        | (cases z <;> rfl)
        | (cases r <;> cases y <;> rfl)
        | (rename_i b; cases b <;> rfl))

theorem prog_quiet (c : Call) (hc : ¬ Controls c) : (prog cfg c).quiet plain = true := by
  obtain ⟨a, r, x, y, z⟩ := cfg
  cases c <;> first | exact absurd trivial hc | (clear hc; check_prog a r x y z)

theorem allowed_tame (h : OneController may) : Allowed cfg (tame true) may where
  lawful := tame_lawful true
  control c _ := prog_tame c
  others n c hn hm := prog_quiet c fun hc => hn (h n c hm hc)

theorem allowed_tame' (h : OneController may) (ha : cfg.acceleration = false)
    (hm : ∀ n, ¬ may n .setMeasurements) : Allowed cfg (tame false) may where
  lawful := tame_lawful false
  control c hc := prog_tame' ha c fun e => hm 0 (e ▸ hc)
  others n c hn hm := prog_quiet c fun hc => hn (h n c hm hc)

/-! ## What other threads leave alone -/

/-- Not a step or call of user thread 0. -/
def Foreign (e : Event) : Prop := e ≠ .move (.api 0) ∧ ∀ c, e ≠ .call 0 c

theorem Controlled.foreign (hC : Controlled cfg A s) {e : Event} (hs : Step cfg may s e s') (he : Foreign e) :
    s'.handle = s.handle ∧ s'.flag = s.flag ∧ s'.spawned = s.spawned ∧ s'.crashed = s.crashed ∧
      s'.stack (.api 0) = s.stack (.api 0) := by
  cases hs with
  | @call n c hcr hm hi =>
    have hn : n ≠ 0 := by rintro rfl; exact he.2 c rfl
    exact ⟨rfl, rfl, rfl, rfl, set_other _ _ (by simpa using Ne.symm hn)⟩
  | @move t c k s' hcr hst hx =>
    cases t with
    | loop =>
      cases exec_loop hC.loop hst hx with
      | quiet hc hk hF hw hq hq1 => exact ⟨hF.handle, hF.flag, hF.spawned, hF.crashed, hF.other (by simp)⟩
      | round hc hk e => subst e; exact ⟨rfl, rfl, rfl, rfl, set_other _ _ (by simp)⟩
      | again hc hk hf e => subst e; exact ⟨rfl, rfl, rfl, rfl, set_other _ _ (by simp)⟩
      | finish hc hk hf e => subst e; exact ⟨rfl, rfl, rfl, rfl, set_other _ _ (by simp)⟩
    | api n =>
      have hn : n ≠ 0 := by rintro rfl; exact he.1 rfl
      have hc := hC.others n hn c (by rw [hst]; simp)
      obtain ⟨k', hF, hq, -⟩ := exec_quiet (fun _ h => h) hc hx
      exact ⟨hF.handle, hF.flag, hF.spawned, hF.crashed, hF.other (by simpa using Ne.symm hn)⟩

/-- The events of a path without calls by thread 0: its own steps and foreign ones. -/
theorem foreign_or {es : List Event} {e : Event} (h : NoCallBy 0 (es ++ [e])) : e = .move (.api 0) ∨ Foreign e := by
  by_cases hm : e = .move (.api 0)
  · exact .inl hm
  · exact .inr ⟨hm, fun c hc => h c (by simp [hc])⟩

theorem NoCallBy.left {n : Nat} {es es' : List Event} (h : NoCallBy n (es ++ es')) : NoCallBy n es :=
  fun c hc => h c (by simp [hc])

/-! ## Never an abnormal end -/

theorem Controlled.step_crashed (hA : Allowed cfg A may) (hno : ∀ b, A b .abort = false) (hC : Controlled cfg A s)
    {e : Event} (hs : Step cfg may s e s') : s'.crashed = false := by
  have hcr : s.crashed = false := by cases hs <;> assumption
  by_cases hf : Foreign e
  · exact ((hC.foreign hs hf).2.2.2.1).trans hcr
  · cases hs with
    | @call n c h1 h2 h3 => exact hcr
    | @move t c k s' h1 hst hx =>
      have ht : t = .api 0 := by
        by_contra ht
        exact hf ⟨fun h => ht (by injection h), fun c h => by cases h⟩
      subst ht
      obtain ⟨k', hstep⟩ := exec_control hA.lawful hC hst hx
      cases hstep with
      | plain hF hp => exact hF.crashed.trans hcr
      | control h1 h2 h3 h4 h5 h6 h7 hp => exact h4.trans hcr
      | spawn h1 h2 h3 h4 h5 h6 h7 h8 hp => exact h8.trans hcr
      | abort h1 h2 => obtain ⟨b, h2⟩ := h2; rw [hno b] at h2; cases h2

/-! ## `startOptimizationLoop` -/

/-- Inside a call of `startOptimizationLoop`. -/
def InStart (s₀ s : State) : Prop :=
  (s.stack (.api 0) = [startLoop] ∧ s.handle = s₀.handle ∧ s.spawned = s₀.spawned) ∨
  (s.stack (.api 0) = [.skip] ∧ s₀.handle ≠ .null ∧ s.handle = s₀.handle ∧ s.spawned = s₀.spawned) ∨
  (s.stack (.api 0) = [.act .spawn] ∧ s₀.handle = .null ∧ s.handle = .null ∧ s.spawned = s₀.spawned) ∨
  (s.stack (.api 0) = [] ∧ s₀.handle ≠ .null ∧ s.handle = s₀.handle ∧ s.spawned = s₀.spawned) ∨
  (s.stack (.api 0) = [] ∧ s₀.handle = .null ∧ s.handle = .joinable ∧ s.spawned = s₀.spawned + 1)

theorem inStart_path (hA : Allowed cfg A may) {s₀ : State} (hC : Controlled cfg A s)
    (h0 : InStart s₀ s) {es : List Event} (hp : Path cfg may s es s')
    (hes : NoCallBy 0 es) : InStart s₀ s' ∨ (s'.crashed = true ∧ s'.stack (.api 0) ≠ []) := by
  induction hp with
  | nil => exact .inl h0
  | @snoc es s₁ e s₂ hp hstep ih =>
    have hC1 := hC.path hA hp
    have hcr : s₁.crashed = false := by cases hstep <;> assumption
    rcases ih hes.left with h1 | h1
    · rcases foreign_or hes with he | he
      · subst he
        cases hstep with
        | @move _ c k _ hc hst hx =>
          rcases h1 with ⟨g, g1, g2⟩ | ⟨g, g1, g2, g3⟩ | ⟨g, g1, g2, g3⟩ | ⟨g, g1⟩ | ⟨g, g1⟩
          · rw [g] at hst; cases hst
            cases hx with
            | running hh =>
              exact .inl (.inr (.inl ⟨set_self _ _ _, by rw [← g1]; exact hh, g1, g2⟩))
            | idle hh => exact .inl (.inr (.inr (.inl ⟨set_self _ _ _, g1.symm.trans hh, hh, g2⟩)))
          · rw [g] at hst; cases hst
            cases hx
            exact .inl (.inr (.inr (.inr (.inl ⟨set_self _ _ _, g1, g2, g3⟩))))
          · rw [g] at hst; cases hst
            cases hx with
            | spawn hh =>
              exact .inl (.inr (.inr (.inr (.inr ⟨set_self _ _ _, g1, rfl, by show s₁.spawned + 1 = _; rw [g3]⟩))))
            | spawnCrash hh => exact .inr ⟨rfl, by show s₁.stack _ ≠ []; rw [g]; simp⟩
          · rw [g] at hst; cases hst
          · rw [g] at hst; cases hst
      · obtain ⟨f1, f2, f3, f4, f5⟩ := hC1.foreign hstep he
        left
        unfold InStart
        rw [f5, f1, f3]
        exact h1
    · rw [h1.1] at hcr; cases hcr

/-! ## `endOptimizationLoop` -/

/-- Inside a call of `endOptimizationLoop`. -/
def InEnd (s : State) : Prop :=
  s.stack (.api 0) = [endLoop] ∨ s.stack (.api 0) = [endBody] ∨
  (s.stack (.api 0) = [.skip] ∧ s.handle = .null) ∨
  s.stack (.api 0) = [.act .request, act .join ;; act .drop ;; act .clear] ∨
  s.stack (.api 0) = [act .join ;; act .drop ;; act .clear] ∨
  s.stack (.api 0) = [.act .join, act .drop ;; act .clear] ∨
  s.stack (.api 0) = [act .drop ;; act .clear] ∨
  s.stack (.api 0) = [.act .drop, .act .clear] ∨
  (s.stack (.api 0) = [.act .clear] ∧ s.handle = .null) ∨
  (s.stack (.api 0) = [] ∧ s.handle = .null)

theorem inEnd_path (hA : Allowed cfg A may) (hC : Controlled cfg A s)
    (h0 : InEnd s) {es : List Event} (hp : Path cfg may s es s')
    (hes : NoCallBy 0 es) : (InEnd s' ∧ s'.spawned = s.spawned) ∨ (s'.crashed = true ∧ s'.stack (.api 0) ≠ []) := by
  induction hp with
  | nil => exact .inl ⟨h0, rfl⟩
  | @snoc es s₁ e s₂ hp hstep ih =>
    have hC1 := hC.path hA hp
    have hcr : s₁.crashed = false := by cases hstep <;> assumption
    rcases ih hes.left with ⟨h1, hsp⟩ | h1
    · rcases foreign_or hes with he | he
      · subst he
        cases hstep with
        | @move _ c k _ hc hst hx =>
          rcases h1 with g | g | ⟨g, g1⟩ | g | g | g | g | g | ⟨g, g1⟩ | ⟨g, g1⟩ <;> rw [g] at hst <;> cases hst
          · cases hx with
            | running hh => exact .inl ⟨.inr (.inl (set_self _ _ _)), hsp⟩
            | idle hh => exact .inl ⟨.inr (.inr (.inl ⟨set_self _ _ _, hh⟩)), hsp⟩
          · cases hx
            exact .inl ⟨.inr (.inr (.inr (.inl (set_self _ _ _)))), hsp⟩
          · cases hx
            exact .inl ⟨.inr (.inr (.inr (.inr (.inr (.inr (.inr (.inr (.inr ⟨set_self _ _ _, g1⟩)))))))), hsp⟩
          · cases hx
            exact .inl ⟨.inr (.inr (.inr (.inr (.inl (set_self _ _ _))))), hsp⟩
          · cases hx
            exact .inl ⟨.inr (.inr (.inr (.inr (.inr (.inl (set_self _ _ _)))))), hsp⟩
          · cases hx with
            | join h1 h2 => exact .inl ⟨.inr (.inr (.inr (.inr (.inr (.inr (.inl (set_self _ _ _))))))), hsp⟩
            | joinCrash h1 => exact .inr ⟨rfl, by show s₁.stack _ ≠ []; rw [g]; simp⟩
          · cases hx
            exact .inl ⟨.inr (.inr (.inr (.inr (.inr (.inr (.inr (.inl (set_self _ _ _)))))))), hsp⟩
          · cases hx with
            | drop h1 =>
              exact .inl ⟨.inr (.inr (.inr (.inr (.inr (.inr (.inr (.inr (.inl ⟨set_self _ _ _, rfl⟩)))))))), hsp⟩
            | dropCrash h1 => exact .inr ⟨rfl, by show s₁.stack _ ≠ []; rw [g]; simp⟩
          · cases hx
            exact .inl ⟨.inr (.inr (.inr (.inr (.inr (.inr (.inr (.inr (.inr ⟨set_self _ _ _, g1⟩)))))))), hsp⟩
      · obtain ⟨f1, f2, f3, f4, f5⟩ := hC1.foreign hstep he
        refine .inl ⟨?_, f3.trans hsp⟩
        unfold InEnd
        rw [f5, f1]
        exact h1
    · rw [h1.1] at hcr; cases hcr

/-- The phase when the controlling thread is between calls. -/
theorem Controlled.between (hC : Controlled cfg A s) (h : s.stack (.api 0) = []) :
    s.flag = false ∧ s.handle ≠ .joined := by
  have hp := hC.phase
  rw [h] at hp
  generalize hh : s.handle = h at hp
  generalize hf : s.flag = f at hp
  cases hp with
  | calm h1 h2 h3 => exact ⟨rfl, h3⟩

/-! ## After a request -/

/-- A round is about to begin. -/
def room (cfg : Config) (s : State) : Nat := if s.stack .loop = [.loop (iterate cfg true)] then 1 else 0

/-- Steps of the optimisation thread among the events. -/
def loopMoves (es : List Event) : Nat := es.count (.move .loop)

theorem room_le (s : State) : room cfg s ≤ 1 := by unfold room; split <;> omega

theorem room_zero (h : s.stack .loop ≠ [.loop (iterate cfg true)]) : room cfg s = 0 := if_neg h

theorem room_one (h : s.stack .loop = [.loop (iterate cfg true)]) : room cfg s = 1 := if_pos h

/-- The optimisation thread has been asked to stop, or has stopped. -/
def Stopping (s : State) : Prop := s.flag = true ∨ s.stack .loop = []

theorem Controlled.spawned_mono (hA : Allowed cfg A may) (hC : Controlled cfg A s) {e : Event}
    (hs : Step cfg may s e s') : s.spawned ≤ s'.spawned := by
  by_cases hf : Foreign e
  · exact (hC.foreign hs hf).2.2.1.ge
  · cases hs with
    | @call n c h1 h2 h3 => exact le_refl _
    | @move t c k s' h1 hst hx =>
      have ht : t = .api 0 := by
        by_contra ht
        exact hf ⟨fun h => ht (by injection h), fun c h => by cases h⟩
      subst ht
      obtain ⟨k', hstep⟩ := exec_control hA.lawful hC hst hx
      cases hstep with
      | plain hF hp => exact hF.spawned.ge
      | control h1 h2 h3 h4 h5 h6 h7 hp => exact h3.ge
      | spawn h1 h2 h3 h4 h5 h6 h7 h8 hp => omega
      | abort h1 h2 => subst h1; exact le_refl _

theorem loop_test_ne {k : List Cmd} : k ++ [.test (iterate cfg true)] ≠ [.loop (iterate cfg true)] := by
  intro h
  have := congrArg List.getLast? h
  simp at this

/-- One step after a request: what is left becomes less. -/
theorem Controlled.stopping (hA : Allowed cfg A may) (hC : Controlled cfg A s) (hst : Stopping s) {e : Event}
    (hs : Step cfg may s e s') (hsp : s'.spawned = s.spawned) :
    Stopping s' ∧ s'.rounds + room cfg s' ≤ s.rounds + room cfg s ∧
      weight (s'.stack .loop) + loopMoves [e] ≤ weight (s.stack .loop) := by
  have same : s'.stack .loop = s.stack .loop → s'.rounds = s.rounds → e ≠ .move .loop →
      (s'.flag = s.flag ∨ s'.stack .loop = [] ∨ s'.flag = true) →
      Stopping s' ∧ s'.rounds + room cfg s' ≤ s.rounds + room cfg s ∧
      weight (s'.stack .loop) + loopMoves [e] ≤ weight (s.stack .loop) := by
    intro h1 h2 h3 h4
    refine ⟨?_, ?_, ?_⟩
    · rcases h4 with h4 | h4 | h4
      · unfold Stopping; rw [h1, h4]; exact hst
      · exact .inr h4
      · exact .inl h4
    · unfold room; rw [h1, h2]
    · rw [h1]; simp [loopMoves, h3]
  cases hs with
  | @call n c h1 h2 h3 => exact same (set_other _ _ (by simp)) rfl (by simp) (.inl rfl)
  | @move t c k s' hcr hstk hx =>
    cases t with
    | loop =>
      have hflag : s.flag = true := hst.resolve_right (by rw [hstk]; simp)
      have hm : loopMoves [Event.move .loop] = 1 := by simp [loopMoves]
      have hL := hC.loop
      cases exec_loop hC.loop hstk hx with
      | @quiet k₁ k' hc hk hF hw hq hq1 =>
        refine ⟨.inl (hF.flag.trans hflag), ?_, ?_⟩
        · rw [hF.rounds, room_zero (by rw [hF.self, hk, ← List.append_assoc]; exact loop_test_ne)]
          omega
        · rw [hF.self, hstk, hm, weight_append]
          have : weight (c :: k) = c.weight + weight k := by simp [weight]
          omega
      | round hc hk e =>
        subst e hc hk
        refine ⟨.inl hflag, ?_, ?_⟩
        · rw [room_zero (by rw [set_self]; simp), room_one hstk]
          show s.rounds + 1 + 0 ≤ _
          omega
        · rw [set_self, hstk, hm]
          simp only [weight, Cmd.weight, List.map_cons, List.map_nil, List.sum_cons, List.sum_nil]
          omega
      | again hc hk hf e => rw [hflag] at hf; cases hf
      | finish hc hk hf e =>
        subst e hc hk
        refine ⟨.inr (set_self _ _ _), ?_, ?_⟩
        · rw [room_zero (by rw [set_self]; simp)]
          show s.rounds + 0 ≤ _
          omega
        · rw [set_self, hstk, hm]
          simp [weight, Cmd.weight]
    | api n =>
      by_cases hn : n = 0
      · subst hn
        obtain ⟨k', hstep⟩ := exec_control hA.lawful hC hstk hx
        cases hstep with
        | plain hF hp => exact same (hF.other (by simp)) hF.rounds (by simp) (.inl hF.flag)
        | control h1 h2 h3 h4 h5 h6 h7 hp =>
          have e1 : s'.stack .loop = s.stack .loop := by rw [h1, upd_ne _ _ (by simp)]
          refine same e1 h2 (by simp) ?_
          cases hf : s'.flag with
          | true => exact .inr (.inr rfl)
          | false => exact .inr (.inl (e1.trans (h7 (h5 hf))))
        | spawn h1 h2 h3 h4 h5 h6 h7 h8 hp => omega
        | abort h1 h2 => subst h1; exact same rfl rfl (by simp) (.inl rfl)
      · have hc := hC.others n hn c (by rw [hstk]; simp)
        obtain ⟨k', hF, hq, -⟩ := exec_quiet (fun _ h => h) hc hx
        exact same (hF.other (by simp)) hF.rounds (by simp) (.inl hF.flag)

theorem loopMoves_append (es es' : List Event) : loopMoves (es ++ es') = loopMoves es + loopMoves es' := by
  simp [loopMoves]

theorem Controlled.path_spawned (hA : Allowed cfg A may) (hC : Controlled cfg A s) {es : List Event}
    (hp : Path cfg may s es s') : s.spawned ≤ s'.spawned := by
  induction hp with
  | nil => exact le_refl _
  | snoc hp hs ih => exact ih.trans ((hC.path hA hp).spawned_mono hA hs)

theorem stopping_path (hA : Allowed cfg A may) (hC : Controlled cfg A s) (hst : Stopping s) {es : List Event}
    (hp : Path cfg may s es s') (hsp : s'.spawned = s.spawned) :
    Stopping s' ∧ s'.rounds + room cfg s' ≤ s.rounds + room cfg s ∧
      weight (s'.stack .loop) + loopMoves es ≤ weight (s.stack .loop) := by
  induction hp with
  | nil => exact ⟨hst, le_refl _, by simp [loopMoves]⟩
  | @snoc es s₁ e s₂ hp hs ih =>
    have h1 := hC.path_spawned hA hp
    have h2 := (hC.path hA hp).spawned_mono hA hs
    obtain ⟨g1, g2, g3⟩ := ih (by omega)
    obtain ⟨k1, k2, k3⟩ := (hC.path hA hp).stopping hA g1 hs (by omega)
    refine ⟨k1, k2.trans g2, ?_⟩
    rw [loopMoves_append]
    omega

/-- The weight of the optimisation thread is bounded. -/
def loopBound (cfg : Config) : Nat := (Cmd.loop (iterate cfg true)).weight

theorem Controlled.bound (hA : Allowed cfg A may) (hC : Controlled cfg A s)
    (h : weight (s.stack .loop) ≤ loopBound cfg) {e : Event} (hs : Step cfg may s e s') :
    weight (s'.stack .loop) ≤ loopBound cfg := by
  cases hs with
  | @call n c h1 h2 h3 => rw [set_other _ _ (by simp)]; exact h
  | @move t c k s' hcr hstk hx =>
    cases t with
    | loop =>
      have hb : weight (c :: k) = c.weight + weight k := by simp [weight]
      rw [hstk, hb] at h
      cases exec_loop hC.loop hstk hx with
      | @quiet k₁ k' hc hk hF hw hq hq1 => rw [hF.self, weight_append]; omega
      | round hc hk e => subst e hc hk; rw [set_self]; simp [weight, loopBound, Cmd.weight]
      | again hc hk hf e => subst e hc hk; rw [set_self]; simp [weight, loopBound, Cmd.weight]
      | finish hc hk hf e => subst e hc hk; rw [set_self]; simp [weight]
    | api n =>
      by_cases hn : n = 0
      · subst hn
        obtain ⟨k', hstep⟩ := exec_control hA.lawful hC hstk hx
        cases hstep with
        | plain hF hp => rw [hF.other (by simp)]; exact h
        | control h1 h2 h3 h4 h5 h6 h7 hp => rw [h1, upd_ne _ _ (by simp)]; exact h
        | spawn h1 h2 h3 h4 h5 h6 h7 h8 hp =>
          rw [h1, upd_ne _ _ (by simp), upd_self]; simp [weight, loopBound]
        | abort h1 h2 => subst h1; exact h
      · have hc := hC.others n hn c (by rw [hstk]; simp)
        obtain ⟨k', hF, hq, -⟩ := exec_quiet (fun _ h => h) hc hx
        rw [hF.other (by simp)]; exact h

theorem reach_bound (hA : Allowed cfg A may) (hr : Reach cfg may s) : weight (s.stack .loop) ≤ loopBound cfg := by
  obtain ⟨es, hp⟩ := hr
  induction hp with
  | nil => exact Nat.zero_le _
  | snoc hp hs ih => exact (controlled hA ⟨_, hp⟩).bound hA ih hs

/-! ## Every thread runs at least one round -/

theorem Controlled.rounds (hA : Allowed cfg A may) (hC : Controlled cfg A s)
    (h : s.spawned ≤ s.rounds + room cfg s) {e : Event} (hs : Step cfg may s e s') :
    s'.spawned ≤ s'.rounds + room cfg s' := by
  have same : s'.stack .loop = s.stack .loop → s'.rounds = s.rounds → s'.spawned = s.spawned →
      s'.spawned ≤ s'.rounds + room cfg s' := by
    intro h1 h2 h3
    unfold room; rw [h1, h2, h3]; exact h
  cases hs with
  | @call n c h1 h2 h3 => exact same (set_other _ _ (by simp)) rfl rfl
  | @move t c k s' hcr hstk hx =>
    cases t with
    | loop =>
      cases exec_loop hC.loop hstk hx with
      | @quiet k₁ k' hc hk hF hw hq hq1 =>
        rw [room_zero (by rw [hstk, hk]; exact loop_test_ne (k := c :: k₁))] at h
        rw [hF.rounds, hF.spawned]
        omega
      | round hc hk e =>
        subst e hc hk
        have := room_le (cfg := cfg) s
        show s.spawned ≤ s.rounds + 1 + _
        omega
      | again hc hk hf e =>
        subst e hc hk
        rw [room_zero (by rw [hstk]; simp)] at h
        show s.spawned ≤ s.rounds + _
        omega
      | finish hc hk hf e =>
        subst e hc hk
        rw [room_zero (by rw [hstk]; simp)] at h
        show s.spawned ≤ s.rounds + _
        omega
    | api n =>
      by_cases hn : n = 0
      · subst hn
        obtain ⟨k', hstep⟩ := exec_control hA.lawful hC hstk hx
        cases hstep with
        | plain hF hp => exact same (hF.other (by simp)) hF.rounds hF.spawned
        | control h1 h2 h3 h4 h5 h6 h7 hp =>
          exact same (by rw [h1, upd_ne _ _ (by simp)]) h2 h3
        | spawn h1 h2 h3 h4 h5 h6 h7 h8 hp =>
          have hl := hC.ended (by rw [h2]; simp)
          rw [room_zero (by rw [hl]; simp)] at h
          rw [room_one (by rw [h1, upd_ne _ _ (by simp), upd_self]), h6, h7]
          omega
        | abort h1 h2 => subst h1; exact same rfl rfl rfl
      · have hc := hC.others n hn c (by rw [hstk]; simp)
        obtain ⟨k', hF, hq, -⟩ := exec_quiet (fun _ h => h) hc hx
        exact same (hF.other (by simp)) hF.rounds hF.spawned

theorem reach_rounds (hA : Allowed cfg A may) (hr : Reach cfg may s) : s.spawned ≤ s.rounds + room cfg s := by
  obtain ⟨es, hp⟩ := hr
  induction hp with
  | nil => exact Nat.zero_le _
  | snoc hp hs ih => exact (controlled hA ⟨_, hp⟩).rounds hA ih hs

/-! ## Between calls with no thread running -/

theorem quiet_dormant (c : Cmd) (h : c.quiet plain = true) : c.dormant = true := by
  induction c with
  | skip => rfl
  | act a => cases a <;> first | rfl | cases h
  | seq x y ihx ihy =>
    simp only [Cmd.quiet, Bool.and_eq_true] at h
    simp only [Cmd.dormant, Bool.and_eq_true]; exact ⟨ihx h.1, ihy h.2⟩
  | either x y ihx ihy =>
    simp only [Cmd.quiet, Bool.and_eq_true] at h
    simp only [Cmd.dormant, Bool.and_eq_true]; exact ⟨ihx h.1, ihy h.2⟩
  | many x ih =>
    simp only [Cmd.quiet, Bool.true_and] at h
    exact ih h
  | hold l x ih => exact ih h
  | unlock l => rfl
  | ifRunning x y => cases h
  | loop x => cases h
  | test x => cases h

theorem Controlled.dormant (hC : Controlled cfg A s) (h0 : s.stack (.api 0) = []) (hh : s.handle = .null) :
    Dormant s := by
  have hl := hC.ended (by rw [hh]; simp)
  refine ⟨hh, hl, fun t c hc => ?_⟩
  cases t with
  | loop => rw [hl] at hc; cases hc
  | api n =>
    by_cases hn : n = 0
    · subst hn; rw [h0] at hc; cases hc
    · exact quiet_dormant c (hC.others n hn c hc)

end

end Dpgo.Conc
