import Verif.Lemmas.ConcurrencyLoop
import Verif.Lemmas.ConcurrencyRun
import Mathlib.Algebra.BigOperators.Group.Finset.Basic
import Mathlib.Algebra.Order.BigOperators.Group.Finset
import Mathlib.Tactic.Push

/-! # Every call can be completed -/

namespace Dpgo.Conc

open Cmd

theorem Cmd.weight_pos (c : Cmd) : 0 < c.weight := by
  cases c <;> simp [Cmd.weight]

section
variable {cfg : Config} {may : Nat → Call → Prop} {s s' : State} {A : Bool → Act → Bool}

/-- A step of a user thread after which it has less to do. -/
def Advance (cfg : Config) (s : State) (n : Nat) (c : Cmd) (k : List Cmd) (s' : State) : Prop :=
  Exec cfg s (.api n) c k s' ∧ weight (s'.stack (.api n)) < weight (c :: k) ∧
    ∀ m, m ≠ n → s'.stack (.api m) = s.stack (.api m)

theorem advance_or_waits {n : Nat} {c : Cmd} {k : List Cmd} (hs : s.stack (.api n) = c :: k)
    (hc : ∀ a, c ≠ .loop a ∧ c ≠ .test a) (hno : ∀ s', Exec cfg s (.api n) c k s' → s'.crashed = false) :
    (∃ s', Advance cfg s n c k s') ∨ ∃ t', WaitsFor s (.api n) t' := by
  have other : ∀ (q : State) (k' : List Cmd), q.stack = s.stack → ∀ m, m ≠ n →
      (q.set (.api n) k').stack (.api m) = s.stack (.api m) := by
    intro q k' hq m hm
    rw [set_other _ _ (by simpa using hm), hq]
  have pos := Cmd.weight_pos
  cases c with
  | skip => exact .inl ⟨_, .skip, by rw [set_self]; simp [weight, Cmd.weight], other _ _ rfl⟩
  | seq a b => exact .inl ⟨_, .seq, by rw [set_self]; simp [weight, Cmd.weight]; omega, other _ _ rfl⟩
  | either a b => exact .inl ⟨_, .left, by rw [set_self]; simp [weight, Cmd.weight]; omega, other _ _ rfl⟩
  | many a => exact .inl ⟨_, .done, by rw [set_self]; simp [weight, Cmd.weight], other _ _ rfl⟩
  | hold l a =>
    cases ho : s.owner l with
    | none => exact .inl ⟨_, .acquire ho, by rw [set_self]; simp [weight, Cmd.weight]; omega, other _ _ rfl⟩
    | some t' => exact .inr ⟨t', .inl ⟨l, a, k, hs, ho⟩⟩
  | ifRunning a b =>
    by_cases hh : s.handle = .null
    · exact .inl ⟨_, .idle hh, by rw [set_self]; simp [weight, Cmd.weight]; omega, other _ _ rfl⟩
    · exact .inl ⟨_, .running hh, by rw [set_self]; simp [weight, Cmd.weight]; omega, other _ _ rfl⟩
  | unlock l => exact .inl ⟨_, .release, by rw [set_self]; simp [weight, Cmd.weight], other _ _ rfl⟩
  | loop a => exact absurd rfl (hc a).1
  | test a => exact absurd rfl (hc a).2
  | act a =>
    cases a with
    | read c => exact .inl ⟨_, .read, by rw [set_self]; simp [weight, Cmd.weight], other _ _ rfl⟩
    | write c => exact .inl ⟨_, .write, by rw [set_self]; simp [weight, Cmd.weight], other _ _ rfl⟩
    | request => exact .inl ⟨_, .request, by rw [set_self]; simp [weight, Cmd.weight], other _ _ rfl⟩
    | join =>
      by_cases hj : s.handle = .joinable
      · by_cases hl : s.stack .loop = []
        · exact .inl ⟨_, .join hj hl, by rw [set_self]; simp [weight, Cmd.weight], other _ _ rfl⟩
        · exact .inr ⟨.loop, .inr ⟨k, hs, hj, hl, rfl⟩⟩
      · exact absurd (hno _ (.joinCrash hj)) (by simp [State.crash])
    | drop =>
      by_cases hj : s.handle = .joinable
      · exact absurd (hno _ (.dropCrash hj)) (by simp [State.crash])
      · exact .inl ⟨_, .drop hj, by rw [set_self]; simp [weight, Cmd.weight], other _ _ rfl⟩
    | clear => exact .inl ⟨_, .clear, by rw [set_self]; simp [weight, Cmd.weight], other _ _ rfl⟩
    | spawn =>
      by_cases hj : s.handle = .joinable
      · exact absurd (hno _ (.spawnCrash hj)) (by simp [State.crash])
      · refine .inl ⟨_, .spawn hj, by rw [set_self]; simp [weight, Cmd.weight], fun m hm => ?_⟩
        rw [set_other _ _ (by simpa using hm), set_other _ _ (by simp)]
    | abort => exact absurd (hno _ .abort) (by simp [State.crash])

/-- Commands of user threads are not those of the optimisation thread. -/
theorem Controlled.notLoop (hC : Controlled cfg A s) {n : Nat} {c : Cmd} {k : List Cmd}
    (hs : s.stack (.api n) = c :: k) (a : Cmd) : c ≠ .loop a ∧ c ≠ .test a := by
  by_cases hn : n = 0
  · subst hn
    have hp := hC.phase
    rw [hs] at hp
    generalize hh : s.handle = h at hp
    generalize hf : s.flag = f at hp
    cases hp with
    | calm h1 h2 h3 =>
      obtain ⟨r, h1, -⟩ := h1
      constructor <;> (rintro rfl; cases h1)
    | _ => constructor <;> (intro h; cases h)
  · have := hC.others n hn c (by rw [hs]; simp)
    constructor <;> (rintro rfl; cases this)

/-- Only the controlling thread waits for the end of the optimisation thread, after its request. -/
theorem Controlled.joins (hC : Controlled cfg A s) (hA : Lawful A) {n : Nat} {k : List Cmd}
    (hs : s.stack (.api n) = .act .join :: k) : s.flag = true := by
  by_cases hn : n = 0
  · subst hn
    have hp := hC.phase
    rw [hs] at hp
    generalize hh : s.handle = h at hp
    generalize hf : s.flag = f at hp
    cases hp with
    | calm h1 h2 h3 =>
      obtain ⟨r, h1, -⟩ := h1
      simp only [Cmd.flow] at h1
      split at h1
      · rename_i ha
        rcases hA.tame _ _ ha with c | c
        · cases c
        · exact absurd c (by decide)
      · cases h1
    | joining _ => rfl
  · exact absurd (hC.others n hn _ (by rw [hs]; exact List.mem_cons_self)) (by decide)

/-- Only finitely many threads are inside a call. -/
theorem finite_busy (hr : Reach cfg may s) : ∃ N, ∀ n, N ≤ n → s.stack (.api n) = [] := by
  obtain ⟨es, hp⟩ := hr
  induction hp with
  | nil => exact ⟨0, fun n _ => rfl⟩
  | @snoc es s₁ e s₂ hp hs ih =>
    obtain ⟨N, ih⟩ := ih
    cases hs with
    | @call n c h1 h2 h3 =>
      refine ⟨max N (n + 1), fun m hm => ?_⟩
      rw [set_other _ _ (by simp; omega)]
      exact ih m (by omega)
    | @move t c k s' h1 hst hx =>
      refine ⟨N, fun m hm => ?_⟩
      have h0 := ih m hm
      have ht : Thread.api m ≠ t := by rintro rfl; rw [h0] at hst; cases hst
      cases hx with
      | spawn h => rw [set_other _ _ ht, set_other _ _ (by simp)]; exact h0
      | joinCrash h => exact h0
      | dropCrash h => exact h0
      | spawnCrash h => exact h0
      | abort => exact h0
      | _ => rw [set_other _ _ ht]; exact h0

/-- What the user threads below `N` have to do. -/
def load (N : Nat) (s : State) : Nat := (Finset.range N).sum fun n => weight (s.stack (.api n))

/-- One step towards completion. -/
theorem advance (hA : Allowed cfg A may) (hno : ∀ b, A b .abort = false) (hC : Controlled cfg A s)
    {H : Thread → List Lock} (hD : Disciplined (fun _ => ordered) joinsFree s H) (hcr : s.crashed = false)
    {N : Nat} (hN : ∀ n, N ≤ n → s.stack (.api n) = []) (hb : ∃ n, s.stack (.api n) ≠ []) :
    ∃ t s', Step cfg may s (.move t) s' ∧ (∀ n, N ≤ n → s'.stack (.api n) = []) ∧
      (load N s' < load N s ∨ (load N s' = load N s ∧ weight (s'.stack .loop) < weight (s.stack .loop))) := by
  have hw : ∀ n c k, s.stack (.api n) = c :: k →
      (∃ s', Advance cfg s n c k s') ∨ ∃ t', WaitsFor s (.api n) t' := fun n c k hs =>
    advance_or_waits hs (hC.notLoop hs) fun s' hx => hC.step_crashed hA hno (.move (may := may) hcr hs hx)
  by_cases hadv : ∃ n c k s', s.stack (.api n) = c :: k ∧ Advance cfg s n c k s'
  · obtain ⟨n, c, k, s', hs, h1, h2, h3⟩ := hadv
    have hn : n < N := by
      by_contra hn
      rw [hN n (by omega)] at hs; cases hs
    refine ⟨.api n, s', .move hcr hs h1, fun m hm => ?_, .inl ?_⟩
    · rw [h3 m (by omega)]; exact hN m hm
    · refine Finset.sum_lt_sum (fun m _ => ?_) ⟨n, Finset.mem_range.2 hn, by rw [hs]; exact h2⟩
      by_cases hm : m = n
      · subst hm; rw [hs]; exact h2.le
      · rw [h3 m hm]
  · have hwait : ∀ n, s.stack (.api n) ≠ [] → ∃ t', WaitsFor s (.api n) t' := by
      intro n hn
      obtain ⟨c, k, hs⟩ := List.exists_cons_of_ne_nil hn
      rcases hw n c k hs with ⟨s', h⟩ | h
      · exact absurd ⟨n, c, k, s', hs, h⟩ hadv
      · exact h
    have busyOf : ∀ {t t'}, WaitsFor s t t' → s.stack t' ≠ [] := by
      rintro t t' (⟨l, a, k, -, ho⟩ | ⟨k, -, -, hl, rfl⟩)
      · exact hD.busy ((hD.owner l t').1 ho)
      · exact hl
    have hdl := noDeadlock_ordered hD
    -- some thread waits for the optimisation thread
    have hfor : ∃ n, WaitsFor s (.api n) .loop := by
      by_contra hno'
      refine hdl ⟨{t | ∃ n, t = .api n ∧ s.stack (.api n) ≠ []}, ?_, ?_⟩
      · obtain ⟨n, hn⟩ := hb; exact ⟨.api n, n, rfl, hn⟩
      · rintro t ⟨n, rfl, hn⟩
        obtain ⟨t', h⟩ := hwait n hn
        cases t' with
        | loop => exact absurd ⟨n, h⟩ hno'
        | api m => exact ⟨.api m, ⟨m, rfl, busyOf h⟩, h⟩
    obtain ⟨n, hfor⟩ := hfor
    have hbl : Busy s .loop := busyOf hfor
    have hstep : ∃ s', Step cfg may s (.move .loop) s' := by
      by_contra hno'
      obtain ⟨t', ht', hwt⟩ := blocked_waits (cfg := cfg) (may := may) hD hbl (fun s' h => hno' ⟨s', h⟩) hcr
      refine hdl ⟨{t | Busy s t}, ⟨.loop, hbl⟩, fun t ht => ?_⟩
      cases t with
      | loop => exact ⟨t', ht', hwt⟩
      | api m =>
        obtain ⟨t'', h⟩ := hwait m ht
        exact ⟨t'', busyOf h, h⟩
    obtain ⟨s', hstep⟩ := hstep
    have key : weight (s'.stack .loop) < weight (s.stack .loop) ∧ ∀ m, s'.stack (.api m) = s.stack (.api m) := by
      cases hstep with
      | @move _ c k _ h1 hst hx =>
        have hwk : weight (c :: k) = c.weight + weight k := by simp [weight]
        cases exec_loop hC.loop hst hx with
        | @quiet k₁ k' hc hk hF hlt hq hq1 =>
          refine ⟨?_, fun m => hF.other (by simp)⟩
          rw [hF.self, hst, weight_append]; omega
        | round hc hk e =>
          subst e hc hk
          refine ⟨?_, fun m => set_other _ _ (by simp)⟩
          rw [set_self, hst]; simp [weight, Cmd.weight]
        | again hc hk hf e =>
          exfalso
          subst hc hk
          rcases hfor with ⟨l, a, k, -, ho⟩ | ⟨k, hs, -⟩
          · have hl := (hD.owner l .loop).1 ho
            have h0 := hD.stack .loop
            rw [hst] at h0
            obtain ⟨g1, -⟩ := h0.cons_inv (by simp)
            simp only [Cmd.ok, Bool.and_eq_true, List.isEmpty_iff] at g1
            rw [g1.1] at hl; cases hl
          · have := hC.joins hA.lawful hs
            rw [hf] at this; cases this
        | finish hc hk hf e =>
          subst e hc hk
          refine ⟨?_, fun m => set_other _ _ (by simp)⟩
          rw [set_self, hst]; simp [weight, Cmd.weight]
    refine ⟨.loop, s', hstep, fun m hm => by rw [key.2 m]; exact hN m hm, .inr ⟨?_, key.1⟩⟩
    unfold load
    exact Finset.sum_congr rfl fun m _ => by rw [key.2 m]

/-- Every call can be completed. -/
theorem complete (h1 : OneController may) (ha : cfg.acceleration = false) (hm : ∀ n, ¬ may n .setMeasurements)
    (h : cfg.resets = false ∨ ∀ n, ¬ may n .updateMeasurementWeights) (hr : Reach cfg may s)
    (hcr : s.crashed = false) :
    ∃ es s', Path cfg may s es s' ∧ (∀ e ∈ es, ∃ t, e = .move t) ∧ ∀ n, s'.stack (.api n) = [] := by
  have hA := allowed_tame' h1 ha hm
  obtain ⟨N, hN⟩ := finite_busy hr
  generalize hL : load N s = L
  induction L using Nat.strong_induction_on generalizing s with
  | _ L ihL =>
    generalize hW : weight (s.stack .loop) = W
    induction W using Nat.strong_induction_on generalizing s with
    | _ W ihW =>
      by_cases hb : ∃ n, s.stack (.api n) ≠ []
      · have hC := controlled hA hr
        obtain ⟨H, hD⟩ := reach_ordered h hr
        obtain ⟨t, s', hs, hN', hlt⟩ := advance hA (fun _ => by rfl) hC hD hcr hN hb
        obtain ⟨es0, hp0⟩ := hr
        have hr' : Reach cfg may s' := ⟨_, hp0.snoc hs⟩
        have hcr' := hC.step_crashed hA (fun _ => by rfl) hs
        have : ∃ es s'', Path cfg may s' es s'' ∧ (∀ e ∈ es, ∃ t, e = .move t) ∧
            ∀ n, s''.stack (.api n) = [] := by
          rcases hlt with hlt | ⟨hle, hlt⟩
          · exact ihL _ (by omega) hr' hcr' hN' rfl
          · exact ihW _ (by omega) hr' hcr' hN' (by omega) rfl
        obtain ⟨es, s'', hp, he, hi⟩ := this
        refine ⟨_, s'', hp.cons hs, fun e hme => ?_, hi⟩
        rcases List.mem_cons.1 hme with rfl | hme
        · exact ⟨t, rfl⟩
        · exact he e hme
      · push Not at hb
        exact ⟨[], s, .nil, by simp, hb⟩

end

end Dpgo.Conc
