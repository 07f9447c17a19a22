import Verif.Lemmas.ConcurrencyLoop

/-! # Accesses to the estimate -/

namespace Dpgo.Conc

open Cmd

/-- The estimate is used only under its lock. -/
def locked (H : List Lock) : Act → Bool
  | .read .estimate | .write .estimate => H.contains .poses
  | _ => true

/-- The estimate is written only under its lock. -/
def writeLocked (H : List Lock) : Act → Bool
  | .write .estimate => H.contains .poses
  | .spawn => false
  | _ => true

/-- The estimate is read only under its lock and not written. -/
def readLocked (H : List Lock) : Act → Bool
  | .write .estimate => false
  | .read .estimate => H.contains .poses
  | _ => true

def free (_ : List Lock) (_ : Lock) : Bool := true

section
variable {cfg : Config} {may : Nat → Call → Prop} {s : State} {A : Thread → List Lock → Act → Bool}
  {P : Thread → List Lock → Lock → Bool} {H : Thread → List Lock}

theorem prog_locked (c : Call) (hc : ¬ Careless cfg c) : (prog cfg c).ok free locked [] = true := by
  obtain ⟨a, r, x, y, z⟩ := cfg
  by_cases hz : c = .reset
  · subst hz
    cases z with
    | true => exact absurd rfl hc
    | false => rfl
  · by_cases hb : ∃ b, c = .restartNesterovAcceleration b
    · obtain ⟨b, rfl⟩ := hb
      cases a with
      | true => exact absurd rfl hc
      | false => rfl
    · cases c <;> first | exact absurd trivial hc | exact absurd rfl hz | exact absurd ⟨_, rfl⟩ hb |
        (clear hc hz hb; check_prog a r x y z)

theorem prog_readLocked (c : Call) (hc : ¬ Careless cfg c) (hw : ¬ WritesEstimate c) :
    (prog cfg c).ok free readLocked [] = true := by
  obtain ⟨a, r, x, y, z⟩ := cfg
  by_cases hz : c = .reset
  · subst hz
    cases z with
    | true => exact absurd rfl hc
    | false => rfl
  · cases c <;> first | exact absurd trivial hc | exact absurd trivial hw | exact absurd rfl hz |
      (clear hc hz hw; check_prog a r x y z)

theorem prog_writeLocked (ha : cfg.acceleration = false) (c : Call) (hc : c ≠ .initialize) (hs : ¬ Starts cfg c) :
    (prog cfg c).ok free (fun H a => a == .spawn || writeLocked H a) [] = true := by
  obtain ⟨a, r, x, y, z⟩ := cfg
  cases ha
  clear hs
  cases c <;> first
    | exact absurd rfl hc
    | (clear hc
       first
        | rfl
        | (cases r <;> rfl)
        | (cases x <;> rfl)
        | (cases z <;> rfl)
        | (rename_i b; cases b <;> rfl))

theorem loop_free : (iterate cfg true).ok free (fun _ a => decide (a ≠ .spawn)) [] = true := by
  obtain ⟨a, r, x, y, z⟩ := cfg
  cases a <;> rfl

theorem loop_writeLocked (ha : cfg.acceleration = false) : (iterate cfg true).ok free writeLocked [] = true := by
  obtain ⟨a, r, x, y, z⟩ := cfg
  cases ha
  rfl

/-- Who touches a cell does so with an allowed action. -/
theorem Disciplined.touches (h : Disciplined P A s H) {t : Thread} {c : Cell} (ht : Touches s t c) :
    A t (H t) (.read c) = true ∨ A t (H t) (.write c) = true := by
  obtain ⟨k, hk | hk⟩ := ht
  · exact .inl (h.does hk)
  · exact .inr (h.does hk)

theorem Disciplined.unique (h : Disciplined P A s H) {t t' : Thread} {l : Lock} (h1 : l ∈ H t) (h2 : l ∈ H t') :
    t = t' := by
  have e1 := (h.owner l t).2 h1
  have e2 := (h.owner l t').2 h2
  rw [e1] at e2
  exact Option.some.inj e2

/-- Discipline where user threads use the estimate only under its lock. -/
def lockedUsers : Thread → List Lock → Act → Bool
  | .loop, _, a => decide (a ≠ .spawn)
  | .api _, H, a => locked H a

theorem reach_locked (h : ∀ n c, may n c → ¬ Careless cfg c) (hr : Reach cfg may s) :
    ∃ H, Disciplined (fun _ => free) lockedUsers s H :=
  disciplined (fun n c hm => prog_locked c (h n c hm)) loop_free
    (fun t H h1 h2 => by subst h2; simp [lockedUsers] at h1) hr

/-- Discipline where in addition the optimisation thread writes only under the lock and user threads other
than 0 do not write. -/
def guarded : Thread → List Lock → Act → Bool
  | .loop, H, a => writeLocked H a
  | .api 0, H, a => locked H a
  | .api (_ + 1), H, a => readLocked H a

theorem reach_guarded (ha : cfg.acceleration = false) (h : ∀ n c, may n c → ¬ Careless cfg c)
    (hw : ∀ n c, n ≠ 0 → may n c → ¬ WritesEstimate c) (hr : Reach cfg may s) :
    ∃ H, Disciplined (fun _ => free) guarded s H :=
  disciplined (fun n c hm => by
      cases n with
      | zero => exact prog_locked c (h 0 c hm)
      | succ n => exact prog_readLocked c (h _ c hm) (hw _ c (by simp) hm))
    (loop_writeLocked ha)
    (fun t H h1 h2 => by subst h2; simp [guarded, writeLocked] at h1) hr

/-- The controlling thread writes the estimate only if the optimisation thread does not run. -/
def writesIdle : Bool → Act → Bool := fun b a =>
  match a with
  | .write .estimate => b
  | .abort => true
  | a => plain a

theorem writesIdle_lawful : Lawful writesIdle where
  mono a h := by
    unfold writesIdle at h ⊢
    split <;> simp_all
  tame b a h := by
    unfold writesIdle at h
    split at h
    · exact .inr rfl
    · exact .inl rfl
    · exact .inr h

theorem prog_writesIdle (c : Call)
    (hw : WritesEstimate c → c = .initializeInGlobalFrame ∨ c = .updateNeighborPoses) :
    ((prog cfg c).flow writesIdle false).isSome = true := by
  obtain ⟨a, r, x, y, z⟩ := cfg
  by_cases h : WritesEstimate c
  · rcases hw h with rfl | rfl
    · cases a <;> cases r <;> rfl
    · cases a <;> cases r <;> rfl
  · clear hw
    cases c <;> first | exact absurd trivial h | (clear h; check_prog a r x y z)

theorem allowed_writesIdle (h1 : OneController may)
    (hw : ∀ n c, may n c → WritesEstimate c → c = .initializeInGlobalFrame ∨ c = .updateNeighborPoses) :
    Allowed cfg writesIdle may where
  lawful := writesIdle_lawful
  control c hm := prog_writesIdle c (hw 0 c hm)
  others n c hn hm := prog_quiet c fun hc => hn (h1 n c hm hc)

/-- When the controlling thread writes the estimate, the optimisation thread does not run. -/
theorem Controlled.writes (hC : Controlled cfg writesIdle s) (hw : Writes s (.api 0) .estimate) :
    s.stack .loop = [] := by
  obtain ⟨k, hk⟩ := hw
  have hp := hC.phase
  rw [hk] at hp
  refine hC.ended ?_
  generalize hh : s.handle = h at hp
  generalize hf : s.flag = f at hp
  cases hp with
  | @calm b _ _ h1 h2 h3 =>
    obtain ⟨r, h1, -⟩ := h1
    simp only [Cmd.flow] at h1
    split at h1
    · rename_i hb
      rw [h2 hb]; simp
    · cases h1

theorem writes_touches {t : Thread} {c : Cell} (h : Writes s t c) : Touches s t c := h.imp fun _ h => .inr h

theorem noRace_async (ha : cfg.acceleration = false) (h1 : OneController may)
    (hc : ∀ n c, may n c → ¬ Careless cfg c)
    (hw : ∀ n c, may n c → WritesEstimate c → c = .initializeInGlobalFrame ∨ c = .updateNeighborPoses)
    (hr : Reach cfg may s) : ¬ Race s .estimate := by
  have hC := controlled (allowed_writesIdle h1 hw) hr
  obtain ⟨H, hD⟩ := reach_guarded ha hc (fun n c hn hm hw' => hn (h1 n c hm (by
    rcases hw n c hm hw' with rfl | rfl <;> trivial))) hr
  rintro ⟨t, t', hne, hwr, hto⟩
  -- the writer has the lock
  have hlock : Lock.poses ∈ H t ∧ ∀ n, t ≠ .api (n + 1) := by
    obtain ⟨k, hk⟩ := hwr
    have := hD.does hk
    cases t with
    | loop => exact ⟨by simpa [guarded, writeLocked] using this, by simp⟩
    | api n =>
      cases n with
      | zero => exact ⟨by simpa [guarded, locked] using this, by simp⟩
      | succ n => simp [guarded, readLocked] at this
  cases t' with
  | loop =>
    cases t with
    | loop => exact hne rfl
    | api n =>
      cases n with
      | zero =>
        have := hC.writes hwr
        obtain ⟨k, hk | hk⟩ := hto <;> (rw [this] at hk; cases hk)
      | succ n => exact hlock.2 n rfl
  | api n =>
    have : Lock.poses ∈ H (.api n) := by
      rcases hD.touches hto with h | h
      · cases n with
        | zero => simpa [guarded, locked] using h
        | succ n => simpa [guarded, readLocked] using h
      · cases n with
        | zero => simpa [guarded, locked] using h
        | succ n => simp [guarded, readLocked] at h
    exact hne (hD.unique hlock.1 this)

/-- Discipline for one thread that does everything and others that only read. -/
def driven : Thread → List Lock → Act → Bool
  | .loop, _, a => decide (a ≠ .spawn)
  | .api 0, H, a => a == .spawn || writeLocked H a
  | .api (_ + 1), H, a => readLocked H a

theorem noRace_driver (ha : cfg.acceleration = false) (hs : ∀ n c, may n c → ¬ Starts cfg c)
    (h0 : ¬ may 0 .initialize) (h : ∀ n c, n ≠ 0 → may n c → ¬ Careless cfg c ∧ ¬ WritesEstimate c)
    (hr : Reach cfg may s) : ¬ Race s .estimate := by
  obtain ⟨es, hp⟩ := hr
  have hdorm := (Dormant.new.path hp fun n c hc => hs n c (path_may hp n c hc)).1
  obtain ⟨H, hD⟩ := disciplined (P := fun _ => free) (A := driven) (fun n c hm => by
      cases n with
      | zero => exact prog_writeLocked ha c (fun e => h0 (e ▸ hm)) (hs 0 c hm)
      | succ n => exact prog_readLocked c (h _ c (by simp) hm).1 (h _ c (by simp) hm).2)
    loop_free (fun t H h1 h2 => by subst h2; simp [driven] at h1) ⟨es, hp⟩
  rintro ⟨t, t', hne, hwr, hto⟩
  have noloop : ∀ t, Touches s t .estimate → t ≠ .loop := by
    rintro t ⟨k, hk | hk⟩ rfl <;> (rw [hdorm.loop] at hk; cases hk)
  have h1 : t = .api 0 ∧ Lock.poses ∈ H t := by
    have := noloop t (writes_touches hwr)
    obtain ⟨k, hk⟩ := hwr
    have hd := hD.does hk
    cases t with
    | loop => exact absurd rfl this
    | api n =>
      cases n with
      | zero => exact ⟨rfl, by simpa [driven, writeLocked] using hd⟩
      | succ n => simp [driven, readLocked] at hd
  cases t' with
  | loop => exact noloop _ hto rfl
  | api n =>
    cases n with
    | zero => exact hne h1.1
    | succ n =>
      have : Lock.poses ∈ H (.api (n + 1)) := by
        rcases hD.touches hto with h | h
        · simpa [driven, readLocked] using h
        · simp [driven, readLocked] at h
      exact hne (hD.unique h1.2 this)

end

end Dpgo.Conc
