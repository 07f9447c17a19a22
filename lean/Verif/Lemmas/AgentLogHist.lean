import Verif.Lemmas.AgentLog

/-! # Lemmas for C81: the files along a history -/

namespace Dpgo

open Res Spec Text Agent

variable {L : LogEnv} {o : AgentOracles} {ID : Nat} {p : AgentParams} {a a' : Agent} {k k₀ k' : Disk}

/-- One call of a logging agent. -/
theorem stepLog_form (h : AgInv ID p a) {op : AgOp} (e : a.stepLog L o k op = ok (a', k')) :
    a.step o op = ok a' ∧
    ((Places ⟨a, op, a'⟩ ∧ op ≠ .reset ∧ Placing L p k a' k') ∨
     (¬ Places ⟨a, op, a'⟩ ∧ op = .reset ∧ (if p.logData then a.saveAll L o k else ok k) = ok k') ∨
     (¬ Places ⟨a, op, a'⟩ ∧ op ≠ .reset ∧ k' = k)) := by
  have rest : (∀ T, op ≠ .initializeInGlobalFrame T) → op ≠ .reset →
      (a.step o op = ok a' → (∃ M, op = .setX M) ∨ a'.state = a.state) →
      (do let b ← a.step o op; ok (b, k)) = ok (a', k') → a.step o op = ok a' ∧
    ((Places ⟨a, op, a'⟩ ∧ op ≠ .reset ∧ Placing L p k a' k') ∨
     (¬ Places ⟨a, op, a'⟩ ∧ op = .reset ∧ (if p.logData then a.saveAll L o k else ok k) = ok k') ∨
     (¬ Places ⟨a, op, a'⟩ ∧ op ≠ .reset ∧ k' = k)) := by
    intro h1 h2 h3 e
    rw [bind_eq_ok] at e
    obtain ⟨b, hb, e⟩ := e
    cases e
    refine ⟨hb, Or.inr (Or.inr ⟨?_, h2, rfl⟩)⟩
    rintro (⟨T, c⟩ | ⟨c1, c2, c3⟩)
    · exact h1 T c
    · rcases h3 hb with ⟨M, c⟩ | c
      · exact c3 M c
      · exact c1 (c.symm.trans c2)
  have told : (∀ T, op ≠ .initializeInGlobalFrame T) → op ≠ .reset → (∀ M, op ≠ .setX M) →
      a.step o op = ok a' ∧
      ((a.state ≠ .INITIALIZED ∧ a'.state = .INITIALIZED ∧ Placing L p k a' k') ∨
       ((a.state = .INITIALIZED ∨ a'.state ≠ .INITIALIZED) ∧ k' = k)) → a.step o op = ok a' ∧
    ((Places ⟨a, op, a'⟩ ∧ op ≠ .reset ∧ Placing L p k a' k') ∨
     (¬ Places ⟨a, op, a'⟩ ∧ op = .reset ∧ (if p.logData then a.saveAll L o k else ok k) = ok k') ∨
     (¬ Places ⟨a, op, a'⟩ ∧ op ≠ .reset ∧ k' = k)) := by
    rintro h1 h2 h3 ⟨e, ⟨c1, c2, c3⟩ | ⟨c1, c2⟩⟩
    · exact ⟨e, Or.inl ⟨Or.inr ⟨c1, c2, h3⟩, h2, c3⟩⟩
    · refine ⟨e, Or.inr (Or.inr ⟨?_, h2, c2⟩)⟩
      rintro (⟨T, c⟩ | ⟨d1, d2, -⟩)
      · exact h1 T c
      · rcases c1 with c1 | c1
        · exact d1 c1
        · exact c1 d2
  cases op with
  | init T =>
    exact told (fun _ c => by cases c) (fun c => by cases c) (fun _ c => by cases c) (init_log_form h e)
  | initializeInGlobalFrame T =>
    obtain ⟨e1, e2⟩ := place_form h e
    exact ⟨e1, Or.inl ⟨Or.inl ⟨T, rfl⟩, (fun c => by cases c), e2⟩⟩
  | updateNeighborPoses nid dict =>
    exact told (fun _ c => by cases c) (fun c => by cases c) (fun _ c => by cases c) (deliver_log_form h e)
  | reset =>
    obtain ⟨e1, e2⟩ := reset_log_form e
    refine ⟨e1, Or.inr (Or.inl ⟨?_, rfl, ?_⟩)⟩
    · rintro (⟨T, c⟩ | ⟨-, c, -⟩)
      · cases c
      · have c : a'.state = .INITIALIZED := c
        rw [reset_form e1] at c
        cases c
    · rw [← h.params]; exact e2
  | setX M => exact rest (fun _ c => by cases c) (fun c => by cases c) (fun _ => Or.inl ⟨M, rfl⟩) e
  | _ =>
    exact rest (fun _ c => by cases c) (fun c => by cases c)
      (fun e => Or.inr (by have f := congrArg Agent.state (Agent.step_frame h e); exact f)) e

theorem stepLog_total (h : AgInv ID p a) (hd : p.d = 2 ∨ p.d = 3 ∧ 4 * a.graph.n < 2 ^ 32) {op : AgOp}
    (e : a.step o op = ok a') : ∃ k', a.stepLog L o k op = ok (a', k') := by
  cases op with
  | init T => exact init_log_total h hd e
  | initializeInGlobalFrame T => exact place_total h hd e
  | updateNeighborPoses nid dict => exact deliver_log_total h hd e
  | reset => exact reset_log_total h hd e
  | _ =>
    refine ⟨k, ?_⟩
    simp only [stepLog]
    rw [e]
    rfl

/-! ### Names -/

theorem names_distinct :
    L.dir ++ initialFile ≠ L.dir ++ measurementsFile ∧ L.dir ++ initialFile ≠ L.dir ++ optimizedFile ∧
    L.dir ++ initialFile ≠ L.dir ++ matrixFile ∧ L.dir ++ measurementsFile ≠ L.dir ++ optimizedFile ∧
    L.dir ++ measurementsFile ≠ L.dir ++ matrixFile ∧ L.dir ++ optimizedFile ≠ L.dir ++ matrixFile := by
  simp only [ne_eq, List.append_cancel_left_eq]
  unfold initialFile measurementsFile optimizedFile matrixFile
  decide

/-- The kind of event that writes a file. -/
def writerOf (L : LogEnv) (q : Str) (e : Ev) : Prop :=
  (q = L.dir ++ initialFile ∧ Places e) ∨ (q = L.dir ++ measurementsFile ∧ ResetsData e) ∨
  (q = L.dir ++ optimizedFile ∧ ResetsSolved e) ∨ (q = L.dir ++ matrixFile ∧ Resets e)

/-- A file changes only if logging is on and the event writes it. -/
theorem stepLog_kept (h : AgInv ID p a) {op : AgOp} (e : a.stepLog L o k op = ok (a', k')) :
    k'.writable = k.writable ∧ ∀ q, ¬ (p.logData = true ∧ writerOf L q ⟨a, op, a'⟩) → k'.file q = k.file q := by
  obtain ⟨-, ⟨hp, -, hk⟩ | ⟨-, rfl, hk⟩ | ⟨-, -, rfl⟩⟩ := stepLog_form h e
  · obtain ⟨T, Y, -, -, -, -, -, hk⟩ := hk
    split at hk
    · rename_i hl
      obtain ⟨⟨w, f⟩, -⟩ := logTrajectory_only hk
      refine ⟨w, fun q hq => f q ?_⟩
      rintro rfl
      exact hq ⟨hl, Or.inl ⟨rfl, hp⟩⟩
    · cases hk; exact ⟨rfl, fun _ _ => rfl⟩
  · split at hk
    · rename_i hl
      obtain ⟨k1, k2, h1, h2, rfl⟩ := saveAll_form h hk
      obtain ⟨⟨w1, f1⟩, g1⟩ := logMeasurements_only h1
      obtain ⟨w3, f3⟩ := writeMatrix_only (L := L) k2 a.X.X (L.dir ++ matrixFile)
      have s2 : k2.writable = k1.writable ∧ ∀ q, ¬ (p.logData = true ∧ writerOf L q ⟨a, .reset, a'⟩) →
          k2.file q = k1.file q := by
        rcases h2 with ⟨-, rfl⟩ | ⟨c1, c2, T, -, h2⟩
        · exact ⟨rfl, fun _ _ => rfl⟩
        · obtain ⟨⟨w2, f2⟩, -⟩ := logTrajectory_only h2
          refine ⟨w2, fun q hq => f2 q ?_⟩
          rintro rfl
          exact hq ⟨hl, Or.inr (Or.inr (Or.inl ⟨rfl, rfl, c1, c2⟩))⟩
      refine ⟨w3.trans (s2.1.trans w1), fun q hq => (f3 q ?_).trans ((s2.2 q hq).trans ?_)⟩
      · rintro rfl
        exact hq ⟨hl, Or.inr (Or.inr (Or.inr ⟨rfl, rfl⟩))⟩
      · by_cases hm : a.graph.measurements = []
        · rw [g1 hm]
        · refine f1 q ?_
          rintro rfl
          exact hq ⟨hl, Or.inr (Or.inl ⟨rfl, rfl, hm⟩)⟩
    · cases hk; exact ⟨rfl, fun _ _ => rfl⟩
  · exact ⟨rfl, fun _ _ => rfl⟩

/-! ### Histories -/

theorem Spec.LogHist.hist {t : List Ev} (h : LogHist L o ID p k₀ t a k) : Hist o ID p t a := by
  induction h with
  | new e => exact .new e
  | call h hw e ih => exact .call ih hw (stepLog_form (agReach_inv ih.reach) e).1

theorem LogHist.writable {t : List Ev} (h : LogHist L o ID p k₀ t a k) : k.writable = k₀.writable := by
  induction h with
  | new e => rfl
  | call h hw e ih => exact (stepLog_kept (agReach_inv h.hist.reach) e).1.trans ih

/-- What the last writer of a file wrote is still there. -/
theorem LogHist.last {t : List Ev} {q : Str} {e : Ev} {Q : Option Str → Prop}
    (h : LogHist L o ID p k₀ t a k) (hl : LastOf (writerOf L q) e t)
    (hQ : ∀ k k', AgInv ID p e.before → k.writable = k₀.writable →
      e.before.stepLog L o k e.op = ok (e.after, k') → Q (k'.file q)) : Q (k.file q) := by
  induction h with
  | new e =>
    obtain ⟨pre, post, c, -⟩ := hl
    simp at c
  | @call t b b' k k' op h hw e' ih =>
    obtain ⟨pre, post, c, hk, hp⟩ := hl
    rcases List.eq_nil_or_concat post with rfl | ⟨post', y, rfl⟩
    · obtain ⟨-, c2⟩ := List.append_inj' (t₁ := [(⟨b, op, b'⟩ : Ev)]) (t₂ := [e]) c rfl
      cases c2
      exact hQ k k' (agReach_inv h.hist.reach) (LogHist.writable h) e'
    · rw [List.concat_eq_append] at c hp
      have c' : t ++ [(⟨b, op, b'⟩ : Ev)] = (pre ++ e :: post') ++ [y] := by rw [c]; simp
      obtain ⟨c1, c2⟩ := List.append_inj' c' rfl
      cases c2
      rw [(stepLog_kept (agReach_inv h.hist.reach) e').2 q fun x => hp _ (by simp) x.2]
      exact ih ⟨pre, post', c1, hk, fun z hz => hp z (by simp [hz])⟩

/-- A file nothing writes is what it was at the start. -/
theorem LogHist.never {t : List Ev} {q : Str} (h : LogHist L o ID p k₀ t a k)
    (hn : ∀ e ∈ t, ¬ (p.logData = true ∧ writerOf L q e)) : k.file q = k₀.file q := by
  induction h with
  | new e => rfl
  | call h hw e ih =>
    rw [(stepLog_kept (agReach_inv h.hist.reach) e).2 q (hn _ (by simp))]
    exact ih fun x hx => hn x (by simp [hx])

end Dpgo
