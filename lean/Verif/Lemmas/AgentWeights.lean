import Verif.Lemmas.AgentForms

/-! # Loops that write weights: what they write, and when they succeed -/

namespace Dpgo

open Res Spec PoseGraph

namespace PoseGraph
variable {K : Type}

/-- Reading after a weight write. -/
theorem deref_writeWeight (g : PoseGraph K) (p q : MPtr) (w : K) (f : Bool) :
    (g.writeWeight p w f).deref q =
      if q = p then (g.deref q).map (fun m => { m with weight := w, fixedWeight := f })
      else g.deref q := by
  cases p with
  | odo i => cases q with
    | odo j =>
      simp only [writeWeight, deref, List.getElem?_modify, MPtr.odo.injEq, eq_comm (a := j)]
      split <;> simp_all
    | _ => simp [writeWeight, deref]
  | priv i => cases q with
    | priv j =>
      simp only [writeWeight, deref, List.getElem?_modify, MPtr.priv.injEq, eq_comm (a := j)]
      split <;> simp_all
    | _ => simp [writeWeight, deref]
  | shared i => cases q with
    | shared j =>
      simp only [writeWeight, deref, List.getElem?_modify, MPtr.shared.injEq, eq_comm (a := j)]
      split <;> simp_all
    | _ => simp [writeWeight, deref]

/-- Two graphs are equal but for the weights in the measurement lists. -/
structure SameButWeights (g g' : PoseGraph K) : Prop where
  eq : g' = { g with
    odometry := g'.odometry, privateLcs := g'.privateLcs, sharedLcs := g'.sharedLcs }

theorem SameButWeights.refl (g : PoseGraph K) : SameButWeights g g := ⟨rfl⟩

theorem SameButWeights.trans {a b c : PoseGraph K} (h : SameButWeights a b)
    (h' : SameButWeights b c) : SameButWeights a c := by
  obtain ⟨h⟩ := h
  obtain ⟨h'⟩ := h'
  rw [h] at h'
  exact ⟨h'⟩

theorem sameButWeights_write (g : PoseGraph K) (p : MPtr) (w : K) (f : Bool) :
    SameButWeights g (g.writeWeight p w f) := by
  cases p <;> exact ⟨rfl⟩

end PoseGraph

noncomputable section

namespace Agent

/-- Loop body writing the weight `W m` (nothing if there is none) into a non-fixed measurement. -/
def wstep (W : Meas ℝ → Res (Option ℝ)) (g : PoseGraph ℝ) (p : MPtr) : Res (PoseGraph ℝ) :=
  match g.deref p with
  | none => ub
  | some m =>
    if m.fixedWeight then ok g
    else do
      match ← W m with
      | none => ok g
      | some w => ok (g.writeWeight p w m.fixedWeight)

theorem weightsToOne_wstep (g : PoseGraph ℝ) (ps : List MPtr) :
    weightsToOne g ps = Res.foldl (wstep fun _ => ok (some 1)) g ps := by
  unfold weightsToOne
  congr 1
  funext g p
  unfold wstep
  cases g.deref p with
  | none => rfl
  | some m => simp only [ok_bind]; split <;> rfl

/-- The weight computed for a measurement by `updateMeasurementWeights`. -/
def newWeight (a : Agent) (m : Meas ℝ) : Res (Option ℝ) := do
  match ← a.computeMeasurementResidual m with
  | none => ok none
  | some res => do
    let w ← a.cost.weight res
    ok (some w)

theorem reweightStep_wstep (a : Agent) : a.reweightStep = wstep a.newWeight := by
  funext g p
  unfold reweightStep wstep newWeight
  cases g.deref p with
  | none => rfl
  | some m =>
    simp only
    split
    · rfl
    · cases a.computeMeasurementResidual m with
      | ok q =>
        cases q with
        | none => rfl
        | some res =>
          simp only [ok_bind]
          cases a.cost.weight res <;> rfl
      | _ => rfl

/-- What the loop leaves behind. -/
theorem wloop_spec {W : Meas ℝ → Res (Option ℝ)} : ∀ {ps : List MPtr} {g g' : PoseGraph ℝ},
    ps.Nodup → Res.foldl (wstep W) g ps = ok g' → SameButWeights g g' ∧
    (∀ q, g.deref q = none → g'.deref q = none) ∧ ∀ q m, g.deref q = some m →
      (¬ (q ∈ ps ∧ m.fixedWeight = false) → g'.deref q = some m) ∧
      (q ∈ ps → m.fixedWeight = false → ∃ w, W m = ok w ∧
        g'.deref q = some { m with weight := w.getD m.weight })
  | [], g, g', _, e => by
    cases e
    exact ⟨.refl _, fun _ h => h, fun q m h => ⟨fun _ => h, fun c => by cases c⟩⟩
  | p :: ps, g, g', hn, e => by
    rw [foldl_cons, bind_eq_ok'] at e
    obtain ⟨g1, e1, e⟩ := e
    obtain ⟨hp, hn⟩ := List.nodup_cons.1 hn
    obtain ⟨ih1, ih2, ih3⟩ := wloop_spec hn e
    unfold wstep at e1
    split at e1
    · cases e1
    · rename_i m hm
      split at e1
      · rename_i hf
        cases e1
        refine ⟨ih1, ih2, fun q m' hq => ⟨fun c => (ih3 q m' hq).1 fun c' =>
          c ⟨List.mem_cons_of_mem _ c'.1, c'.2⟩, fun hq' hf' => ?_⟩⟩
        rcases List.mem_cons.1 hq' with rfl | hq'
        · rw [hm] at hq; cases hq
          rw [hf] at hf'; cases hf'
        · exact (ih3 q m' hq).2 hq' hf'
      · rename_i hf
        rw [bind_eq_ok] at e1
        obtain ⟨w, hw, e1⟩ := e1
        have hf : m.fixedWeight = false := by simpa using hf
        -- the graph after the write
        have key : SameButWeights g g1 ∧ (∀ q, q ≠ p → g1.deref q = g.deref q) ∧
            g1.deref p = some { m with weight := w.getD m.weight } := by
          cases w with
          | none => cases e1; exact ⟨.refl _, fun _ _ => rfl, hm⟩
          | some w =>
            cases e1
            refine ⟨sameButWeights_write _ _ _ _, fun q hq => ?_, ?_⟩
            · rw [deref_writeWeight, if_neg hq]
            · rw [deref_writeWeight, if_pos rfl, hm]; rfl
        obtain ⟨k1, k2, k3⟩ := key
        refine ⟨k1.trans ih1, fun q hq => ?_, fun q m' hq => ?_⟩
        · by_cases hqp : q = p
          · subst hqp; rw [hm] at hq; cases hq
          · exact ih2 q (by rw [k2 q hqp]; exact hq)
        · by_cases hqp : q = p
          · subst hqp
            rw [hm] at hq
            cases hq
            have h3 := (ih3 q _ k3).1 (fun c => hp c.1)
            exact ⟨fun c => absurd ⟨by simp, hf⟩ c, fun _ _ => ⟨w, hw, h3⟩⟩
          · rw [← k2 q hqp] at hq
            have h3 := ih3 q m' hq
            refine ⟨fun c => h3.1 fun c' => c ⟨List.mem_cons_of_mem _ c'.1, c'.2⟩, fun hq' hf' => ?_⟩
            rcases List.mem_cons.1 hq' with rfl | hq'
            · exact absurd rfl hqp
            · exact h3.2 hq' hf'

/-- The loop succeeds when its pointers are valid and the weights can be computed. -/
theorem wloop_total {W : Meas ℝ → Res (Option ℝ)} : ∀ {ps : List MPtr} {g : PoseGraph ℝ}, ps.Nodup →
    (∀ p ∈ ps, ∃ m, g.deref p = some m ∧ ∃ w, W m = ok w) →
    ∃ g', Res.foldl (wstep W) g ps = ok g'
  | [], g, _, _ => ⟨g, rfl⟩
  | p :: ps, g, hn, h => by
    obtain ⟨hp, hn⟩ := List.nodup_cons.1 hn
    obtain ⟨m, hm, w, hw⟩ := h p (by simp)
    have : ∃ g1, wstep W g p = ok g1 ∧ ∀ q, q ≠ p → g1.deref q = g.deref q := by
      unfold wstep
      rw [hm]
      simp only
      split
      · exact ⟨g, rfl, fun _ _ => rfl⟩
      · rw [hw, ok_bind]
        cases w with
        | none => exact ⟨g, rfl, fun _ _ => rfl⟩
        | some w => exact ⟨_, rfl, fun q hq => by rw [deref_writeWeight, if_neg hq]⟩
    obtain ⟨g1, e1, hg1⟩ := this
    obtain ⟨g', e'⟩ := wloop_total (g := g1) hn fun q hq => by
      obtain ⟨m', h1, h2⟩ := h q (by simp [hq])
      refine ⟨m', ?_, h2⟩
      rw [hg1 q (fun c => hp (c ▸ hq))]; exact h1
    exact ⟨g', by rw [foldl_cons, e1]; exact e'⟩

/-! ### Active loop closures -/

theorem nodup_pick {K : Type} (b : Meas K → Bool) (i : Nat) (l : List (Meas K)) :
    (pick b i l).Nodup := by
  have h := (pick_perm b i l).nodup_iff.2
    ((List.nodup_range' (s := i) (n := l.length)).map fun x y h => by cases h; rfl)
  exact (List.nodup_append.1 h).1

theorem active_nodup {id r d : Nat} {g : PoseGraph ℝ} (hg : Reachable id r d g) {ps : List MPtr}
    (e : g.activeLoopClosures = ok ps) : ps.Nodup := by
  obtain ⟨⟨log, h⟩, -⟩ := Reachable.inv hg
  rw [h.active_eq] at e
  cases e
  rw [List.nodup_append]
  refine ⟨List.nodup_range.map fun x y h => by cases h; rfl, nodup_pick _ _ _, ?_⟩
  rintro p hp q hq rfl
  obtain ⟨j, -, rfl⟩ := List.mem_map.1 hp
  obtain ⟨j', m, -, -, h⟩ := (mem_pick _ _ _ _).1 hq
  cases h

theorem active_valid {id r d : Nat} {g : PoseGraph ℝ} (hg : Reachable id r d g) {ps : List MPtr}
    (e : g.activeLoopClosures = ok ps) {p : MPtr} (hp : p ∈ ps) :
    ∃ m, g.deref p = some m ∧ ((∃ i, p = .priv i ∧ g.privateLcs[i]? = some m) ∨
      (∃ i, p = .shared i ∧ g.sharedLcs[i]? = some m ∧ g.lcFlag m = true)) := by
  obtain ⟨⟨log, h⟩, -⟩ := Reachable.inv hg
  rw [h.active_eq] at e
  cases e
  rcases List.mem_append.1 hp with hp | hp
  · obtain ⟨j, hj, rfl⟩ := List.mem_map.1 hp
    have hj := List.mem_range.1 hj
    have hm : g.privateLcs[j]? = some g.privateLcs[j] := List.getElem?_eq_getElem hj
    exact ⟨_, hm, Or.inl ⟨j, rfl, hm⟩⟩
  · obtain ⟨j, m, h1, h2, rfl⟩ := (mem_pick _ _ _ _).1 hp
    rw [Nat.zero_add]
    exact ⟨m, h1, Or.inr ⟨j, rfl, h1, h2⟩⟩

theorem weightsToOne_total {id r d : Nat} {g : PoseGraph ℝ} (hg : Reachable id r d g) :
    ∃ ps g', g.activeLoopClosures = ok ps ∧ weightsToOne g ps = ok g' := by
  obtain ⟨⟨log, h⟩, -⟩ := Reachable.inv hg
  have e := h.active_eq
  obtain ⟨g', hg'⟩ := wloop_total (W := fun _ => ok (some 1)) (active_nodup hg e) fun p hp => by
    obtain ⟨m, hm, -⟩ := active_valid hg e hp
    exact ⟨m, hm, _, rfl⟩
  exact ⟨_, g', e, by rw [weightsToOne_wstep]; exact hg'⟩

end Agent

end

end Dpgo
