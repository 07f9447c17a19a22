import Verif.Lemmas.Schedule
import Verif.Props.AgentWeights
import Verif.Spec.RobustTeam

/-! # Weight updates of a team -/

namespace Dpgo

open Res Spec PoseGraph

/-! ### Edges with new weights -/

/-- The map does not change the ends of an edge. -/
def KeepsEnds (f : Meas ℝ → Meas ℝ) : Prop :=
  ∀ m, (f m).r1 = m.r1 ∧ (f m).p1 = m.p1 ∧ (f m).r2 = m.r2 ∧ (f m).p2 = m.p2

section
variable {f : Meas ℝ → Meas ℝ}

theorem KeepsEnds.firstWins (h : KeepsEnds f) (l : List (Meas ℝ)) :
    firstWins (l.map f) = (firstWins l).map f := by
  have hs : ∀ a b, sameEnds (f a) (f b) = sameEnds a b := by
    intro a b
    unfold sameEnds
    rw [(h a).1, (h a).2.1, (h a).2.2.1, (h a).2.2.2, (h b).1, (h b).2.1, (h b).2.2.1, (h b).2.2.2]
  induction l with
  | nil => rfl
  | cons m l ih =>
    simp only [List.map_cons, Spec.firstWins, ih, List.filter_map, Function.comp_def, hs]

theorem KeepsEnds.kinds (h : KeepsEnds f) (i : Nat) (m : Meas ℝ) :
    touches i (f m) = touches i m ∧ isOdo i (f m) = isOdo i m ∧ isPriv i (f m) = isPriv i m ∧
      isShared i (f m) = isShared i m := by
  unfold touches isOdo isPriv isShared
  rw [(h m).1, (h m).2.1, (h m).2.2.1, (h m).2.2.2]
  exact ⟨rfl, rfl, rfl, rfl⟩

theorem KeepsEnds.buckets (h : KeepsEnds f) (i : Nat) (l : List (Meas ℝ)) :
    Spec.buckets i (Spec.firstWins ((l.map f).filter (touches i))) =
      (Spec.buckets i (Spec.firstWins (l.filter (touches i)))).map f := by
  have e1 : (l.map f).filter (touches i) = (l.filter (touches i)).map f := by
    rw [List.filter_map]
    congr 1
    exact List.filter_congr fun m _ => (h.kinds i m).1
  rw [e1, h.firstWins]
  unfold Spec.buckets
  simp only [List.filter_map, List.map_append]
  congr 1
  · congr 1
    · congr 1
      exact List.filter_congr fun m _ => (h.kinds i m).2.1
    · congr 1
      exact List.filter_congr fun m _ => (h.kinds i m).2.2.1
  · congr 1
    exact List.filter_congr fun m _ => (h.kinds i m).2.2.2

end

open Classical in
/-- The edge with its new weight. -/
noncomputable def newEdge (r d : Nat) (c : RobustCost) (X : Joint ℝ) (m : Meas ℝ) : Meas ℝ :=
  if m.fixedWeight = true ∨ isOdo m.r1 m = true then m
  else if h : ∃ w, c.weight (resid r d m (X m.r1) m.p1 (X m.r2) m.p2) = ok w then
    { m with weight := h.choose }
  else m

section
variable {r d : Nat} {c : RobustCost} {X : Joint ℝ} {m m' : Meas ℝ}

theorem newEdge_keeps : KeepsEnds (newEdge r d c X) := by
  intro m
  unfold newEdge
  split
  · exact ⟨rfl, rfl, rfl, rfl⟩
  · split <;> exact ⟨rfl, rfl, rfl, rfl⟩

theorem newEdge_same (h : m.fixedWeight = true ∨ isOdo m.r1 m = true) : newEdge r d c X m = m := if_pos h

theorem newEdge_weight {w : ℝ} (h1 : m.fixedWeight = false) (h2 : isOdo m.r1 m = false)
    (h : c.weight (resid r d m (X m.r1) m.p1 (X m.r2) m.p2) = ok w) :
    newEdge r d c X m = { m with weight := w } := by
  unfold newEdge
  rw [if_neg (by simp [h1, h2]), dif_pos ⟨w, h⟩]
  have e : ∃ w, c.weight (resid r d m (X m.r1) m.p1 (X m.r2) m.p2) = ok w := ⟨w, h⟩
  rw [show e.choose = w from (Res.ok.inj (h.symm.trans e.choose_spec)).symm]

theorem newEdge_spec (h : ∃ w, c.weight (resid r d m (X m.r1) m.p1 (X m.r2) m.p2) = ok w) :
    Reweighed r d c X m (newEdge r d c X m) := by
  refine ⟨newEdge_same, fun h1 h2 => ?_⟩
  obtain ⟨w, hw⟩ := h
  exact ⟨w, hw, newEdge_weight h1 h2 hw⟩

theorem reweighed_eq (h : Reweighed r d c X m m') : m' = newEdge r d c X m := by
  by_cases c1 : m.fixedWeight = true ∨ isOdo m.r1 m = true
  · rw [newEdge_same c1]; exact h.1 c1
  · simp only [not_or, Bool.not_eq_true] at c1
    obtain ⟨w, hw, e⟩ := h.2 c1.1 c1.2
    rw [newEdge_weight c1.1 c1.2 hw, e]

theorem reweighed_map {E E' : List (Meas ℝ)} (h : List.Forall₂ (Reweighed r d c X) E E') :
    E' = E.map (newEdge r d c X) := by
  induction h with
  | nil => rfl
  | cons h _ ih => rw [List.map_cons, ← ih, reweighed_eq h]

end

theorem forall₂_map {R : Meas ℝ → Meas ℝ → Prop} {f : Meas ℝ → Meas ℝ} {l l' : List (Meas ℝ)}
    (h : List.Forall₂ R l l') (hf : ∀ m ∈ l, ∀ m', R m m' → m' = f m) : l' = l.map f := by
  induction h with
  | nil => rfl
  | cons hu _ ih =>
    rw [List.map_cons, hf _ (by simp) _ hu, ih fun m hm => hf m (by simp [hm])]

theorem reset_new (q : RobustParams) : (RobustCost.new q).reset = RobustCost.new q := by
  unfold RobustCost.new RobustCost.reset
  cases h : q.costType <;> simp [h]

/-! ### One agent -/

section
variable {o : AgentOracles} {p : AgentParams} {E : List (Meas ℝ)} {sh : Nat → Nat} {i j k l : Nat}
  {a a' b : Agent}

/-- What an agent that holds current poses knows about the ends of its edges. -/
theorem holds_current {X : Joint ℝ} (hX : X i = a.X.X)
    (hup : upToDate p.r p.d X a.graph a.neighborPoses) {q : PoseID} (hq : q.robot = i ∨ q ∈ a.graph.nbrShared) :
    ∃ A x, Holds i a q A x ∧ ∀ ρ < p.r, ∀ c < p.d + 1,
      A.v ρ (x * (p.d + 1) + c) = (X q.robot).v ρ (q.frame * (p.d + 1) + c) := by
  by_cases hr : q.robot = i
  · exact ⟨_, _, Or.inl ⟨hr, rfl, rfl⟩, fun ρ _ c _ => by rw [hr, hX]⟩
  · have hq := hq.resolve_left hr
    obtain ⟨P, hP, hc⟩ := hup q hq
    refine ⟨_, _, Or.inr ⟨hr, rfl, P, OMap.mem_of_find? strictTotal_ltPoseID hP, rfl⟩, fun ρ hρ c hc' => ?_⟩
    rw [Nat.zero_mul, Nat.zero_add]
    exact hc ρ c hρ hc'

theorem updated_newEdge {X : Joint ℝ} (hX : X i = a.X.X)
    (hup : upToDate p.r p.d X a.graph a.neighborPoses) {m m' : Meas ℝ} (hu : Updated i p a m m')
    (hl : Live i a m) (ho : isOdo m.r1 m = false)
    (h1 : m.r1 = i ∨ (⟨m.r1, m.p1⟩ : PoseID) ∈ a.graph.nbrShared)
    (h2 : m.r2 = i ∨ (⟨m.r2, m.p2⟩ : PoseID) ∈ a.graph.nbrShared) :
    m' = newEdge p.r p.d a.cost X m := by
  cases hf : m.fixedWeight with
  | true =>
    rw [newEdge_same (Or.inl hf)]
    exact hu.1 (Or.inl hf)
  | false =>
    obtain ⟨A, x, hA, eA⟩ := holds_current hX hup (q := tailId m) h1
    obtain ⟨B, y, hB, eB⟩ := holds_current hX hup (q := headId m) h2
    obtain ⟨w, hw, rfl⟩ := hu.2 hf hl A x B y hA hB
    refine (newEdge_weight hf ho ?_).symm
    have er : resid p.r p.d m A x B y = resid p.r p.d m (X m.r1) m.p1 (X m.r2) m.p2 :=
      resid_congr rfl rfl rfl rfl eA eB
    rw [← er]
    exact hw

/-- A weight update with current poses. -/
theorem Member.reweigh (h : Member o p E sh i k a) {X : Joint ℝ} (hX : X i = a.X.X)
    (hup : upToDate p.r p.d X a.graph a.neighborPoses) (e : a.updateMeasurementWeights = ok a') :
    OnDuty o p (E.map (newEdge p.r p.d a.cost X)) i a' ∧ a'.graph.n = a.graph.n := by
  have ai := agReach_inv h.reach
  obtain ⟨l1, l2, l3, hg⟩ := updateWeights_lists ai h.state e
  obtain ⟨f, st⟩ := Agent.updateWeights_frame ai.reach e h.state
  have t := st.topology fun _ h => h
  obtain ⟨k1, k2, k3⟩ := h.team.lists
  have p1 : a'.graph.privateLcs = a.graph.privateLcs.map (newEdge p.r p.d a.cost X) := by
    have : ∀ m ∈ a.graph.privateLcs, ∀ m', Updated i p a m m' → m' = newEdge p.r p.d a.cost X m := by
      intro m hm m' hu
      rw [k2, List.mem_filter] at hm
      have hk := hm.2
      simp only [isPriv, Bool.and_eq_true, beq_iff_eq, bne_iff_ne] at hk
      refine updated_newEdge hX hup hu (Or.inl (hk.1.1.trans hk.1.2.symm)) ?_ (Or.inl hk.1.1) (Or.inl hk.1.2)
      simp only [isOdo, Bool.and_eq_false_iff, beq_eq_false_iff_ne]
      exact Or.inr hk.2
    exact forall₂_map l2 this
  have p2 : a'.graph.sharedLcs = a.graph.sharedLcs.map (newEdge p.r p.d a.cost X) := by
    have : ∀ m ∈ a.graph.sharedLcs, ∀ m', Updated i p a m m' → m' = newEdge p.r p.d a.cost X m := by
      intro m hm m' hu
      have c5 := Props.C05_public_ids i p.r p.d _ h.team.reach
      have hr : (foreignPose i m).robot ∈ a.graph.nbrRobots := (c5.2.2.1 _).2 ⟨m, hm, rfl⟩
      have hn : foreignPose i m ∈ a.graph.nbrShared := (c5.2.1 _).2 ⟨m, hm, rfl⟩
      rw [k3, List.mem_filter] at hm
      have hk := hm.2
      simp only [isShared, Bool.or_eq_true, Bool.and_eq_true, beq_iff_eq, bne_iff_ne] at hk
      have hodo : isOdo m.r1 m = false := by
        simp only [isOdo, Bool.and_eq_false_iff, beq_eq_false_iff_ne]
        rcases hk with hk | hk
        · exact Or.inl (Or.inr fun c => hk.2 (c.trans hk.1))
        · exact Or.inl (Or.inr fun c => hk.1 (c.symm.trans hk.2))
      refine updated_newEdge hX hup hu (Or.inr (h.team.active _ hr)) hodo ?_ ?_ <;> unfold foreignPose at hn
      · by_cases c : m.r1 = i
        · exact Or.inl c
        · rw [if_neg c] at hn; exact Or.inr hn
      · by_cases c : m.r1 = i
        · rw [if_pos c] at hn; exact Or.inr hn
        · exact Or.inl (by omega)
    exact forall₂_map l3 this
  have p0 : a'.graph.odometry = a.graph.odometry.map (newEdge p.r p.d a.cost X) := by
    rw [l1]
    refine (List.map_id _).symm.trans (List.map_congr_left fun m hm => ?_)
    rw [k1, List.mem_filter] at hm
    have hk := hm.2
    simp only [isOdo, Bool.and_eq_true, beq_iff_eq] at hk
    refine (newEdge_same (Or.inr ?_)).symm
    simp only [isOdo, Bool.and_eq_true, beq_iff_eq]
    exact ⟨⟨trivial, hk.1.2.trans hk.1.1.symm⟩, hk.2⟩
  refine ⟨⟨agReach_snoc (op := .updateMeasurementWeights) h.reach trivial e, ?_, ?_, ?_, ?_, ?_, self_topo t h.noSelf,
    covered_topo t h.covered, ?_, ?_, ?_⟩, t.n⟩
  · rw [newEdge_keeps.buckets, ← h.team.edges]
    unfold PoseGraph.measurements
    rw [p0, p1, p2, List.map_append, List.map_append]
  · rw [hg]; exact h.team.priors
  · rw [hg]; exact h.team.active
  · rw [hg]; exact h.team.use
  · rw [hg]; exact ⟨rfl, rfl, rfl⟩
  · rw [f]; exact h.state
  · rw [f]; exact h.lift
  · rw [f]; exact h.inst

/-- What optimisation and messages keep. -/
structure Kept (n : Nat) (a a' : Agent) : Prop where
  cost : a'.cost = a.cost
  count : a'.weightUpdateCount = a.weightUpdateCount
  resets : a'.trajectoryResetCount = a.trajectoryResetCount
  guess : a'.XInit = a.XInit
  inner : a'.innerIter ≤ a.innerIter + n

theorem Kept.refl (n : Nat) (a : Agent) : Kept n a a := ⟨rfl, rfl, rfl, rfl, by omega⟩

theorem Kept.trans {n n' : Nat} {a a' a'' : Agent} (h : Kept n a a') (h' : Kept n' a' a'') : Kept (n + n') a a'' :=
  ⟨h'.cost.trans h.cost, h'.count.trans h.count, h'.resets.trans h.resets, h'.guess.trans h.guess, by
    have := h.inner
    have := h'.inner
    push_cast
    omega⟩

theorem updateNeighborPoses_kept {n : Nat} {dict : PoseDict ℝ} (hs : a.state = .INITIALIZED)
    (e : a.updateNeighborPoses o n dict = ok a') : Kept 0 a a' := by
  obtain ⟨-, ⟨-, rfl⟩ | ⟨-, b, hb, h⟩⟩ := Agent.updateNeighborPoses_form e
  · exact .refl _ _
  · unfold Agent.tryInitialize at hb
    rw [if_neg (by rw [hs]; decide)] at hb
    cases hb
    rcases h with ⟨-, rfl⟩ | ⟨-, -, rfl⟩
    · exact .refl _ _
    · exact ⟨rfl, rfl, rfl, rfl, by simp⟩

theorem iterate_kept {b s : Bool} (e : a.iterate o b = ok (s, a')) : Kept 1 a a' := by
  obtain ⟨f, -, h1, h2⟩ := Agent.iterate_frame e
  refine ⟨by rw [f], by rw [f], by rw [f], by rw [f], ?_⟩
  by_cases c : a.params.robust.costType = .L2
  · rw [h1 c]; omega
  · rw [h2 c]; omega

end

/-! ### The team -/

theorem iterationsOf_snoc (i : Nat) (ops : List NetOp) (op : NetOp) :
    iterationsOf i (ops ++ [op]) = iterationsOf i ops +
      if op = .iterate i true ∨ op = .iterate i false then 1 else 0 := by
  unfold iterationsOf
  rw [List.countP_append, List.countP_singleton]
  simp only [decide_eq_true_eq]

section
variable {o : AgentOracles} {p : AgentParams} {E : List (Meas ℝ)} {sh : Nat → Nat} {N : Nat} {s t t' : Net}
  {ops : List NetOp} {op : NetOp}

theorem NetInv.kept (h : NetInv o p E sh N s ops t) (hs : Sound N (Clock.after ops) op)
    (e : netStep o t op = ok t') (i : Nat) :
    Kept (if op = .iterate i true ∨ op = .iterate i false then 1 else 0) (t.agents i) (t'.agents i) := by
  cases op with
  | send j dst =>
    rw [if_neg (by simp)]
    simp only [netStep, bind_eq_ok] at e
    obtain ⟨x, -, e⟩ := e
    cases x with
    | none => cases e; exact .refl _ _
    | some dict =>
      cases e
      show Kept 0 (t.agents i) (Function.update t.agents j (t.agents j).getStatus.2 i)
      by_cases c : i = j
      · subst c
        rw [Function.update_self]
        exact ⟨rfl, rfl, rfl, rfl, by simp [Agent.getStatus]⟩
      · rw [Function.update_of_ne c]
        exact .refl _ _
  | deliver j n =>
    rw [if_neg (by simp)]
    simp only [netStep] at e
    cases hx : t.mail[n]? with
    | none => rw [hx] at e; cases e; exact .refl _ _
    | some x =>
      rw [hx] at e
      simp only [bind_eq_ok] at e
      obtain ⟨a, ha, e⟩ := e
      cases e
      show Kept 0 (t.agents i) (Function.update t.agents j a i)
      by_cases c : i = j
      · subst c
        rw [Function.update_self]
        obtain ⟨k, hk⟩ := h.member i hs.1
        have := updateNeighborPoses_kept (a := (t.agents i).setNeighborStatus x.status) hk.state ha
        exact ⟨this.cost, this.count, this.resets, this.guess, this.inner⟩
      · rw [Function.update_of_ne c]
        exact .refl _ _
  | iterate j b =>
    simp only [netStep, bind_eq_ok] at e
    obtain ⟨⟨x, a⟩, ha, e⟩ := e
    cases e
    show Kept _ (t.agents i) (Function.update t.agents j a i)
    by_cases c : i = j
    · subst c
      rw [Function.update_self, if_pos (by cases b <;> simp)]
      exact iterate_kept ha
    · rw [Function.update_of_ne c]
      exact .refl _ _

/-- No schedule makes an agent fail, unless the counter of inner iterations overflows. -/
theorem NetInv.all_any (hd : 0 < p.d) (ho : p.acceleration = true → AccelOk p)
    (h : ∀ i < N, OnDuty o p E i (s.agents i)) (hm : s.mail = []) (hs : Always (Sound N) ops)
    (hk : ∀ i < N, (s.agents i).innerIter + iterationsOf i ops < 2 ^ 31) :
    ∃ t, NetInv o p E (fun i => (s.agents i).graph.n) N s ops t ∧
      ∀ i, Kept (iterationsOf i ops) (s.agents i) (t.agents i) := by
  induction ops using List.reverseRecOn with
  | nil => exact ⟨s, .start h hm, fun i => .refl _ _⟩
  | append_singleton ops op ih =>
    obtain ⟨h1, h2⟩ := hs.init
    obtain ⟨t, ht, hc⟩ := ih h1 fun i hi => by
      have := hk i hi
      rw [iterationsOf_snoc] at this
      push_cast at this
      split at this <;> omega
    obtain ⟨t', e, ht'⟩ := ht.step_any hd (fun _ i b c => by
      have hi : i < N := by subst c; exact h2
      have := hk i hi
      rw [iterationsOf_snoc, if_pos (by cases b <;> simp [c])] at this
      have := (hc i).inner
      push_cast at *
      omega) ho h2
    refine ⟨t', ht', fun i => ?_⟩
    rw [iterationsOf_snoc]
    exact (hc i).trans (ht.kept h2 e i)

/-- All weight updates of a round succeed and do not disturb each other. -/
theorem reweighAll_ok {order : List Nat} (hn : order.Nodup) (b : Nat → Agent) :
    ∀ {u : Net}, (∀ i ∈ order, (u.agents i).updateMeasurementWeights = ok (b i)) →
    ∃ v, reweighAll u order = ok v ∧ v.mail = [] ∧ (∀ i ∈ order, v.agents i = b i) ∧
      ∀ i ∉ order, v.agents i = u.agents i := by
  induction order with
  | nil => exact fun _ => ⟨_, rfl, rfl, by simp, fun _ _ => rfl⟩
  | cons j l ih =>
    intro u hu
    rw [List.nodup_cons] at hn
    obtain ⟨v, hv, hm, h1, h2⟩ := ih hn.2 (u := ⟨Function.update u.agents j (b j), []⟩) fun i hi => by
      show (Function.update u.agents j (b j) i).updateMeasurementWeights = _
      rw [Function.update_of_ne (by rintro rfl; exact hn.1 hi)]
      exact hu i (by simp [hi])
    refine ⟨v, ?_, hm, ?_, ?_⟩
    · unfold reweighAll at hv ⊢
      rw [foldl_cons]
      simp only [hu j (by simp), ok_bind]
      exact hv
    · intro i hi
      rcases List.mem_cons.1 hi with rfl | hi
      · rw [h2 i hn.1]
        exact Function.update_self ..
      · exact h1 i hi
    · intro i hi
      simp only [List.mem_cons, not_or] at hi
      rw [h2 i hi.2]
      exact Function.update_of_ne hi.1 ..

/-- One phase and one round of weight updates. -/
theorem round_ok (hd : 0 < p.d) (hp : p.acceleration = false) (hpar : ParamsOk p.robust)
    (hL1 : p.robust.costType ≠ .L1) (hres : p.numResets < 2 ^ 31) (hE : ∀ m ∈ E, m.r1 < N ∧ m.r2 < N)
    {c : RobustCost} {k : Int} (h : ∀ i < N, RobustDuty o p E c k i (s.agents i)) (hm : s.mail = [])
    (hk : k + 1 < 2 ^ 31) {f : Round} (hf : Orderly N E f) :
    ∃ u t E', netRun o s f.ops = ok u ∧ reweighAll u f.order = ok t ∧ t.mail = [] ∧
      List.Forall₂ (Reweighed p.r p.d c u.estimate) E E' ∧
      ∀ i < N, RobustDuty o p E' c.update (k + 1) i (t.agents i) := by
  have ha : p.acceleration = true → AccelOk p := fun c => by rw [hp] at c; cases c
  obtain ⟨u, hu, hkept⟩ := NetInv.all_any hd ha (fun i hi => (h i hi).duty) hm hf.sound fun i hi => by
    rw [(h i hi).inner]
    have := hf.short i hi
    push_cast
    omega
  have hcost : ∀ i < N, (u.agents i).cost = c := fun i hi => (hkept i).cost.trans (h i hi).cost
  have hw : ∀ i < N, ∃ b, (u.agents i).updateMeasurementWeights = ok b ∧
      RobustDuty o p (E.map (newEdge p.r p.d c u.estimate)) c.update (k + 1) i b := by
    intro i hi
    obtain ⟨k', hmem⟩ := hu.member i hi
    have ai := agReach_inv hmem.reach
    have h1 : (u.agents i).weightUpdateCount = k := (hkept i).count.trans (h i hi).count
    have h2 : (u.agents i).trajectoryResetCount < p.numResets → ∃ X, (u.agents i).XInit = some X := by
      rw [(hkept i).resets, (hkept i).guess]
      exact (h i hi).guess
    obtain ⟨b, hb⟩ := updateWeights_total ai hpar hL1 (by rw [h1]; exact hk)
      (fun c => ⟨by omega, h2 c⟩)
    have hup := hu.upToDate hp hE hi (fun j hj => hf.informed i j hj) hmem
    obtain ⟨r1, -⟩ := hmem.reweigh (X := u.estimate) rfl hup hb
    rw [hcost i hi] at r1
    obtain ⟨g1, -⟩ := Agent.updateWeights_frame ai.reach hb hmem.state
    obtain ⟨q1, q2, -⟩ := Props.C44_rest hmem.reach hmem.state hb
    refine ⟨b, hb, r1, ?_, ?_, ?_, ?_⟩
    · rw [g1]; show (u.agents i).cost.update = _; rw [hcost i hi]
    · rw [g1]
    · rw [g1]; show (u.agents i).weightUpdateCount + 1 = _; rw [h1]
    · intro hc
      have e1 : b.XInit = (u.agents i).XInit := by rw [g1]
      rw [e1]
      by_cases c : p.numResets ≤ (u.agents i).trajectoryResetCount
      · rw [(q1 c).2.2.2] at hc
        exact h2 hc
      · exact h2 (by omega)
  have hex : ∀ i, ∃ b, i < N → (u.agents i).updateMeasurementWeights = ok b ∧
      RobustDuty o p (E.map (newEdge p.r p.d c u.estimate)) c.update (k + 1) i b := by
    intro i
    by_cases hi : i < N
    · obtain ⟨b, hb⟩ := hw i hi
      exact ⟨b, fun _ => hb⟩
    · exact ⟨u.agents i, fun c => absurd c hi⟩
  choose b hb using hex
  have hmem : ∀ i, i ∈ f.order ↔ i < N := fun i => by rw [hf.once.mem_iff, List.mem_range]
  obtain ⟨v, hv, hvm, h1, -⟩ := reweighAll_ok (hf.once.nodup_iff.2 List.nodup_range) b (u := u)
    fun i hi => (hb i ((hmem i).1 hi)).1
  refine ⟨u, v, E.map (newEdge p.r p.d c u.estimate), hu.run, hv, hvm, ?_, fun i hi => ?_⟩
  · rw [List.forall₂_map_right_iff, List.forall₂_same]
    intro m hm
    refine newEdge_spec ?_
    obtain ⟨k', hmem'⟩ := hu.member m.r1 (hE m hm).1
    obtain ⟨w, hw, -⟩ := weight_total (agReach_inv hmem'.reach) hpar hL1
      (x := resid p.r p.d m (u.estimate m.r1) m.p1 (u.estimate m.r2) m.p2) (Real.sqrt_nonneg _)
    rw [hcost _ (hE m hm).1] at hw
    exact ⟨w, hw⟩
  · rw [h1 i ((hmem i).2 hi)]
    exact (hb i hi).2

/-! ### Many rounds -/

theorem reweighed_ends {E' : List (Meas ℝ)} {c : RobustCost} {X : Joint ℝ}
    (h : List.Forall₂ (Reweighed p.r p.d c X) E E') :
    (∀ i j, Partners E' i j ↔ Partners E i j) ∧
      ((∀ m ∈ E, m.r1 < N ∧ m.r2 < N) → ∀ m ∈ E', m.r1 < N ∧ m.r2 < N) := by
  have := reweighed_map h
  subst this
  refine ⟨fun i j => ?_, fun hE m hm => ?_⟩
  · unfold Partners
    refine and_congr_right fun _ => ⟨?_, ?_⟩
    · rintro ⟨m, hm, h⟩
      obtain ⟨m', hm', rfl⟩ := List.mem_map.1 hm
      rw [(newEdge_keeps m').1, (newEdge_keeps m').2.2.1] at h
      exact ⟨m', hm', h⟩
    · rintro ⟨m, hm, h⟩
      refine ⟨_, List.mem_map_of_mem hm, ?_⟩
      rw [(newEdge_keeps m).1, (newEdge_keeps m).2.2.1]
      exact h
  · obtain ⟨m', hm', rfl⟩ := List.mem_map.1 hm
    rw [(newEdge_keeps m').1, (newEdge_keeps m').2.2.1]
    exact hE m' hm'

theorem Spec.Course.ends {c c' : RobustCost} {l : List Round} {E' : List (Meas ℝ)}
    (h : Course o p E c s l E' c' t) : (∀ i j, Partners E' i j ↔ Partners E i j) ∧
      ((∀ m ∈ E, m.r1 < N ∧ m.r2 < N) → ∀ m ∈ E', m.r1 < N ∧ m.r2 < N) := by
  induction h with
  | start => exact ⟨fun _ _ => Iff.rfl, _root_.id⟩
  | round _ _ w _ ih =>
    obtain ⟨h1, h2⟩ := reweighed_ends (N := N) w
    exact ⟨fun i j => (h1 i j).trans (ih.1 i j), fun hE => h2 (ih.2 hE)⟩

theorem Spec.Orderly.congr {E' : List (Meas ℝ)} (h : ∀ i j, Partners E' i j ↔ Partners E i j) {f : Round}
    (hf : Orderly N E f) : Orderly N E' f :=
  ⟨hf.sound, fun i j hj => hf.informed i j ((h i j).1 hj), hf.once, hf.short⟩

/-- After any number of rounds all agents are ready for the next phase. -/
theorem course_duty (hd : 0 < p.d) (hp : p.acceleration = false) (hpar : ParamsOk p.robust)
    (hL1 : p.robust.costType ≠ .L1) (hres : p.numResets < 2 ^ 31) (hE : ∀ m ∈ E, m.r1 < N ∧ m.r2 < N)
    {c c' : RobustCost} {k : Int} (h : ∀ i < N, RobustDuty o p E c k i (s.agents i)) (hm : s.mail = [])
    {l : List Round} {E' : List (Meas ℝ)} (hl : ∀ f ∈ l, Orderly N E f) (hk : k + l.length < 2 ^ 31)
    (hc : Course o p E c s l E' c' t) :
    (∀ i < N, RobustDuty o p E' c' (k + l.length) i (t.agents i)) ∧ t.mail = [] := by
  induction hc with
  | start => exact ⟨fun i hi => by simpa using h i hi, hm⟩
  | @round l f E' E'' c' t u v hc e w e' ih =>
    obtain ⟨ih1, ih2⟩ := ih (fun g hg => hl g (by simp [hg])) (by
      simp only [List.length_append, List.length_cons, List.length_nil] at hk
      push_cast at hk
      omega)
    have en := hc.ends (N := N)
    obtain ⟨u', v', E₁, e1, e2, e3, e4, e5⟩ := round_ok hd hp hpar hL1 hres (en.2 hE) ih1 ih2 (by
      simp only [List.length_append, List.length_cons, List.length_nil] at hk
      push_cast at hk
      omega) ((hl f (by simp)).congr en.1)
    rw [e] at e1
    cases e1
    rw [e'] at e2
    cases e2
    rw [reweighed_map e4, ← reweighed_map w] at e5
    refine ⟨fun i hi => ?_, e3⟩
    have := e5 i hi
    rw [List.length_append, List.length_singleton]
    push_cast
    rw [← add_assoc]
    exact this

theorem course_exists (hd : 0 < p.d) (hp : p.acceleration = false) (hpar : ParamsOk p.robust)
    (hL1 : p.robust.costType ≠ .L1) (hres : p.numResets < 2 ^ 31) (hE : ∀ m ∈ E, m.r1 < N ∧ m.r2 < N)
    {c : RobustCost} {k : Int} (h : ∀ i < N, RobustDuty o p E c k i (s.agents i)) (hm : s.mail = [])
    {l : List Round} (hl : ∀ f ∈ l, Orderly N E f) (hk : k + l.length < 2 ^ 31) :
    ∃ E' t, Course o p E c s l E' (RobustCost.update^[l.length] c) t := by
  induction l using List.reverseRecOn with
  | nil => exact ⟨E, s, .start⟩
  | append_singleton l f ih =>
    simp only [List.length_append, List.length_cons, List.length_nil] at hk
    push_cast at hk
    have hk' : k + l.length < 2 ^ 31 := by omega
    obtain ⟨E', t, hc⟩ := ih (fun g hg => hl g (by simp [hg])) hk'
    obtain ⟨i1, i2⟩ := course_duty hd hp hpar hL1 hres hE h hm (fun g hg => hl g (by simp [hg])) hk' hc
    have en := hc.ends (N := N)
    obtain ⟨u', v', E₁, e1, e2, e3, e4, e5⟩ := round_ok hd hp hpar hL1 hres (en.2 hE) i1 i2 (by omega)
      ((hl f (by simp)).congr en.1)
    refine ⟨E₁, v', ?_⟩
    rw [List.length_append, List.length_singleton, Function.iterate_succ_apply']
    exact hc.round e1 e4 e2

end

end Dpgo
