import Verif.Lemmas.ScheduleStart

/-! # Steps taken on old poses -/

namespace Dpgo

open Res Spec PoseGraph

theorem Spec.Always.nil (P : Clock → NetOp → Prop) : Always P [] := by
  intro b op c e
  simp at e

theorem Spec.Always.snoc {P : Clock → NetOp → Prop} {l : List NetOp} {op : NetOp} (h1 : Always P l)
    (h2 : P (Clock.after l) op) : Always P (l ++ [op]) := by
  intro b op' c e
  rcases List.eq_nil_or_concat c with rfl | ⟨c', x, rfl⟩
  · obtain ⟨rfl, h⟩ := List.append_inj' e rfl
    cases h
    exact h2
  · rw [List.concat_eq_append, ← List.cons_append, ← List.append_assoc] at e
    exact h1 b op' c' (List.append_inj' e rfl).1

noncomputable section

/-- A solver that proposes `F` and takes the proposal if its own objective does not increase. -/
def Greedy (F : (r d n : Nat) → LVar r d n → LVar r d n) (o : OptOracles) : Prop :=
  ∀ (r d n : Nat) (Q G : DMat ℝ) (p : OptParams) (k : Nat) (Δ Δmax : ℝ) (Y : LVar r d n),
    (objective Q G (DMat.ofMat (F r d n Y)) ≤ objective Q G (DMat.ofMat Y) →
      (o.rtr r d n Q G p k Δ Δmax Y).X = F r d n Y) ∧
    (¬ objective Q G (DMat.ofMat (F r d n Y)) ≤ objective Q G (DMat.ofMat Y) →
      (o.rtr r d n Q G p k Δ Δmax Y).X = Y)

theorem Greedy.lawful {F : (r d n : Nat) → LVar r d n → LVar r d n} {o : OptOracles} (h : Greedy F o) :
    LawfulRtr o := by
  intro r d n Q G p k Δ Δmax Y _
  by_cases c : objective Q G (DMat.ofMat (F r d n Y)) ≤ objective Q G (DMat.ofMat Y)
  · rw [(h r d n Q G p k Δ Δmax Y).1 c]; exact c
  · rw [(h r d n Q G p k Δ Δmax Y).2 c]

section
variable {o : AgentOracles} {p : AgentParams} {E : List (Meas ℝ)} {sh : Nat → Nat} {i k : Nat} {a a' : Agent}

theorem Member.moves_any (hd : 0 < p.d) (hp : p.acceleration = false)
    (hl : p.robust.costType ≠ .L2 → a.innerIter + 1 < 2 ^ 31)
    (hm : p.localOpt.method = .RTR) (htol : p.localOpt.gradnormTol ≤ 0) (hit : p.localOpt.RTRIterations ≠ 1)
    {F : (r d n : Nat) → LVar r d n → LVar r d n} (hF : ∀ c, Greedy F (o.opt c))
    (h : Member o p E sh i k a) {X : Joint ℝ} (hX : X i = a.X.X)
    (hup : upToDate p.r p.d X a.graph a.neighborPoses) {s : Bool} (e : a.iterate o true = ok (s, a'))
    (hle : teamCost p.r p.d E (Function.update X i
      (DMat.ofMat (F p.r p.d (sh i) (a.X.X.toMat p.r ((p.d + 1) * sh i))))) ≤ teamCost p.r p.d E X) :
    a'.X.X = DMat.ofMat (F p.r p.d (sh i) (a.X.X.toMat p.r ((p.d + 1) * sh i))) := by
  have hs : s = true := by
    obtain ⟨s', a'', e', hb⟩ := iterate_total (o := o) hd (agReach_inv h.reach) (agReach_cache hd h.reach)
      h.state h.noSelf h.covered hl (fun c => by rw [hp] at c; cases c) true
    rw [e] at e'
    cases e'
    refine (hb rfl).2 ?_
    unfold stepMissing
    rw [hp]
    have t1 : TeamInv p.r p.d E i (a.graph.setNeighborPoses a.neighborPoses) :=
      h.team.updating (Steps.one (op := .setNeighborPoses a.neighborPoses) trivial rfl)
    obtain ⟨⟨log, hi⟩, -⟩ := Reachable.inv t1.reach
    exact hi.not_missing p.r p.d X hup
  subst hs
  obtain ⟨b, hb, hc⟩ := Agent.iterate_form e
  obtain ⟨c, -, -, rfl⟩ := Agent.tick_form hb
  rcases hc with ⟨-, hc⟩ | ⟨hc, -⟩
  swap
  · exact absurd h.state hc
  obtain ⟨b', c', hu, hst, rfl⟩ := Agent.iterateBody_form hc
  have hX' : (c'.publish true).X = b'.X := by
    rcases hst with ⟨-, hst⟩ | ⟨c, -⟩
    · obtain ⟨_, _, -, -, _, -, rfl⟩ := Agent.iterateStatus_form hst
      rfl
    · cases c
  rw [hX']
  rcases hu with ⟨c, -⟩ | ⟨-, hu⟩
  · rw [show a.params.acceleration = p.acceleration by rw [h.params], hp] at c
    cases c
  rcases Agent.updateX_form hu with ⟨c, -⟩ | ⟨-, -, -, g1, hg, st, hr⟩
  · cases c
  simp only [Bool.false_eq_true, if_false] at hg hr st
  rcases hr with ⟨c, -⟩ | ⟨-, Z, res, g2, ho', -, -, -, rfl⟩
  · cases c
  have t1 : TeamInv p.r p.d E i g1 := h.team.updating st
  have bk := PoseGraph.constructDataMatrices_book hg
  have hnp : g1.neighborPoses = a.neighborPoses := bk.neighborPoses
  have hn : g1.n = sh i := by
    rw [← h.size]
    exact (st.topology Agent.updating_quiet).n
  have hr1 := t1.r_eq
  have hd1 := t1.d_eq
  rw [show a.params.localOpt = p.localOpt by rw [h.params]] at ho'
  obtain ⟨Q, G, g3, e0, hg3, -, -, -, hQc, hYr, hYc, -, -, hfi, -, -, ⟨g4, hw⟩, -, -⟩ := optimize_ok ho'
  rw [← hX] at e0
  have cast : ∀ {r d n : Nat}, r = p.r → d = p.d → n = sh i →
      DMat.ofMat (F r d n (a.X.X.toMat r ((d + 1) * n))) =
        DMat.ofMat (F p.r p.d (sh i) (a.X.X.toMat p.r ((p.d + 1) * sh i))) := by
    rintro _ _ _ rfl rfl rfl; rfl
  have cz := cast hr1 hd1 hn
  -- the proposal has the right sizes, so its objective is defined
  have hF1 : ∃ g5, problemF g3 (DMat.ofMat (F g1.r g1.d g1.n (a.X.X.toMat g1.r ((g1.d + 1) * g1.n)))) =
      ok (objective Q G (DMat.ofMat (F g1.r g1.d g1.n (a.X.X.toMat g1.r ((g1.d + 1) * g1.n)))), g5) := by
    obtain ⟨Q', G', hq', -, -, -, hQ1, hQ2, hG1, hG2, -⟩ := problemF_full e0
    have hqq : some Q = some Q' ∧ some G = some G' := by
      rw [hg3] at hq'
      exact ⟨congrArg PoseGraph.Q hq', congrArg PoseGraph.G hq'⟩
    cases hqq.1
    cases hqq.2
    rw [hX] at hQ1 hQ2 hG1 hG2
    rw [hYc] at hQ1 hQ2 hG2
    rw [hYr] at hG1
    refine ⟨g3, ?_⟩
    subst hg3
    unfold problemF
    simp only [DMat.ofMat, beq_self_eq_true, check_true, ok_bind, quadraticMatrix, linearMatrix, hQ1, hQ2, hG1,
      hG2, Bool.and_self, require_true]
    rfl
  obtain ⟨g5, hF1⟩ := hF1
  have key := t1.change (two_ne_zero) hd X _ (by
    intro q hq
    rw [show g1.nbrShared = a.graph.nbrShared from bk.nbrShared] at hq
    rw [hnp]; exact hup q hq) e0 hF1
  have hY : objective Q G (DMat.ofMat (a.X.X.toMat g1.r ((g1.d + 1) * g1.n))) = objective Q G a.X.X :=
    objective_ofMat hYr hYc hQc
  show Z = _
  rw [← cz]
  rw [cz] at key
  unfold optimizeWith at hw
  rw [hm] at hw
  simp only [Res.ok.injEq, Prod.mk.injEq] at hw
  rw [← hw.1]
  unfold trustRegion
  rw [if_neg, if_neg hit]
  · subst hg3
    have := (hF a.calls g1.r g1.d g1.n Q G p.localOpt 0 p.localOpt.RTRInitialRadius
      (5 * p.localOpt.RTRInitialRadius) (a.X.X.toMat g1.r ((g1.d + 1) * g1.n))).1 (by
        rw [hY, ← hfi, cz]; linarith)
    exact congrArg DMat.ofMat this
  · refine not_lt.2 (htol.trans ?_)
    unfold rieGradNorm
    exact Real.sqrt_nonneg _

theorem Member.moves (hd : 0 < p.d) (hp : p.acceleration = false) (hl : p.robust.costType = .L2)
    (hm : p.localOpt.method = .RTR) (htol : p.localOpt.gradnormTol ≤ 0) (hit : p.localOpt.RTRIterations ≠ 1)
    {F : (r d n : Nat) → LVar r d n → LVar r d n} (hF : ∀ c, Greedy F (o.opt c))
    (h : Member o p E sh i k a) {X : Joint ℝ} (hX : X i = a.X.X)
    (hup : upToDate p.r p.d X a.graph a.neighborPoses) {s : Bool} (e : a.iterate o true = ok (s, a'))
    (hle : teamCost p.r p.d E (Function.update X i
      (DMat.ofMat (F p.r p.d (sh i) (a.X.X.toMat p.r ((p.d + 1) * sh i))))) ≤ teamCost p.r p.d E X) :
    a'.X.X = DMat.ofMat (F p.r p.d (sh i) (a.X.X.toMat p.r ((p.d + 1) * sh i))) :=
  h.moves_any hd hp (fun c => absurd hl c) hm htol hit hF hX hup e hle

end

section
variable {o : AgentOracles} {p : AgentParams} {E : List (Meas ℝ)} {N : Nat} {s t t' : Net} {ops : List NetOp}

/-- What was there before the first move. -/
theorem was_first (hd : 0 < p.d) (hp : p.acceleration = false) (hl : p.robust.costType = .L2)
    (h : ∀ i < N, OnDuty o p E i (s.agents i)) (hm : s.mail = []) (hs : Always (Sound N) ops) {j : Nat}
    {B : PArr ℝ} (hw : Was o s ops j 0 B) : B = (s.agents j).X := by
  obtain ⟨b, u, ⟨c, rfl⟩, h2, h3, rfl⟩ := hw
  obtain ⟨u', hu⟩ := NetInv.all (ops := b) (o := o) (E := E) hd hl (fun c => by rw [hp] at c; cases c) h hm (by
    rintro x op y rfl
    exact hs x op (y ++ c) (by simp))
  have : u' = u := by
    have := hu.run
    rw [h2] at this
    cases this; rfl
  subst this
  refine (hu.still hp j _ ⟨[], s, List.nil_prefix, rfl, ?_, rfl⟩).symm
  rw [h3]; rfl

/-- A robot moves for the first time, with poses sent before anybody moved. -/
theorem NetInv.moves (hd : 0 < p.d) (hp : p.acceleration = false) (hl : p.robust.costType = .L2)
    (hm : p.localOpt.method = .RTR) (htol : p.localOpt.gradnormTol ≤ 0) (hit : p.localOpt.RTRIterations ≠ 1)
    {F : (r d n : Nat) → LVar r d n → LVar r d n} (hF : ∀ c, Greedy F (o.opt c))
    (h : ∀ i < N, OnDuty o p E i (s.agents i)) (hmail : s.mail = []) (hs : Always (Sound N) ops)
    (ht : NetInv o p E (fun i => (s.agents i).graph.n) N s ops t)
    (hE : ∀ m ∈ E, m.r1 < N ∧ m.r2 < N) {i : Nat} (hi : i < N) (h0 : (Clock.after ops).moves i = 0)
    (hseen : ∀ j, Partners E i j → (Clock.after ops).seen i j = some 0)
    (e : netStep o t (.iterate i true) = ok t')
    (hle : teamCost p.r p.d E (Function.update s.estimate i (DMat.ofMat (F p.r p.d (s.agents i).graph.n
      ((s.agents i).X.X.toMat p.r ((p.d + 1) * (s.agents i).graph.n))))) ≤ teamCost p.r p.d E s.estimate) :
    t'.estimate = Function.update t.estimate i (DMat.ofMat (F p.r p.d (s.agents i).graph.n
      ((s.agents i).X.X.toMat p.r ((p.d + 1) * (s.agents i).graph.n)))) := by
  obtain ⟨k, hk⟩ := ht.member i hi
  obtain ⟨b, a', ea, -, -, -⟩ := hk.iterate hd hl (fun c => by rw [hp] at c; cases c) true
  have es : netStep o t (.iterate i true) = ok ⟨Function.update t.agents i a', t.mail⟩ := by
    unfold netStep
    simp only [ea, ok_bind]
  rw [e] at es
  cases es
  have hX : (t.agents i).X = (s.agents i).X :=
    was_first hd hp hl h hmail hs (j := i) ⟨ops, t, List.prefix_rfl, ht.run, h0, rfl⟩
  have := hk.moves hd hp hl hm htol hit hF (X := s.estimate) (by rw [hX]; rfl) (by
    intro q hq
    have hlink : Partners E i q.robot := by
      refine ⟨(hk.team.robots hE hq).2.symm, ?_⟩
      obtain ⟨m, hm, rfl⟩ := ((Props.C05_public_ids i p.r p.d _ hk.team.reach).2.1 q).1 hq
      rw [hk.team.lists.2.2, List.mem_filter] at hm
      obtain ⟨hm, hs⟩ := hm
      refine ⟨m, Example.mem_firstWins hm, ?_⟩
      simp only [isShared, Bool.or_eq_true, Bool.and_eq_true, beq_iff_eq, bne_iff_ne] at hs
      unfold foreignPose
      by_cases h1 : m.r1 = i
      · rw [if_pos h1]
        exact Or.inl ⟨h1, rfl⟩
      · rw [if_neg h1]
        exact Or.inr ⟨rfl, by omega⟩
    obtain ⟨B, hB, hq'⟩ := ht.seen i hi _ _ (hseen _ hlink)
    obtain ⟨P, hP, hc⟩ := hq' q hq rfl
    refine ⟨P, hP, fun ρ c hρ hc' => ?_⟩
    rw [copies_value hc hρ hc', was_first hd hp hl h hmail hs hB]
    rfl) ea (by rw [hX]; exact hle)
  rw [hX] at this
  funext j
  by_cases c : j = i
  · subst c
    rw [Function.update_self, ← this]
    show (Function.update t.agents j a' j).X.X = _
    rw [Function.update_self]
  · rw [Function.update_of_ne c]
    show (Function.update t.agents i a' j).X.X = _
    rw [Function.update_of_ne c]
    rfl

end

end

end Dpgo
