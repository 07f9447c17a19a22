import Verif.Lemmas.Descent
import Verif.Lemmas.AgentStale
import Verif.Spec.Anchor

/-! # Priors and the anchor of an agent -/

namespace Dpgo

open Res Spec PoseGraph Finset

theorem OMap.sum_insert {β : Type} (f : Nat × β → ℝ) (k : Nat) (v : β) (m : OMap Nat β)
    (hs : OMap.Sorted ltNat m) :
    ((OMap.insert ltNat k v m).map f).sum = ((m.filter fun q => q.1 ≠ k).map f).sum + f (k, v) := by
  induction m with
  | nil => simp [OMap.insert]
  | cons q t ih =>
    obtain ⟨q, w⟩ := q
    unfold OMap.Sorted OSet.Sorted OMap.keys at hs
    rw [List.map_cons, List.pairwise_cons] at hs
    have hq : ∀ x ∈ t, q < x.1 := fun x hx => by
      have := hs.1 x.1 (List.mem_map.2 ⟨x, hx, rfl⟩)
      simpa [ltNat] using this
    have ht : k ≤ q → (t.filter fun x => x.1 ≠ k) = t := fun h => by
      rw [List.filter_eq_self]
      intro x hx
      have := hq x hx
      simp; omega
    unfold OMap.insert
    by_cases h1 : k < q
    · rw [if_pos (by simpa [ltNat] using h1), List.filter_cons,
        if_pos (by simp; omega), ht h1.le]
      simp only [List.map_cons, List.sum_cons]
      ring
    · rw [if_neg (by simpa [ltNat] using h1)]
      by_cases h2 : q < k
      · rw [if_pos (by simpa [ltNat] using h2), List.filter_cons, if_pos (by simp; omega)]
        simp only [List.map_cons, List.sum_cons]
        rw [ih hs.2]
        ring
      · rw [if_neg (by simpa [ltNat] using h2), List.filter_cons, if_neg (by simp; omega), ht (by omega)]
        have : q = k := by omega
        subst this
        simp only [List.map_cons, List.sum_cons]
        ring

/-- Priors are only inserted and dropped. -/
theorem step_priors {g g' : PoseGraph ℝ} {op : PGOp ℝ} (e : g.step op = ok g') :
    g'.priors = g.priors ∨ g'.priors = [] ∨
      ∃ i X, op = .setPrior i X ∧ g'.priors = OMap.insert ltNat i X g.priors := by
  have hQ : ∀ {g g' : PoseGraph ℝ} {Q : DMat ℝ}, g.quadraticMatrix = ok (Q, g') →
      g'.priors = g.priors := by
    intro g g' Q e
    rcases quadraticMatrix_ok e with ⟨_, rfl⟩ | ⟨_, _, rfl⟩ <;> rfl
  cases op with
  | addMeasurement m => exact Or.inl (addMeasurement_caches e).2.2.2.2.1
  | setMeasurements ms => exact Or.inr (Or.inl (setMeasurements_caches e).2.2.2.1)
  | empty => cases e; exact Or.inr (Or.inl rfl)
  | reset => cases e; exact Or.inr (Or.inl (reset_parts g).2.1)
  | clearNeighborPoses => cases e; exact Or.inl rfl
  | clearPriors => cases e; exact Or.inr (Or.inl rfl)
  | setPrior i X =>
    simp only [PoseGraph.step, setPrior, bind_eq_ok] at e
    obtain ⟨_, -, _, -, _, -, e⟩ := e
    cases e
    exact Or.inr (Or.inr ⟨i, X, rfl, rfl⟩)
  | setNeighborPoses dict => cases e; exact Or.inl rfl
  | setNeighborActive nid b => exact Or.inl (setNeighborActive_parts e).2.1
  | useInactiveNeighbors u => cases e; exact Or.inl rfl
  | writeWeight src dst w f =>
    simp only [PoseGraph.step, bind_eq_ok] at e
    obtain ⟨p, _, e⟩ := e
    cases p with
    | none => cases e; exact Or.inl rfl
    | some p => cases e; exact Or.inl (writeWeight_caches g p w f).2.2.2.1
  | quadraticMatrix =>
    simp only [PoseGraph.step, bind_eq_ok] at e
    obtain ⟨⟨Q, g1⟩, h, e⟩ := e
    cases e
    exact Or.inl (hQ h)
  | linearMatrix =>
    simp only [PoseGraph.step, bind_eq_ok] at e
    obtain ⟨⟨Q, g1⟩, h, e⟩ := e
    cases e
    rcases linearMatrix_ok h with ⟨_, rfl⟩ | ⟨_, _, rfl⟩ <;> exact Or.inl rfl
  | constructDataMatrices =>
    simp only [PoseGraph.step, bind_eq_ok] at e
    obtain ⟨⟨b, g1⟩, h, e⟩ := e
    cases e
    obtain ⟨b1, g2, h1, h2⟩ := constructDataMatrices_ok h
    have h3 : g2.priors = g.priors := by
      rcases ensureQ_ok h1 with ⟨Q, _, rfl, _⟩ | ⟨Q, _, h, rfl, _⟩ | ⟨_, _, rfl, _⟩ <;> rfl
    rcases h2 with ⟨_, h2⟩ | ⟨_, _, rfl⟩
    · rcases ensureG_ok h2 with ⟨Q, _, rfl, _⟩ | ⟨Q, _, h, rfl, _⟩ | ⟨_, _, rfl, _⟩ <;> exact Or.inl h3
    · exact Or.inl h3
  | hasPreconditioner chol =>
    simp only [PoseGraph.step, bind_eq_ok] at e
    obtain ⟨⟨b, g1⟩, h, e⟩ := e
    cases e
    rcases hasPreconditioner_ok h with ⟨P, _, rfl, _⟩ | ⟨Q, g2, _, h1, _, rfl⟩
    · exact Or.inl rfl
    · have := hQ h1
      split <;> exact Or.inl this
  | clearQuadraticMatrix => cases e; exact Or.inl rfl
  | clearLinearMatrix => cases e; exact Or.inl rfl
  | clearDataMatrices => cases e; exact Or.inl rfl

theorem priors_sorted {id r d : Nat} {g : PoseGraph ℝ} (hg : Reachable id r d g) :
    OMap.Sorted ltNat g.priors := by
  refine Reachable.ind (P := fun g => OMap.Sorted ltNat g.priors) ?_ ?_ hg
  · intro g₀ e
    simp only [PoseGraph.new, bind_eq_ok] at e
    obtain ⟨_, _, e⟩ := e
    cases e
    exact List.Pairwise.nil
  · intro g op g' _ _ hP e
    rcases step_priors e with h | h | ⟨i, X, -, h⟩ <;> show OMap.Sorted ltNat g'.priors <;> rw [h]
    · exact hP
    · exact List.Pairwise.nil
    · exact OMap.sorted_insert strictTotal_ltNat _ _ _ hP

theorem graphCost_priors (g : PoseGraph ℝ) (X : DMat ℝ) (l : OMap Nat (PArr ℝ)) :
    graphCost { g with priors := l } X = graphCost { g with priors := [] } X +
      1 / 2 * (l.map fun p => priorCost g.r g.d X p.1 p.2.X).sum := by
  have h : ∀ l, graphCost { g with priors := l } X =
    1 / 2 * ((g.localMeasurements.map fun m => edgeCost g.r g.d m X m.p1 X m.p2).sum +
      (g.sharedLcs.map fun m => sharedCost g m X).sum +
      (l.map fun p => priorCost g.r g.d X p.1 p.2.X).sum) := fun l => rfl
  rw [h, h]
  simp only [List.map_nil, List.sum_nil]
  ring

/-- The cost after a prior has been set. -/
theorem setPrior_cost {id r d : Nat} {g g' : PoseGraph ℝ} (hg : Reachable id r d g) {i : Nat} {P : PArr ℝ}
    (e : g.setPrior i P = ok g') (dict : PoseDict ℝ) (X : DMat ℝ) :
    graphCost { g' with neighborPoses := dict } X =
      graphCost { withoutPrior g i with neighborPoses := dict } X + 1 / 2 * priorCost g.r g.d X i P.X ∧
    withoutPrior g' i = withoutPrior g i ∧ g' = { g with priors := OMap.insert ltNat i P g.priors } := by
  have hs := priors_sorted hg
  simp only [setPrior, bind_eq_ok] at e
  obtain ⟨_, -, _, -, _, -, e⟩ := e
  cases e
  refine ⟨?_, ?_, rfl⟩
  · have k := OMap.sum_insert (fun p => priorCost g.r g.d X p.1 p.2.X) i P g.priors hs
    have c1 := graphCost_priors { g with neighborPoses := dict } X (OMap.insert ltNat i P g.priors)
    have c2 := graphCost_priors { g with neighborPoses := dict } X (g.priors.filter fun q => q.1 ≠ i)
    dsimp only at c1 c2 k ⊢
    unfold withoutPrior
    dsimp only
    rw [c1, c2, k]
    ring
  · show PoseGraph.mk .. = PoseGraph.mk ..
    congr 1
    show (OMap.insert ltNat i P g.priors).filter _ = g.priors.filter _
    clear hs
    induction g.priors with
    | nil => simp [OMap.insert]
    | cons q t ih =>
      unfold OMap.insert
      split
      · simp
      · split
        · simp only [List.filter_cons, ih]
        · rename_i h1 h2
          have : i = q.1 := by
            simp only [ltNat, decide_eq_true_eq] at h1 h2
            omega
          subst this
          simp

/-- The objective of a graph whose quadratic matrix lacks a prior that its linear matrix has. -/
theorem late_objective {g g' : PoseGraph ℝ} {log log' : List (Meas ℝ)} (h : Inv g log) (h' : Inv g' log')
    {P : PArr ℝ} (hn : g.priors = []) (eg : g' = { g with priors := [(0, P)] }) {Q G X : DMat ℝ}
    (hQ : g.constructQ = ok (some Q)) (hG : g'.constructG = ok (some G)) (hXr : X.rows = g.r)
    (hXc : X.cols = (g.d + 1) * g.n) (hQr : Q.rows = X.cols) :
    objective Q G X = graphCost g X - graphCost g (zeroEst g) +
      ∑ ρ ∈ range g.r, prG g.d ρ (0, P) (X.v ρ) := by
  obtain ⟨q1, -, q3⟩ := h.constructQ_ok hQ
  obtain ⟨-, -, g3⟩ := h'.constructG_ok hG
  unfold objective
  rw [dot_mul_qform X Q (q1.trans hQr), hXr, ← hQr]
  simp only [q3]
  have hlin : X.dot G = ∑ ρ ∈ range g.r, ((g.sharedLcs.map fun m => g.shG ρ m (X.v ρ)).sum +
      prG g.d ρ (0, P) (X.v ρ)) := by
    unfold DMat.dot
    rw [hXr, hXc]
    refine Finset.sum_congr rfl fun ρ hρ => ?_
    have := g3 (X.v ρ) ρ (by rw [eg]; exact Finset.mem_range.1 hρ)
    rw [eg] at this
    simp only [List.map_cons, List.map_nil, List.sum_cons, List.sum_nil, add_zero] at this
    exact this
  rw [hlin]
  simp only [Finset.sum_add_distrib, hn, List.map_nil, List.sum_nil, add_zero]
  rw [list_sum_finset g.localMeasurements g.r fun ρ m => edgeSq g.d m (X.v ρ),
    list_sum_finset g.sharedLcs g.r fun ρ m => g.shQ m (X.v ρ),
    list_sum_finset g.sharedLcs g.r fun ρ m => g.shG ρ m (X.v ρ)]
  have e1 := list_sum_congr (l := g.sharedLcs) fun m _ =>
    shared_row g two_ne_zero m X g.r ((g.d + 1) * g.n)
  have e3 := list_sum_congr (l := g.localMeasurements) fun m _ =>
    local_row g.r g.d m X g.r ((g.d + 1) * g.n)
  rw [← list_sum_add, ← list_mul_sum, ← list_mul_sum, ← list_sum_sub] at e1
  rw [← list_sum_sub] at e3
  rw [e3]
  unfold graphCost zeroEst
  rw [hn]
  simp only [List.map_nil, List.sum_nil, add_zero]
  linear_combination e1

theorem prG_pull (p : AgentParams) (P : PArr ℝ) (X : DMat ℝ) :
    ∑ ρ ∈ range p.r, prG p.d ρ (0, P) (X.v ρ) = - anchorPull p X P.X := by
  unfold prG anchorPull
  rw [Finset.sum_neg_distrib, neg_inj, Finset.mul_sum, Finset.mul_sum, ← Finset.sum_add_distrib]
  refine Finset.sum_congr rfl fun ρ _ => ?_
  rw [Finset.sum_range_succ, Finset.mul_sum]
  congr 1
  · refine Finset.sum_congr rfl fun c hc => ?_
    have := Finset.mem_range.1 hc
    simp only [om, this, if_true, rot, blk, priorKappa, Nat.zero_mul, Nat.zero_add]
    ring
  · simp only [om, lt_irrefl, if_false, tra, blk, priorTau, Nat.zero_mul, Nat.zero_add]
    ring

variable {o : AgentOracles} {ID : Nat} {p : AgentParams} {a a' : Agent}

theorem graphCost_nonneg {g : PoseGraph ℝ} (h : NonnegWeights g) (X : DMat ℝ) : 0 ≤ graphCost g X := by
  have hE : ∀ m ∈ g.odometry ++ g.privateLcs ++ g.sharedLcs, ∀ A B : DMat ℝ, ∀ i j,
      0 ≤ edgeCost g.r g.d m A i B j := fun m hm A B i j => by
    obtain ⟨h1, h2, h3⟩ := h m hm
    exact mul_nonneg h1 (add_nonneg
      (mul_nonneg h2 (Finset.sum_nonneg fun _ _ => Finset.sum_nonneg fun _ _ => sq_nonneg _))
      (mul_nonneg h3 (Finset.sum_nonneg fun _ _ => sq_nonneg _)))
  unfold graphCost
  refine mul_nonneg (by norm_num) (add_nonneg (add_nonneg ?_ ?_) ?_)
  · refine List.sum_nonneg fun x hx => ?_
    obtain ⟨m, hm, rfl⟩ := List.mem_map.1 hx
    exact hE m (List.mem_append_left _ hm) _ _ _ _
  · refine List.sum_nonneg fun x hx => ?_
    obtain ⟨m, hm, rfl⟩ := List.mem_map.1 hx
    have hm' : m ∈ g.odometry ++ g.privateLcs ++ g.sharedLcs := List.mem_append_right _ hm
    unfold sharedCost
    split
    · exact le_rfl
    · split <;> exact hE m hm' _ _ _ _
  · refine List.sum_nonneg fun x hx => ?_
    obtain ⟨m, hm, rfl⟩ := List.mem_map.1 hx
    unfold priorCost
    exact add_nonneg
      (mul_nonneg (by norm_num) (Finset.sum_nonneg fun _ _ => Finset.sum_nonneg fun _ _ => sq_nonneg _))
      (mul_nonneg (by norm_num) (Finset.sum_nonneg fun _ _ => sq_nonneg _))

/-- All poses moved by `k` times the translation of the first pose of `P`. -/
def shifted (d : Nat) (X P : DMat ℝ) (k : ℝ) : DMat ℝ :=
  ⟨X.rows, X.cols, fun ρ j => X.v ρ j + if j % (d + 1) = d then k * tra d P 0 ρ else 0⟩

theorem shifted_rot {d : Nat} (X P : DMat ℝ) (k : ℝ) (i ρ : Nat) {c : Nat} (hc : c < d) :
    rot d (shifted d X P k) i ρ c = rot d X i ρ c := by
  have : (i * (d + 1) + c) % (d + 1) ≠ d := by
    rw [Nat.mul_add_mod_self_right, Nat.mod_eq_of_lt (by omega)]; omega
  simp only [rot, shifted, if_neg this, add_zero]

theorem shifted_tra {d : Nat} (X P : DMat ℝ) (k : ℝ) (i ρ : Nat) :
    tra d (shifted d X P k) i ρ = tra d X i ρ + k * tra d P 0 ρ := by
  have : (i * (d + 1) + d) % (d + 1) = d := by
    rw [Nat.mul_add_mod_self_right, Nat.mod_eq_of_lt (by omega)]
  show X.v ρ _ + (if _ then _ else _) = _
  rw [if_pos this]
  rfl

theorem shifted_edge {r d : Nat} (m : Meas ℝ) (X P : DMat ℝ) (k : ℝ) (i j : Nat) :
    edgeCost r d m (shifted d X P k) i (shifted d X P k) j = edgeCost r d m X i X j := by
  have hs : ∀ ρ (f : Nat → ℝ), ∑ s ∈ range d, rot d (shifted d X P k) i ρ s * f s =
      ∑ s ∈ range d, rot d X i ρ s * f s := fun ρ f =>
    Finset.sum_congr rfl fun s hs => by rw [shifted_rot X P k i ρ (Finset.mem_range.1 hs)]
  unfold edgeCost
  congr 3
  · unfold rotRes
    refine Finset.sum_congr rfl fun ρ _ => Finset.sum_congr rfl fun c hc => ?_
    rw [hs ρ fun s => m.R.v s c, shifted_rot X P k j ρ (Finset.mem_range.1 hc)]
  · unfold traRes
    refine Finset.sum_congr rfl fun ρ _ => ?_
    rw [hs ρ fun s => m.t.v s 0, shifted_tra, shifted_tra]
    ring

theorem shifted_pull (X P : DMat ℝ) (k : ℝ) :
    anchorPull p (shifted p.d X P k) P = anchorPull p X P + k * (100 * ∑ ρ ∈ range p.r, tra p.d P 0 ρ ^ 2) := by
  unfold anchorPull
  have h1 : ∑ ρ ∈ range p.r, ∑ c ∈ range p.d, rot p.d P 0 ρ c * rot p.d (shifted p.d X P k) 0 ρ c =
      ∑ ρ ∈ range p.r, ∑ c ∈ range p.d, rot p.d P 0 ρ c * rot p.d X 0 ρ c :=
    Finset.sum_congr rfl fun ρ _ => Finset.sum_congr rfl fun c hc => by
      rw [shifted_rot X P k 0 ρ (Finset.mem_range.1 hc)]
  have h2 : ∑ ρ ∈ range p.r, tra p.d P 0 ρ * tra p.d (shifted p.d X P k) 0 ρ =
      ∑ ρ ∈ range p.r, tra p.d P 0 ρ * tra p.d X 0 ρ + k * ∑ ρ ∈ range p.r, tra p.d P 0 ρ ^ 2 := by
    rw [Finset.mul_sum, ← Finset.sum_add_distrib]
    refine Finset.sum_congr rfl fun ρ _ => ?_
    rw [shifted_tra]; ring
  rw [h1, h2]; ring

/-- The objective of the step after a late anchoring. -/
theorem late_step (hd : 0 < p.d) (hr : AgReach o ID p a) (hf : Fresh a.graph) {Q : DMat ℝ}
    (hQ : a.graph.Q = some Q) (hn : a.graph.priors = []) {P : PArr ℝ} (hP : ArrOk P.r P.d 1 P)
    {b : Bool} (e : a.anchorFirstPoseWith P = ok (b, a')) {Q' G : DMat ℝ} (hm : StepMatrices a' false Q' G)
    {X : DMat ℝ} (hXr : X.rows = p.r) (hXc : X.cols = (p.d + 1) * a.graph.n) :
    objective Q' G X = seenCost a X - seenCost a (zeroEst a.graph) - anchorPull p X P.X := by
  have hi := agReach_inv hr
  have hc := agReach_cache hd hr
  obtain ⟨hid, hr0, hd0, -⟩ := reach_dims hi.reach
  have hr' : AgReach o ID p a' := agReach_snoc (op := .anchorFirstPoseWith P) hr hP
    (by simp only [Agent.step, e, ok_bind])
  have hpr := (agReach_cache hd hr').priors
  have hnb := (agReach_inv hr').nbr
  clear hr'
  obtain ⟨-, g', hg, rfl⟩ := Agent.anchorFirstPoseWith_form e
  have hg' : a.graph.setPrior 0 P = ok g' := hg
  obtain ⟨-, -, eg⟩ := setPrior_cost hi.reach hg' [] X
  rw [hn] at eg
  have eg : g' = { a.graph with priors := [(0, P)] } := eg
  obtain ⟨gm, em, k1, k2⟩ := hm
  simp only [Bool.false_eq_true, if_false] at em
  have em : (g'.setNeighborPoses a.neighborPoses).constructDataMatrices = ok (true, gm) := em
  have hs : Steps Agent.updating (g'.setNeighborPoses a.neighborPoses) gm :=
    Steps.one (op := .constructDataMatrices) trivial (by simp only [PoseGraph.step, em, ok_bind])
  have hQ' : gm.Q = some Q := updating_Q hs (by rw [eg]; exact hQ)
  rw [k1] at hQ'
  cases hQ'
  -- the linear matrix is the one of the anchored graph
  obtain ⟨b1, g0, h1, h2⟩ := constructDataMatrices_ok em
  have hg0 : g0 = g'.setNeighborPoses a.neighborPoses := by
    rcases ensureQ_ok h1 with ⟨_, -, c, -⟩ | ⟨_, c, -⟩ | ⟨c, -⟩
    · exact c
    · rw [eg] at c
      have c : a.graph.Q = none := c
      rw [hQ] at c; cases c
    · rw [eg] at c
      have c : a.graph.Q = none := c
      rw [hQ] at c; cases c
  rcases h2 with ⟨-, h2⟩ | ⟨-, c, -⟩
  swap
  · cases c
  rw [hg0] at h2
  have cG : (g'.setNeighborPoses a.neighborPoses).constructG = ok (some G) := by
    rcases ensureG_ok h2 with ⟨_, c, -⟩ | ⟨G0, -, c, c', -⟩ | ⟨-, -, -, c⟩
    · cases c
    · rw [c'] at k2
      cases k2
      exact c
    · cases c
  -- the quadratic one is the one of the graph before
  have r1 : Reachable ID p.r p.d (a.graph.setNeighborPoses a.neighborPoses) :=
    Reachable.snoc (op := .setNeighborPoses a.neighborPoses) hi.reach trivial rfl
  have r2 : Reachable ID p.r p.d (g'.setNeighborPoses a.neighborPoses) :=
    Reachable.snoc (op := .setNeighborPoses a.neighborPoses)
      (Reachable.snoc (op := .setPrior 0 P) hi.reach trivial hg) trivial rfl
  obtain ⟨⟨l1, i1⟩, -⟩ := Reachable.inv r1
  obtain ⟨⟨l2, i2⟩, -⟩ := Reachable.inv r2
  have f1 : Fresh (a.graph.setNeighborPoses a.neighborPoses) :=
    hf.step (op := .setNeighborPoses a.neighborPoses) hi.reach (Or.inl hc.unused) rfl
  have hmiss : ¬ posesMissing (a.graph.setNeighborPoses a.neighborPoses) := fun c => by
    have := data_missing (p := p) (g := g') (Reachable.snoc (op := .setPrior 0 P) hi.reach trivial hg) hpr
      ⟨hnb.sorted, hnb.mem⟩ em (by rw [eg]; exact c)
    cases this
  have cQ : (a.graph.setNeighborPoses a.neighborPoses).constructQ = ok (some Q) :=
    (f1.q Q hQ).construct i1 (by show 0 < a.graph.d; rw [hd0]; exact hd)
      (by show ∀ q ∈ a.graph.priors, _; rw [hn]; simp) hmiss
  have key := late_objective i1 i2 hn (by rw [eg]; rfl) cQ cG (X := X)
    (by show _ = a.graph.r; rw [hr0]; exact hXr) (by show _ = (a.graph.d + 1) * a.graph.n; rw [hd0]; exact hXc)
    (by rw [hXc]; exact (hc.size Q hQ).1)
  rw [key]
  show graphCost _ X - graphCost _ _ + ∑ ρ ∈ range a.graph.r, prG a.graph.d ρ (0, P) (X.v ρ) = _
  rw [hr0, hd0, prG_pull, ← sub_eq_add_neg]
  rfl

/-- The quadratic matrix depends on which poses have a prior, not on the priors. -/
theorem qPriors_keys {d : Nat} {l l' : OMap Nat (PArr ℝ)} (h : l.map Prod.fst = l'.map Prod.fst) (D : DMat ℝ) :
    qPriors d l D = qPriors d l' D := by
  induction l generalizing l' D with
  | nil => cases l' with
    | nil => rfl
    | cons _ _ => cases h
  | cons q l ih => cases l' with
    | nil => cases h
    | cons q' l' =>
      rw [List.map_cons, List.map_cons, List.cons.injEq] at h
      obtain ⟨h1, h2⟩ := h
      simp only [qPriors, h1, ih h2]

theorem qShared_priors (g : PoseGraph ℝ) (ps : OMap Nat (PArr ℝ)) (l : List (Meas ℝ)) (D : DMat ℝ) :
    ({ g with priors := ps } : PoseGraph ℝ).qShared l D = g.qShared l D := by
  induction l generalizing D with
  | nil => rfl
  | cons m l ih =>
    simp only [PoseGraph.qShared, ih]
    rfl

theorem constructQ_priors (g : PoseGraph ℝ) {ps : OMap Nat (PArr ℝ)}
    (h : ps.map Prod.fst = g.priors.map Prod.fst) :
    ({ g with priors := ps } : PoseGraph ℝ).constructQ = g.constructQ := by
  unfold PoseGraph.constructQ
  simp only [qShared_priors, qPriors_keys h]
  rfl

theorem builtQ_priors {g : PoseGraph ℝ} {Q : DMat ℝ} (hb : BuiltQ g Q) {ps : OMap Nat (PArr ℝ)}
    (h : ps.map Prod.fst = g.priors.map Prod.fst) : BuiltQ { g with priors := ps } Q := by
  obtain ⟨g', a, b, c⟩ := hb
  obtain ⟨a1, a2, a3, a4, a5, a6, a7, a8, a9, a10, a11, a12⟩ := a
  refine ⟨{ g' with priors := ps }, ⟨a1, a2, a3, a4, a5, a6, a7, a8, a9, a10, a11, rfl⟩, ?_, c⟩
  rw [constructQ_priors g' (h.trans (congrArg (List.map Prod.fst) a12.symm))]
  exact b

theorem insert_keys {β : Type} {m : OMap Nat β} (hs : OMap.Sorted ltNat m) {i : Nat} {v w : β}
    (h : (i, w) ∈ m) : (OMap.insert ltNat i v m).map Prod.fst = m.map Prod.fst := by
  induction m with
  | nil => cases h
  | cons q t ih =>
    obtain ⟨q, x⟩ := q
    unfold OMap.Sorted OSet.Sorted OMap.keys at hs
    rw [List.map_cons, List.pairwise_cons] at hs
    unfold OMap.insert
    rcases List.mem_cons.1 h with c | c
    · cases c
      simp [ltNat]
    · have hlt : q < i := by
        have := hs.1 i (List.mem_map.2 ⟨_, c, rfl⟩)
        simpa [ltNat] using this
      have h1 : ¬ i < q := by omega
      simp [ltNat, hlt, h1, ih hs.2 c]

theorem again_step (hd : 0 < p.d) (hr : AgReach o ID p a) (hf : Fresh a.graph) {P0 P : PArr ℝ}
    (h0 : (0, P0) ∈ a.graph.priors) (hP : ArrOk P.r P.d 1 P)
    {b : Bool} (e : a.anchorFirstPoseWith P = ok (b, a')) {Q0 Q G : DMat ℝ} (hQ : a.graph.Q = some Q0)
    (hm : StepMatrices a' false Q G) {X : DMat ℝ} (hXr : X.rows = p.r)
    (hXc : X.cols = (p.d + 1) * a.graph.n) :
    objective Q G X = seenCost a' X - seenCost a' (zeroEst a'.graph) := by
  have hi := agReach_inv hr
  have hc := agReach_cache hd hr
  obtain ⟨hid, hr0, hd0, -⟩ := reach_dims hi.reach
  have hr' : AgReach o ID p a' := agReach_snoc (op := .anchorFirstPoseWith P) hr hP
    (by simp only [Agent.step, e, ok_bind])
  have hpr := (agReach_cache hd hr').priors
  have hnb := (agReach_inv hr').nbr
  clear hr'
  obtain ⟨-, g', hg, rfl⟩ := Agent.anchorFirstPoseWith_form e
  have hg' : a.graph.setPrior 0 P = ok g' := hg
  obtain ⟨-, -, eg⟩ := setPrior_cost hi.reach hg' [] X
  have hkeys := insert_keys (v := P) (priors_sorted hi.reach) h0
  have f1 : Fresh (a.graph.setNeighborPoses a.neighborPoses) :=
    hf.step (op := .setNeighborPoses a.neighborPoses) hi.reach (Or.inl hc.unused) rfl
  have rg' : Reachable ID p.r p.d g' := Reachable.snoc (op := .setPrior 0 P) hi.reach trivial hg
  have r2 : Reachable ID p.r p.d (g'.setNeighborPoses a.neighborPoses) :=
    Reachable.snoc (op := .setNeighborPoses a.neighborPoses) rg' trivial rfl
  have f2 : Fresh (g'.setNeighborPoses a.neighborPoses) := by
    rw [eg]
    refine ⟨fun Q hQ => builtQ_priors (f1.q Q hQ) hkeys, fun G hG => (by cases hG), fun T hT => ?_⟩
    obtain ⟨Q, h1, h2⟩ := f1.p T hT
    exact ⟨Q, h1, builtQ_priors h2 hkeys⟩
  obtain ⟨gm, em, k1, k2⟩ := hm
  simp only [Bool.false_eq_true, if_false] at em
  have em : (g'.setNeighborPoses a.neighborPoses).constructDataMatrices = ok (true, gm) := em
  have hs : Steps Agent.updating (g'.setNeighborPoses a.neighborPoses) gm :=
    Steps.one (op := .constructDataMatrices) trivial (by simp only [PoseGraph.step, em, ok_bind])
  have em' : (g'.setNeighborPoses a.neighborPoses).step .constructDataMatrices = ok gm := by
    simp only [PoseGraph.step, em, ok_bind]
  have f3 : Fresh gm := f2.step (op := .constructDataMatrices) r2 trivial em'
  have r3 : Reachable ID p.r p.d gm := Reachable.snoc (op := .constructDataMatrices) r2 trivial em'
  have hmiss : ¬ posesMissing (g'.setNeighborPoses a.neighborPoses) := fun c => by
    have := data_missing (p := p) (g := g') rg' hpr ⟨hnb.sorted, hnb.mem⟩ em c
    cases this
  have bk := updating_book hs
  have hnp : gm.neighborPoses = (g'.setNeighborPoses a.neighborPoses).neighborPoses := by
    obtain ⟨b1, g0, h1, h2⟩ := constructDataMatrices_ok em
    have q1 : g0.neighborPoses = (g'.setNeighborPoses a.neighborPoses).neighborPoses := by
      rcases ensureQ_ok h1 with ⟨_, -, rfl, -⟩ | ⟨_, -, -, rfl, -⟩ | ⟨-, -, rfl, -⟩ <;> rfl
    rw [← q1]
    rcases h2 with ⟨-, h2⟩ | ⟨-, -, rfl⟩
    · rcases ensureG_ok h2 with ⟨_, -, rfl, -⟩ | ⟨_, -, -, rfl, -⟩ | ⟨-, -, rfl, -⟩ <;> rfl
    · rfl
  have sd : SameData (g'.setNeighborPoses a.neighborPoses) gm :=
    ⟨bk.id, bk.r, bk.d, bk.n, bk.odometry, bk.privateLcs, bk.sharedLcs, bk.nbrRobots, bk.nbrActive,
      hnp, bk.useInactive, bk.priors⟩
  obtain ⟨⟨l2, i2⟩, -⟩ := Reachable.inv r2
  obtain ⟨-, hr2, hd2, -⟩ := reach_dims r2
  have hn2 : (g'.setNeighborPoses a.neighborPoses).n = a.graph.n := by rw [eg]; rfl
  have cQ := ((f3.q Q k1).congr sd.symm).construct i2 (by rw [hd2]; exact hd) (priors_lt r2) hmiss
  have cG : (g'.setNeighborPoses a.neighborPoses).constructG = ok (some G) := by
    rw [← sd.constructG]; exact f3.lin G k2
  have hQ' : gm.Q = some Q0 := updating_Q hs (by rw [eg]; exact hQ)
  rw [k1] at hQ'
  have hQ' := Option.some.inj hQ'
  exact i2.objective_eq two_ne_zero cQ cG (by rw [hr2]; exact hXr) (by rw [hd2, hn2]; exact hXc)
    (by rw [hXc, hQ']; exact (hc.size Q0 hQ).1)

/-- A successful step leaves the quadratic matrix cached. -/
theorem step_Q {ID : Nat} {b : Agent} (hi' : AgInv ID p a) (hp : p.acceleration = false)
    (hst : a.state = .INITIALIZED) (eb : a.iterate o true = ok (true, b)) : ∃ Q, b.graph.Q = some Q := by
  obtain ⟨c, hb, ⟨-, hc⟩ | ⟨c, -⟩⟩ := Agent.iterate_form eb
  · obtain ⟨c1, c', h1, h2, h3⟩ := Agent.iterateBody_form hc
    obtain ⟨k, -, -, hb'⟩ := Agent.tick_form hb
    rcases h1 with ⟨c, -⟩ | ⟨-, h1⟩
    · rw [hb'] at c
      have c : a.params.acceleration = true := c
      rw [hi'.params, hp] at c; cases c
    · obtain ⟨Q, hQ⟩ := updateX_Q h1
      refine ⟨Q, ?_⟩
      rw [h3]
      rcases h2 with ⟨-, h2⟩ | ⟨c, -⟩
      · obtain ⟨_, _, -, -, _, -, rfl⟩ := Agent.iterateStatus_form h2
        exact hQ
      · cases c
  · exact absurd hst c

end Dpgo
