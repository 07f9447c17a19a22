import Verif.Lemmas.Cost

/-! # What a call can do to the cached matrices -/

namespace Dpgo

open Res Spec

variable {K : Type} [Field K]

/-- Induction over histories of public calls. -/
theorem Spec.Reachable.ind {id r d : Nat} {P : PoseGraph K → Prop}
    (h0 : ∀ g₀, PoseGraph.new id r d = ok g₀ → P g₀)
    (hs : ∀ g op g', Reachable id r d g → OpWF op → P g → g.step op = ok g' → P g')
    {g : PoseGraph K} (hg : Reachable id r d g) : P g := by
  obtain ⟨g₀, ops, e0, hops, e⟩ := hg
  have main : ∀ (ops : List (PGOp K)) (g₁ : PoseGraph K), Reachable id r d g₁ → P g₁ →
      (∀ op ∈ ops, OpWF op) → g₁.run ops = ok g → P g := by
    intro ops
    induction ops with
    | nil =>
      intro g₁ _ hP _ e
      simp only [PoseGraph.run, foldl_nil] at e
      cases e
      exact hP
    | cons op ops ih =>
      intro g₁ hr hP hw e
      simp only [PoseGraph.run, foldl_cons, bind_eq_ok'] at e
      obtain ⟨g₂, h2, e⟩ := e
      refine ih g₂ ?_ (hs g₁ op g₂ hr (hw op (by simp)) hP h2) (fun o ho => hw o (by simp [ho])) e
      obtain ⟨a, os, ha, hos, hrun⟩ := hr
      refine ⟨a, os ++ [op], ha, ?_, ?_⟩
      · intro o ho
        rw [List.mem_append, List.mem_singleton] at ho
        rcases ho with ho | ho
        · exact hos o ho
        · rw [ho]; exact hw op (by simp)
      · unfold PoseGraph.run at hrun ⊢
        rw [foldl_append, hrun]
        change Res.bind (g₁.step op) _ = _
        rw [h2]; rfl
  exact main ops g₀ ⟨g₀, [], e0, by simp, rfl⟩ (h0 g₀ e0) hops e

namespace PoseGraph

omit [Field K] in
theorem empty_caches (g : PoseGraph K) : g.empty.Q = none ∧ g.empty.G = none ∧ g.empty.precon = none :=
  ⟨rfl, rfl, rfl⟩

omit [Field K] in
theorem addMeasurement_caches {g g' : PoseGraph K} {m : Meas K} (e : g.addMeasurement m = ok g') :
    g'.Q = g.Q ∧ g'.G = g.G ∧ g'.precon = g.precon ∧ g'.r = g.r ∧ g'.priors = g.priors ∧
      g'.neighborPoses = g.neighborPoses ∧ g'.useInactive = g.useInactive ∧ g'.id = g.id := by
  unfold addMeasurement at e
  split at e
  · cases e; exact ⟨rfl, rfl, rfl, rfl, rfl, rfl, rfl, rfl⟩
  · split at e
    · split at e
      · unfold addOdometry at e
        split at e
        · cases e; exact ⟨rfl, rfl, rfl, rfl, rfl, rfl, rfl, rfl⟩
        · simp only [bind_eq_ok] at e
          obtain ⟨_, _, _, _, _, _, _, _, e⟩ := e
          cases e; exact ⟨rfl, rfl, rfl, rfl, rfl, rfl, rfl, rfl⟩
      · unfold addPrivateLoopClosure at e
        split at e
        · cases e; exact ⟨rfl, rfl, rfl, rfl, rfl, rfl, rfl, rfl⟩
        · simp only [bind_eq_ok] at e
          obtain ⟨_, _, _, _, _, _, e⟩ := e
          cases e; exact ⟨rfl, rfl, rfl, rfl, rfl, rfl, rfl, rfl⟩
    · unfold addSharedLoopClosure at e
      split at e
      · cases e; exact ⟨rfl, rfl, rfl, rfl, rfl, rfl, rfl, rfl⟩
      · simp only [bind_eq_ok] at e
        obtain ⟨_, _, e⟩ := e
        split at e
        · simp only [bind_eq_ok] at e
          obtain ⟨_, _, e⟩ := e
          cases e; exact ⟨rfl, rfl, rfl, rfl, rfl, rfl, rfl, rfl⟩
        · simp only [bind_eq_ok] at e
          obtain ⟨_, _, e⟩ := e
          cases e; exact ⟨rfl, rfl, rfl, rfl, rfl, rfl, rfl, rfl⟩

omit [Field K] in
theorem setMeasurements_caches {g g' : PoseGraph K} {ms : List (Meas K)}
    (e : g.setMeasurements ms = ok g') : g'.Q = none ∧ g'.G = none ∧ g'.precon = none ∧
      g'.priors = [] ∧ g'.neighborPoses = [] ∧ g'.r = g.r ∧ g'.id = g.id ∧
      g'.useInactive = g.useInactive := by
  unfold setMeasurements at e
  refine foldl_induction (fun h : PoseGraph K => h.Q = none ∧ h.G = none ∧ h.precon = none ∧
      h.priors = [] ∧ h.neighborPoses = [] ∧ h.r = g.r ∧ h.id = g.id ∧
      h.useInactive = g.useInactive) ?_ ms _ _ ?_ e
  · intro b a b' h hb
    obtain ⟨h1, h2, h3, h4, h5, h6, h7, h8⟩ := addMeasurement_caches hb
    rw [h1, h2, h3, h4, h5, h6, h7, h8]
    obtain ⟨k1, k2, k3, k4, k5, k6, k7, k8⟩ := h
    exact ⟨k1, k2, k3, k4, k5, k6, k7, k8⟩
  · exact ⟨rfl, rfl, rfl, rfl, rfl, rfl, rfl, rfl⟩

omit [Field K] in
theorem writeWeight_caches (g : PoseGraph K) (p : MPtr) (w : K) (f : Bool) :
    (g.writeWeight p w f).Q = g.Q ∧ (g.writeWeight p w f).G = g.G ∧
    (g.writeWeight p w f).precon = g.precon ∧ (g.writeWeight p w f).priors = g.priors ∧
    (g.writeWeight p w f).r = g.r ∧ (g.writeWeight p w f).d = g.d ∧ (g.writeWeight p w f).n = g.n ∧
    (g.writeWeight p w f).neighborPoses = g.neighborPoses := by
  cases p <;> exact ⟨rfl, rfl, rfl, rfl, rfl, rfl, rfl, rfl⟩

theorem quadraticMatrix_ok {g g' : PoseGraph K} {Q : DMat K} (e : g.quadraticMatrix = ok (Q, g')) :
    (g.Q = some Q ∧ g' = g) ∨
    (g.Q = none ∧ g.constructQ = ok (some Q) ∧ g' = { g with Q := some Q }) := by
  unfold quadraticMatrix at e
  split at e
  · cases e; left; exact ⟨by assumption, rfl⟩
  · simp only [bind_eq_ok] at e
    obtain ⟨q, hq, e⟩ := e
    cases q with
    | none => cases e
    | some q => cases e; right; exact ⟨by assumption, hq, rfl⟩

theorem linearMatrix_ok {g g' : PoseGraph K} {G : DMat K} (e : g.linearMatrix = ok (G, g')) :
    (g.G = some G ∧ g' = g) ∨
    (g.G = none ∧ g.constructG = ok (some G) ∧ g' = { g with G := some G }) := by
  unfold linearMatrix at e
  split at e
  · cases e; left; exact ⟨by assumption, rfl⟩
  · simp only [bind_eq_ok] at e
    obtain ⟨q, hq, e⟩ := e
    cases q with
    | none => cases e
    | some q => cases e; right; exact ⟨by assumption, hq, rfl⟩

theorem ensureQ_ok {g g' : PoseGraph K} {b : Bool} (e : g.ensureQ = ok (b, g')) :
    (∃ Q, g.Q = some Q ∧ g' = g ∧ b = true) ∨
    (∃ Q, g.Q = none ∧ g.constructQ = ok (some Q) ∧ g' = { g with Q := some Q } ∧ b = true) ∨
    (g.Q = none ∧ g.constructQ = ok none ∧ g' = g ∧ b = false) := by
  unfold ensureQ at e
  split at e
  · rename_i Q hQ
    cases e; left; exact ⟨Q, hQ, rfl, rfl⟩
  · simp only [bind_eq_ok] at e
    obtain ⟨q, hq, e⟩ := e
    cases q with
    | none => cases e; right; right; exact ⟨by assumption, hq, rfl, rfl⟩
    | some q => cases e; right; left; exact ⟨q, by assumption, hq, rfl, rfl⟩

theorem ensureG_ok {g g' : PoseGraph K} {b : Bool} (e : g.ensureG = ok (b, g')) :
    (∃ G, g.G = some G ∧ g' = g ∧ b = true) ∨
    (∃ G, g.G = none ∧ g.constructG = ok (some G) ∧ g' = { g with G := some G } ∧ b = true) ∨
    (g.G = none ∧ g.constructG = ok none ∧ g' = g ∧ b = false) := by
  unfold ensureG at e
  split at e
  · rename_i Q hQ
    cases e; left; exact ⟨Q, hQ, rfl, rfl⟩
  · simp only [bind_eq_ok] at e
    obtain ⟨q, hq, e⟩ := e
    cases q with
    | none => cases e; right; right; exact ⟨by assumption, hq, rfl, rfl⟩
    | some q => cases e; right; left; exact ⟨q, by assumption, hq, rfl, rfl⟩

theorem constructDataMatrices_ok {g g' : PoseGraph K} {b : Bool}
    (e : g.constructDataMatrices = ok (b, g')) :
    ∃ b1 g1, g.ensureQ = ok (b1, g1) ∧
      ((b1 = true ∧ g1.ensureG = ok (b, g')) ∨ (b1 = false ∧ b = false ∧ g' = g1)) := by
  unfold constructDataMatrices at e
  rw [bind_eq_ok] at e
  obtain ⟨⟨b1, g1⟩, h1, e⟩ := e
  refine ⟨b1, g1, h1, ?_⟩
  cases b1
  · right; cases e; exact ⟨rfl, rfl, rfl⟩
  · left; exact ⟨rfl, e⟩

theorem hasPreconditioner_ok {g g' : PoseGraph K} {chol : DMat K → Bool} {b : Bool}
    (e : g.hasPreconditioner chol = ok (b, g')) :
    (∃ P, g.precon = some P ∧ g' = g ∧ b = true) ∨
    (∃ Q g1, g.precon = none ∧ g.quadraticMatrix = ok (Q, g1) ∧ b = chol (precondMatrix Q) ∧
      g' = if chol (precondMatrix Q) then { g1 with precon := some (precondMatrix Q) } else g1) := by
  unfold hasPreconditioner at e
  split at e
  · rename_i P hP
    cases e; left; exact ⟨P, hP, rfl, rfl⟩
  · rw [bind_eq_ok] at e
    obtain ⟨⟨Q, g1⟩, h1, e⟩ := e
    right
    refine ⟨Q, g1, by assumption, h1, ?_⟩
    simp only at e
    cases hc : chol (precondMatrix Q)
    · rw [hc, if_neg (by simp)] at e; cases e; exact ⟨rfl, by simp⟩
    · rw [hc, if_pos rfl] at e; cases e; exact ⟨rfl, by simp⟩

/-- Where the cached `Q` after a call comes from. -/
theorem step_Q {g g' : PoseGraph K} {op : PGOp K} (e : g.step op = ok g') :
    g'.Q = none ∨ g'.Q = g.Q ∨ g.constructQ = ok g'.Q := by
  cases op with
  | addMeasurement m => right; left; exact (addMeasurement_caches e).1
  | setMeasurements ms => left; exact (setMeasurements_caches e).1
  | empty => left; cases e; rfl
  | reset => left; cases e; simp only [PoseGraph.reset, clearNeighborPoses, clearDataMatrices,
      clearPriors, clearQuadraticMatrix, clearLinearMatrix]
  | clearNeighborPoses => right; left; cases e; rfl
  | clearPriors => right; left; cases e; rfl
  | setPrior i X =>
    simp only [step, setPrior, bind_eq_ok] at e
    obtain ⟨_, _, _, _, _, _, e⟩ := e
    cases e; right; left; rfl
  | setNeighborPoses dict => right; left; cases e; rfl
  | setNeighborActive nid a =>
    simp only [step, setNeighborActive] at e
    split at e
    · cases e; right; left; rfl
    · split at e
      · cases e
      · split at e
        · cases e; left; rfl
        · cases e; right; left; rfl
  | useInactiveNeighbors u => left; cases e; rfl
  | writeWeight src dst w f =>
    simp only [step, bind_eq_ok] at e
    obtain ⟨p, _, e⟩ := e
    cases p with
    | none => cases e; right; left; rfl
    | some p => cases e; right; left; exact (writeWeight_caches g p w f).1
  | quadraticMatrix =>
    simp only [step, bind_eq_ok] at e
    obtain ⟨⟨Q, g1⟩, h, e⟩ := e
    cases e
    rcases quadraticMatrix_ok h with ⟨_, rfl⟩ | ⟨_, h2, rfl⟩
    · right; left; rfl
    · right; right; exact h2
  | linearMatrix =>
    simp only [step, bind_eq_ok] at e
    obtain ⟨⟨Q, g1⟩, h, e⟩ := e
    cases e
    rcases linearMatrix_ok h with ⟨_, rfl⟩ | ⟨_, _, rfl⟩
    · right; left; rfl
    · right; left; rfl
  | constructDataMatrices =>
    simp only [step, bind_eq_ok] at e
    obtain ⟨⟨b, g1⟩, h, e⟩ := e
    cases e
    obtain ⟨b1, g2, h1, h2⟩ := constructDataMatrices_ok h
    have hq : g2.Q = g.Q ∨ g.constructQ = ok g2.Q := by
      rcases ensureQ_ok h1 with ⟨Q, _, rfl, _⟩ | ⟨Q, _, h, rfl, _⟩ | ⟨_, _, rfl, _⟩
      · left; rfl
      · right; exact h
      · left; rfl
    right
    rcases h2 with ⟨_, h2⟩ | ⟨_, _, rfl⟩
    · rcases ensureG_ok h2 with ⟨Q, _, rfl, _⟩ | ⟨Q, _, h, rfl, _⟩ | ⟨_, _, rfl, _⟩
      · exact hq
      · exact hq
      · exact hq
    · exact hq
  | hasPreconditioner chol =>
    simp only [step, bind_eq_ok] at e
    obtain ⟨⟨b, g1⟩, h, e⟩ := e
    cases e
    rcases hasPreconditioner_ok h with ⟨P, _, rfl, _⟩ | ⟨Q, g2, _, h1, _, rfl⟩
    · right; left; rfl
    · have hq : g2.Q = g.Q ∨ g.constructQ = ok g2.Q := by
        rcases quadraticMatrix_ok h1 with ⟨_, rfl⟩ | ⟨_, h2, rfl⟩
        · left; rfl
        · right; exact h2
      right
      split <;> exact hq
  | clearQuadraticMatrix => left; cases e; rfl
  | clearLinearMatrix => right; left; cases e; rfl
  | clearDataMatrices => left; cases e; rfl

/-- Every cached quadratic matrix is square and symmetric, whatever the history. -/
theorem cached_symm {id r d : Nat} {g : PoseGraph K} (hg : Reachable id r d g) :
    ∀ Q, g.Q = some Q → Q.cols = Q.rows ∧ ∀ a b, Q.v a b = Q.v b a := by
  refine Reachable.ind (P := fun g => ∀ Q, g.Q = some Q → Q.cols = Q.rows ∧ ∀ a b, Q.v a b = Q.v b a)
    ?_ ?_ hg
  · intro g₀ e Q hQ
    simp only [PoseGraph.new, bind_eq_ok] at e
    obtain ⟨_, _, e⟩ := e
    cases e
    cases hQ
  · intro g op g' hr _ hP e Q hQ
    rcases step_Q e with h | h | h
    · rw [h] at hQ; cases hQ
    · exact hP Q (h ▸ hQ)
    · obtain ⟨⟨log, hinv⟩, -⟩ := PoseGraph.Reachable.inv hr
      rw [hQ] at h
      obtain ⟨h1, h2, -⟩ := hinv.constructQ_ok h
      exact ⟨h1, h2⟩

/-- The matrix handed out by `quadraticMatrix` is square and symmetric. -/
theorem quadraticMatrix_symm {id r d : Nat} {g g' : PoseGraph K} {Q : DMat K}
    (hg : Reachable id r d g) (e : g.quadraticMatrix = ok (Q, g')) :
    Q.cols = Q.rows ∧ ∀ a b, Q.v a b = Q.v b a := by
  rcases quadraticMatrix_ok e with ⟨h, _⟩ | ⟨_, h, _⟩
  · exact cached_symm hg Q h
  · obtain ⟨⟨log, hinv⟩, -⟩ := PoseGraph.Reachable.inv hg
    obtain ⟨h1, h2, -⟩ := hinv.constructQ_ok h
    exact ⟨h1, h2⟩

theorem problemF_gen {g g' : PoseGraph K} {X : DMat K} {v : K} (e : problemF g X = ok (v, g')) :
    ∃ Q G g1 g2, g.quadraticMatrix = ok (Q, g1) ∧ g.linearMatrix = ok (G, g2) ∧
      v = objective Q G X ∧ X.rows = g.r ∧ X.cols = (g.d + 1) * g.n ∧
      Q.rows = X.cols ∧ Q.cols = X.cols ∧ G.rows = X.rows ∧ G.cols = X.cols := by
  unfold problemF at e
  rw [bind_eq_ok] at e
  obtain ⟨_, h1, e⟩ := e
  rw [bind_eq_ok] at e
  obtain ⟨_, h2, e⟩ := e
  rw [check_eq_ok, beq_iff_eq] at h1 h2
  rw [bind_eq_ok] at e
  obtain ⟨⟨Q, g1⟩, hQ, e⟩ := e
  simp only [bind_eq_ok] at e
  obtain ⟨⟨G, g2⟩, hG, _, h3, e⟩ := e
  rw [require_eq_ok] at h3
  simp only [Bool.and_eq_true, beq_iff_eq] at h3
  cases e
  have : ∃ g3, g.linearMatrix = ok (G, g3) := by
    rcases quadraticMatrix_ok hQ with ⟨_, rfl⟩ | ⟨_, _, rfl⟩
    · exact ⟨_, hG⟩
    · rcases linearMatrix_ok hG with ⟨h, _⟩ | ⟨h, h', _⟩
      · refine ⟨g, ?_⟩
        have h : g.G = some G := h
        unfold linearMatrix
        rw [h]
      · have h : g.G = none := h
        have h' := (sameData_caches g (some Q) g.G g.precon).constructG.symm.trans h'
        refine ⟨{ g with G := some G }, ?_⟩
        unfold linearMatrix
        rw [h]
        simp only [h', ok_bind]
  obtain ⟨g3, hg3⟩ := this
  exact ⟨Q, G, g1, g3, hQ, hg3, rfl, h1, h2, h3.1.1.1, h3.1.1.2, h3.1.2, h3.2⟩

end PoseGraph
end Dpgo
