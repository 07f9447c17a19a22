import Verif.Lemmas.AgentCache
import Verif.Lemmas.SolverRun
import Verif.Lemmas.AgentTotal
import Verif.Props.PoseGraph
import Verif.Lemmas.LiftedProject
import Verif.Spec.Messages

/-! # When an iteration succeeds -/

namespace Dpgo

open Res Spec PoseGraph

/-- The optimiser on a graph with both matrices cached. -/
theorem optimize_cached {o : OptOracles} {p : OptParams} {g : PoseGraph ℝ} {Q G Y : DMat ℝ}
    (hQ : g.Q = some Q) (hG : g.G = some G)
    (q1 : Q.rows = (g.d + 1) * g.n) (q2 : Q.cols = (g.d + 1) * g.n) (g1 : G.rows = g.r)
    (g2 : G.cols = (g.d + 1) * g.n) (y1 : Y.rows = g.r) (y2 : Y.cols = (g.d + 1) * g.n) :
    ∃ Z res g', optimize o p g Y = ok (Z, res, g') := by
  have hF : ∀ (g' : PoseGraph ℝ) (Z : DMat ℝ), SameBook g g' → g'.Q = some Q → g'.G = some G →
      Z.rows = g.r → Z.cols = (g.d + 1) * g.n → ∃ v, problemF g' Z = ok (v, g') := by
    intro g' Z hb k1 k2 z1 z2
    unfold problemF quadraticMatrix linearMatrix
    simp only [k1, ok_bind, k2, hb.r, hb.d, hb.n, z1, z2, q1, q2, g1, g2, beq_self_eq_true,
      Bool.and_self, check_true, require_true]
    exact ⟨_, rfl⟩
  obtain ⟨v, hv⟩ := hF g Y (SameBook.refl g) hQ hG y1 y2
  cases hm : p.method with
  | RTR => exact optimize_total hm hv
  | RGD =>
    unfold optimize
    rw [hv]
    simp only [ok_bind, quadraticMatrix, linearMatrix, hQ, hG, optimizeWith, hm]
    have hgd : ∃ Z g', gradientDescent o p g Q G Y = ok (Z, g') ∧ SameBook g g' ∧ g'.Q = some Q ∧
        g'.G = some G ∧ Z.rows = g.r ∧ Z.cols = (g.d + 1) * g.n := by
      unfold gradientDescent preConditioner
      by_cases hu : p.RGDUsePreconditioner = true
      · simp only [hu, if_true]
        have hp : ∃ b g', g.hasPreconditioner o.chol = ok (b, g') ∧ SameBook g g' ∧ g'.Q = some Q ∧
            g'.G = some G := by
          unfold hasPreconditioner
          cases hpr : g.precon with
          | some P => exact ⟨true, g, rfl, SameBook.refl g, hQ, hG⟩
          | none =>
            simp only [quadraticMatrix, hQ, ok_bind]
            by_cases hc : o.chol (precondMatrix Q) = true
            · rw [if_pos hc]
              refine ⟨_, _, rfl, by constructor <;> rfl, rfl, hG⟩
            · rw [if_neg hc]
              exact ⟨_, _, rfl, SameBook.refl g, hQ, hG⟩
        obtain ⟨b, g', e, hb, k1, k2⟩ := hp
        rw [e]
        simp only [ok_bind]
        exact ⟨_, _, rfl, hb, k1, k2, rfl, rfl⟩
      · simp only [hu]
        exact ⟨_, _, rfl, SameBook.refl g, hQ, hG, rfl, rfl⟩
    obtain ⟨Z, g', e, hb, k1, k2, z1, z2⟩ := hgd
    obtain ⟨v', hv'⟩ := hF g' Z hb k1 k2 z1 z2
    rw [e]
    simp only [ok_bind, hv']
    exact ⟨_, _, _, rfl⟩

variable {o : AgentOracles} {ID : Nat} {p : AgentParams} {a a' : Agent}

/-- A graph whose matrices can be assembled as soon as the needed poses are there. -/
structure GReady (ID : Nat) (p : AgentParams) (g : PoseGraph ℝ) : Prop where
  reach : Reachable ID p.r p.d g
  pos : 0 < g.n
  size : ∀ Q, g.Q = some Q → Q.rows = (p.d + 1) * g.n ∧ Q.cols = (p.d + 1) * g.n
  priors : ∀ q ∈ g.priors, PoseOk p.r p.d q.2
  noSelf : ¬ hasSelfLoop g
  covered : posesCovered g

theorem strip_ends {l l' : List (Meas ℝ)} (h : l'.map strip = l.map strip) {m : Meas ℝ}
    (hm : m ∈ l) : ∃ m' ∈ l', m'.p1 = m.p1 ∧ m'.p2 = m.p2 := by
  have : strip m ∈ l'.map strip := by rw [h]; exact List.mem_map_of_mem hm
  obtain ⟨m', hm', e⟩ := List.mem_map.1 this
  have e1 := congrArg Meas.p1 e
  have e2 := congrArg Meas.p2 e
  exact ⟨m', hm', e1, e2⟩

theorem local_ends {g g' : PoseGraph ℝ} (t : SameTopology g g') {m : Meas ℝ}
    (hm : m ∈ g.localMeasurements) : ∃ m' ∈ g'.localMeasurements, m'.p1 = m.p1 ∧ m'.p2 = m.p2 := by
  refine strip_ends ?_ hm
  unfold PoseGraph.localMeasurements
  rw [List.map_append, List.map_append, t.odometry, t.privateLcs]

theorem topo_symm {g g' : PoseGraph ℝ} (t : SameTopology g g') : SameTopology g' g := by
  obtain ⟨h1, h2, h3, h4, h5, h6, h7, h8, h9, h10⟩ := t
  exact ⟨h1.symm, h2.symm, h3.symm, h4.symm, h5.symm, h6.symm, h7.symm, h8.symm, h9.symm, h10.symm⟩

theorem self_topo {g g' : PoseGraph ℝ} (t : SameTopology g g') (h : ¬ hasSelfLoop g) :
    ¬ hasSelfLoop g' := by
  rintro ⟨m, hm, e⟩
  obtain ⟨m', hm', e1, e2⟩ := local_ends (topo_symm t) hm
  exact h ⟨m', hm', by rw [e1, e2, e]⟩

theorem covered_topo {g g' : PoseGraph ℝ} (t : SameTopology g g') (h : posesCovered g) :
    posesCovered g' := by
  intro i hi
  rw [t.n] at hi
  obtain ⟨m, hm, e⟩ := h i hi
  obtain ⟨m', hm', e1, e2⟩ := local_ends t hm
  exact ⟨m', hm', by rw [e1, e2]; exact e⟩

theorem GReady.steps (hd : 0 < p.d) {g g' : PoseGraph ℝ} (h : GReady ID p g)
    (hs : Steps Agent.updating g g') : GReady ID p g' := by
  refine hs.induct (P := GReady ID p) ?_ h
  intro g op g' h hS e
  have hq := Agent.updating_quiet op hS
  have t := quiet_topology hq e
  have hc := calls_parts (updating_calls (r := p.r) (d := p.d) (A := True) trivial op hS) e
  refine ⟨Reachable.snoc h.reach (quiet_wf _ hq) e, by rw [t.n]; exact h.pos, fun Q hQ => ?_,
    hc.1 h.priors, self_topo t h.noSelf, covered_topo t h.covered⟩
  rw [t.n]
  rcases step_Q e with c | c | c
  · rw [c] at hQ; cases hQ
  · exact h.size Q (c ▸ hQ)
  · rw [hQ] at c
    exact constructQ_full h.reach hd h.pos c

/-- Assembling the matrices after storing `s`. -/
theorem data_total (hd : 0 < p.d) {g : PoseGraph ℝ} (h : GReady ID p g) {s : PoseDict ℝ}
    (hs : StoreOk p.r p.d g s) :
    ∃ b g1, (g.setNeighborPoses s).constructDataMatrices = ok (b, g1) ∧
      (b = true ↔ ¬ posesMissing (g.setNeighborPoses s)) ∧
      (b = true → ∃ Q G, g1.Q = some Q ∧ g1.G = some G ∧
        Q.rows = (p.d + 1) * g.n ∧ Q.cols = (p.d + 1) * g.n ∧ G.rows = p.r ∧
        G.cols = (p.d + 1) * g.n) := by
  have h1 : GReady ID p (g.setNeighborPoses s) :=
    h.steps hd (Steps.one (op := .setNeighborPoses s) trivial rfl)
  obtain ⟨⟨log, hinv⟩, -⟩ := Reachable.inv h1.reach
  obtain ⟨-, dr, dd, -⟩ := reach_dims h1.reach
  have hP : PosesOk (g.setNeighborPoses s) := by
    refine ⟨fun q hq => ?_, fun q hq => ?_⟩
    · rw [dr, dd]; exact PriorOk (hs.mem q hq).2
    · rw [dr, dd]; exact h1.priors q hq
  have hGn : (g.setNeighborPoses s).G = none := rfl
  have hn : (g.setNeighborPoses s).n = g.n := rfl
  generalize hg' : g.setNeighborPoses s = g' at *
  have eG : ∀ g2 : PoseGraph ℝ, SameData g' g2 → g2.G = none →
      (∀ Q, g2.Q = some Q → Q.rows = (p.d + 1) * g.n ∧ Q.cols = (p.d + 1) * g.n) →
      (∃ Q, g2.Q = some Q) → ∃ b g1, g2.ensureG = ok (b, g1) ∧ (b = true ↔ ¬ posesMissing g') ∧
        (b = true → ∃ Q G, g1.Q = some Q ∧ g1.G = some G ∧
          Q.rows = (p.d + 1) * g.n ∧ Q.cols = (p.d + 1) * g.n ∧ G.rows = p.r ∧
          G.cols = (p.d + 1) * g.n) := by
    intro g2 hsd k1 k2 ⟨Q, k3⟩
    unfold ensureG
    rw [k1]
    simp only
    rw [hsd.constructG]
    rcases hinv.constructG_cases hP (priors_lt h1.reach) with ⟨c, e⟩ | ⟨c, G, e⟩
    · rw [e]
      exact ⟨false, _, rfl, by simp [c], by simp⟩
    · rw [e]
      obtain ⟨j1, j2, -⟩ := hinv.constructG_ok e
      refine ⟨true, _, rfl, by simp [c], fun _ => ⟨Q, G, k3, rfl, (k2 Q k3).1, (k2 Q k3).2, ?_, ?_⟩⟩
      · rw [j1, dr]
      · rw [j2, dd, hn]
  unfold constructDataMatrices ensureQ
  cases hQ : g'.Q with
  | some Q =>
    simp only [ok_bind]
    exact eG g' (SameData.refl _) hGn (by rw [← hn]; exact h1.size) ⟨Q, hQ⟩
  | none =>
    simp only
    rcases hinv.constructQ_cases (by rw [dd]; exact hd) (priors_lt h1.reach) with
      ⟨c, -⟩ | ⟨-, c, e⟩ | ⟨-, -, c, -⟩ | ⟨-, hm, -, Q, e⟩
    · exact absurd c h1.noSelf
    · rw [e]
      exact ⟨false, _, rfl, by simp [c], by simp⟩
    · exact absurd h1.covered c
    · rw [e]
      obtain ⟨j1, j2⟩ := constructQ_full h1.reach hd h1.pos e
      rw [hn] at j1 j2
      exact eG { g' with Q := some Q } (by constructor <;> rfl) hGn
        (fun Q' hQ' => by cases hQ'; exact ⟨j1, j2⟩) ⟨Q, rfl⟩

/-- Assembling the matrices without the needed poses. -/
theorem data_missing {g g1 : PoseGraph ℝ} (h : Reachable ID p.r p.d g)
    (hp : ∀ q ∈ g.priors, PoseOk p.r p.d q.2) {s : PoseDict ℝ} (hs : StoreOk p.r p.d g s) {b : Bool}
    (e : (g.setNeighborPoses s).constructDataMatrices = ok (b, g1))
    (hm : posesMissing (g.setNeighborPoses s)) : b = false := by
  have h1 : Reachable ID p.r p.d (g.setNeighborPoses s) :=
    Reachable.snoc h (op := .setNeighborPoses s) trivial rfl
  obtain ⟨⟨log, hinv⟩, -⟩ := Reachable.inv h1
  obtain ⟨-, dr, dd, -⟩ := reach_dims h1
  have hP : PosesOk (g.setNeighborPoses s) := by
    refine ⟨fun q hq => ?_, fun q hq => ?_⟩
    · rw [dr, dd]; exact PriorOk (hs.mem q hq).2
    · rw [dr, dd]; exact hp q hq
  have hGn : (g.setNeighborPoses s).G = none := rfl
  generalize hg' : g.setNeighborPoses s = g' at *
  have hG : g'.constructG = ok none := by
    rcases hinv.constructG_cases hP (priors_lt h1) with ⟨-, e⟩ | ⟨c, -⟩
    · exact e
    · exact absurd hm c
  obtain ⟨b1, g2, e1, ⟨-, e2⟩ | ⟨-, rfl, -⟩⟩ := constructDataMatrices_ok e
  · have hsd : SameData g' g2 ∧ g2.G = none := by
      rcases ensureQ_ok e1 with ⟨Q, -, rfl, -⟩ | ⟨Q, -, -, rfl, -⟩ | ⟨-, -, rfl, -⟩
      · exact ⟨SameData.refl _, hGn⟩
      · exact ⟨by constructor <;> rfl, hGn⟩
      · exact ⟨SameData.refl _, hGn⟩
    rcases ensureG_ok e2 with ⟨G, c, -⟩ | ⟨G, -, c, -⟩ | ⟨-, -, -, c⟩
    · rw [hsd.2] at c; cases c
    · rw [hsd.1.constructG, hG] at c; cases c
    · exact c
  · rfl

/-- When `updateX` succeeds, and what it returns. -/
theorem Agent.updateX_total (hd : 0 < p.d) (hg : GReady ID p a.graph) (hs : a.state = .INITIALIZED)
    (hX : ArrOk p.r p.d a.graph.n a.X) {accel : Bool}
    (ha : accel = true → a.params.acceleration = true ∧ ArrOk p.r p.d a.graph.n a.Y)
    (hst : StoreOk p.r p.d a.graph (if accel then a.neighborAuxPoses else a.neighborPoses))
    (doOpt : Bool) :
    ∃ b a', a.updateX o doOpt accel = ok (b, a') ∧ (doOpt = true → (b = true ↔ ¬ posesMissing
      (a.graph.setNeighborPoses (if accel then a.neighborAuxPoses else a.neighborPoses)))) := by
  unfold updateX
  cases doOpt with
  | false => exact ⟨true, _, rfl, by simp⟩
  | true =>
    obtain ⟨b, g1, e, h1, h2⟩ := data_total hd hg hst
    have c1 : (!accel || a.params.acceleration) = true := by
      cases accel with
      | false => rfl
      | true => simp [(ha rfl).1]
    simp only [Bool.not_true, Bool.false_eq_true, if_false, c1, check_true, ok_bind, hs,
      beq_self_eq_true, e]
    cases b with
    | false => exact ⟨false, _, rfl, fun _ => h1⟩
    | true =>
      simp only [if_true]
      obtain ⟨Q, G, k1, k2, k3, k4, k5, k6⟩ := h2 rfl
      have t : SameTopology a.graph g1 :=
        (Steps.one (S := Agent.updating) (op := .setNeighborPoses
          (if accel then a.neighborAuxPoses else a.neighborPoses)) trivial rfl).trans
          (Steps.one (op := .constructDataMatrices) trivial
            (by simp only [PoseGraph.step, e, ok_bind])) |>.topology Agent.updating_quiet
      obtain ⟨-, dr, dd, -⟩ := reach_dims hg.reach
      have hr : g1.r = p.r := t.r.trans dr
      have hd' : g1.d = p.d := t.d.trans dd
      have hX0 : (if accel = true then a.Y.X else a.X.X).rows = p.r ∧
          (if accel = true then a.Y.X else a.X.X).cols = (p.d + 1) * a.graph.n := by
        split
        · rename_i c
          exact ⟨(ha c).2.2.2.2.1, (ha c).2.2.2.2.2⟩
        · exact ⟨hX.2.2.2.1, hX.2.2.2.2⟩
      obtain ⟨Z, res, g2, eo⟩ := optimize_cached (o := o.opt a.calls) (p := a.params.localOpt)
        (g := g1) (Y := if accel = true then a.Y.X else a.X.X) k1 k2
        (by rw [k3, hd', t.n]) (by rw [k4, hd', t.n]) (by rw [k5, hr]) (by rw [k6, hd', t.n])
        (by rw [hr]; exact hX0.1) (by rw [hd', t.n]; exact hX0.2)
      unfold optimizeX
      simp only [hr, hd', t.n, hX0.1, hX0.2, beq_self_eq_true, check_true, ok_bind, eo]
      obtain ⟨Q', G', g3, -, -, -, -, -, -, -, -, z1, z2, -⟩ := optimize_ok eo
      have hset : a.X.setData Z = ok { a.X with X := Z } := PArr.setData_ok hX
        ⟨by rw [z1, hr], by rw [z2, hd', t.n]⟩
      rw [hset]
      exact ⟨true, _, rfl, fun _ => h1⟩

/-- The projection succeeds. -/
theorem Agent.project_total (hg : Reachable ID p.r p.d a.graph) {M : DMat ℝ} (h1 : M.rows = p.r)
    (h2 : M.cols = (p.d + 1) * a.graph.n) :
    ∃ P, a.project o M = ok P ∧ P.rows = p.r ∧ P.cols = (p.d + 1) * a.graph.n := by
  obtain ⟨-, dr, dd, hrd⟩ := reach_dims hg
  unfold Agent.project Agent.relaxationRank Agent.dimension Agent.numPoses
  rw [dr, dd]
  unfold liftedProject
  obtain ⟨Y, e, ⟨y1, y2⟩, -⟩ := project_loop (svd := o.svd) (n := a.graph.n) hrd
    (List.range a.graph.n) List.nodup_range (fun i hi => List.mem_range.1 hi) M ⟨h1, h2⟩
  exact ⟨Y, by simp [h1, h2, e], y1, y2⟩

/-- An initialised agent whose matrices can be assembled as soon as the needed poses are there. -/
structure RunReady (ID : Nat) (p : AgentParams) (a : Agent) : Prop where
  graph : GReady ID p a.graph
  state : a.state = .INITIALIZED
  params : a.params = p
  X : ArrOk p.r p.d a.graph.n a.X
  nbr : StoreOk p.r p.d a.graph a.neighborPoses
  aux : StoreOk p.r p.d a.graph a.neighborAuxPoses

theorem runReady (h : AgInv ID p a) (hc : AgCache p a) (hs : a.state = .INITIALIZED)
    (h1 : ¬ hasSelfLoop a.graph) (h2 : posesCovered a.graph) : RunReady ID p a := by
  obtain ⟨hn, -, hX⟩ := h.data (by rw [hs]; simp)
  exact ⟨⟨h.reach, hn, hc.size, hc.priors, h1, h2⟩, hs, h.params, hX, h.nbr, h.aux⟩

/-- The poses needed for the matrices are missing from the store used in the step. -/
def stepMissing (a : Agent) (accel : Bool) : Prop :=
  posesMissing (a.graph.setNeighborPoses (if accel then a.neighborAuxPoses else a.neighborPoses))

theorem RunReady.updateX (hd : 0 < p.d) (h : RunReady ID p a) {accel : Bool}
    (ha : accel = true → p.acceleration = true ∧ ArrOk p.r p.d a.graph.n a.Y) (doOpt : Bool) :
    ∃ b a', a.updateX o doOpt accel = ok (b, a') ∧ (doOpt = true → (b = true ↔ ¬ stepMissing a accel)) ∧
      RunReady ID p a' ∧ a'.graph.n = a.graph.n := by
  obtain ⟨b, a', e, hb⟩ := Agent.updateX_total (o := o) hd h.graph h.state h.X (accel := accel)
    (by rw [h.params]; exact ha) (by cases accel; exacts [h.nbr, h.aux]) doOpt
  refine ⟨b, a', e, hb, ?_⟩
  obtain ⟨f, hs⟩ := Agent.updateX_frame e
  have t := hs.topology Agent.updating_quiet
  have f1 : a'.state = a.state := by rw [f]
  have f2 : a'.params = a.params := by rw [f]
  have f3 : a'.neighborPoses = a.neighborPoses := by rw [f]
  have f4 : a'.neighborAuxPoses = a.neighborAuxPoses := by rw [f]
  refine ⟨⟨h.graph.steps hd hs, f1.trans h.state, f2.trans h.params, ?_,
    by rw [f3]; exact h.nbr.topology t.nbrShared, by rw [f4]; exact h.aux.topology t.nbrShared⟩, t.n⟩
  rw [t.n]
  rcases Agent.updateX_form e with ⟨-, -, rfl⟩ | ⟨-, -, -, g1, -, -, ⟨-, rfl⟩ | ⟨-, Z, res, g2, -, -, z1, z2, rfl⟩⟩
  · split
    · rename_i c; exact (ha c).2
    · exact h.X
  · exact h.X
  · obtain ⟨x1, x2, x3, -, -⟩ := h.X
    exact ⟨x1, x2, x3, by rw [← x1]; exact z1, by rw [← x2, ← x3]; exact z2⟩

/-- What the calls of `updateX` keep of the graph. -/
theorem updating_book {g g' : PoseGraph ℝ} (h : Steps Agent.updating g g') :
    SameBook { g with neighborPoses := g'.neighborPoses } g' := by
  refine h.induct (P := fun x => SameBook { g with neighborPoses := x.neighborPoses } x) ?_ ?_
  · intro x op y hx hS e
    have key : SameBook x y → SameBook { g with neighborPoses := y.neighborPoses } y := by
      intro k
      rw [k.neighborPoses]
      exact hx.trans k
    cases op with
    | setNeighborPoses s =>
      cases e
      obtain ⟨h1, h2, h3, h4, h5, h6, h7, h8, h9, h10, h11, h12, h13, h14, h15⟩ := hx
      exact ⟨h1, h2, h3, h4, h5, h6, h7, h8, h9, h10, h11, rfl, h13, h14, h15⟩
    | constructDataMatrices =>
      simp only [PoseGraph.step, bind_eq_ok] at e
      obtain ⟨⟨b, y'⟩, e1, e2⟩ := e
      cases e2
      exact key (constructDataMatrices_book e1)
    | quadraticMatrix =>
      simp only [PoseGraph.step, bind_eq_ok] at e
      obtain ⟨⟨b, y'⟩, e1, e2⟩ := e
      cases e2
      exact key (quadraticMatrix_book e1)
    | linearMatrix =>
      simp only [PoseGraph.step, bind_eq_ok] at e
      obtain ⟨⟨b, y'⟩, e1, e2⟩ := e
      cases e2
      exact key (linearMatrix_book e1)
    | hasPreconditioner f =>
      simp only [PoseGraph.step, bind_eq_ok] at e
      obtain ⟨⟨b, y'⟩, e1, e2⟩ := e
      cases e2
      exact key (hasPreconditioner_book e1)
    | _ => exact absurd hS (by simp [Agent.updating])
  · exact SameBook.refl _

theorem updating_active {g g' : PoseGraph ℝ} (h : Steps Agent.updating g g') (j : Nat) :
    g'.isNeighborActive j = g.isNeighborActive j := by
  have k := updating_book h
  have k1 : g'.nbrActive = g.nbrActive := k.nbrActive
  have k2 : g'.nbrRobots = g.nbrRobots := k.nbrRobots
  unfold isNeighborActive hasNeighbor
  rw [k1, k2]

/-- Lacking a pose does not depend on the caches. -/
theorem Lacks.updating {a' : Agent} (h : Steps Agent.updating a.graph a'.graph) {s : PoseDict ℝ}
    (hl : Lacks ID a s) : Lacks ID a' s := by
  obtain ⟨k, ⟨m, hm, hk⟩, h1, h2⟩ := hl
  have k1 : a'.graph.sharedLcs = a.graph.sharedLcs := (updating_book h).sharedLcs
  refine ⟨k, ⟨m, by rw [k1]; exact hm, hk⟩, ?_, h2⟩
  rw [updating_active h]
  exact h1

/-- The same in terms of the specification. -/
theorem missing_iff (h : Reachable ID p.r p.d a.graph) (s : PoseDict ℝ) :
    posesMissing (a.graph.setNeighborPoses s) ↔ Lacks ID a s := by
  obtain ⟨hid, -⟩ := reach_dims h
  have hg : (a.graph.setNeighborPoses s).id = ID := hid
  constructor
  · rintro ⟨m, hm, h1, h2⟩
    rw [hg] at h1 h2
    exact ⟨_, ⟨m, hm, rfl⟩, h1, h2⟩
  · rintro ⟨k, ⟨m, hm, rfl⟩, h1, h2⟩
    refine ⟨m, hm, ?_, ?_⟩
    · rw [hg]; exact h1
    · rw [hg]; exact h2

/-- A step that cannot assemble its matrices. -/
theorem Agent.updateX_missing (h : Reachable ID p.r p.d a.graph)
    (hp : ∀ q ∈ a.graph.priors, PoseOk p.r p.d q.2) {accel b : Bool} {a' : Agent}
    (hs : StoreOk p.r p.d a.graph (if accel then a.neighborAuxPoses else a.neighborPoses))
    (hm : Lacks ID a (if accel then a.neighborAuxPoses else a.neighborPoses))
    (e : a.updateX o true accel = ok (b, a')) :
    b = false ∧ a' = { a with graph := a'.graph } ∧ Steps updating a.graph a'.graph := by
  rcases updateX_form e with ⟨c, -⟩ | ⟨-, -, -, g1, e1, hst, h1⟩
  · cases c
  · have hb := data_missing h hp hs e1 ((missing_iff h _).2 hm)
    rcases h1 with ⟨-, rfl⟩ | ⟨c, -⟩
    · exact ⟨hb, rfl, hst⟩
    · rw [hb] at c; cases c

/-- Conditions on the parameters under which an accelerated step is defined. -/
def AccelOk (p : AgentParams) : Prop := u32 (2 * p.numRobots) ≠ 0 ∧ p.restartInterval ≠ 0

theorem RunReady.updateGamma (h : RunReady ID p a) (hp : p.acceleration = true)
    (hN : u32 (2 * p.numRobots) ≠ 0) : ∃ γ : ℝ, 0 < γ ∧ a.updateGamma = ok { a with gamma := γ } := by
  have hac : a.params.acceleration = true := by rw [h.params]; exact hp
  have hpos : (0 : ℝ) < u32 (2 * a.params.numRobots) := by
    rw [h.params]; exact_mod_cast Nat.pos_of_ne_zero hN
  unfold Agent.updateGamma
  simp only [hac, h.state, beq_self_eq_true, check_true, ok_bind]
  rw [if_neg (by rw [h.params]; exact hN)]
  exact ⟨_, by positivity, rfl⟩

theorem RunReady.updateAlpha (h : RunReady ID p a) (hp : p.acceleration = true)
    (hN : u32 (2 * p.numRobots) ≠ 0) (hγ : 0 < a.gamma) :
    ∃ α : ℝ, a.updateAlpha = ok { a with alpha := α } := by
  have hac : a.params.acceleration = true := by rw [h.params]; exact hp
  have hNN : (0 : ℝ) < a.params.numRobots := by
    have : p.numRobots ≠ 0 := by rintro c; rw [c] at hN; exact hN rfl
    rw [h.params]; exact_mod_cast Nat.pos_of_ne_zero this
  unfold Agent.updateAlpha
  simp only [hac, h.state, beq_self_eq_true, check_true, ok_bind]
  rw [if_neg (ne_of_gt (mul_pos hγ hNN))]
  exact ⟨_, rfl⟩

theorem RunReady.updateY (h : RunReady ID p a) (hp : p.acceleration = true)
    (hY : ArrOk p.r p.d a.graph.n a.Y) (hV : ArrOk p.r p.d a.graph.n a.V) :
    ∃ Y, a.updateY o = ok { a with Y := Y } ∧ ArrOk p.r p.d a.graph.n Y := by
  have hac : a.params.acceleration = true := by rw [h.params]; exact hp
  obtain ⟨x1, x2, x3, x4, x5⟩ := h.X
  obtain ⟨v1, v2, v3, v4, v5⟩ := hV
  obtain ⟨P, eP, p1, p2⟩ := Agent.project_total (o := o) (a := a)
    h.graph.reach (M := (a.X.X.smul (1 - a.alpha)).add (a.V.X.smul a.alpha)) x4 x5
  have hset := PArr.setData_ok hY (X := P) ⟨p1, p2⟩
  obtain ⟨y1, y2, y3, y4, y5⟩ := hY
  refine ⟨{ a.Y with X := P }, ?_, y1, y2, y3, p1, p2⟩
  unfold Agent.updateY
  have g1 : (a.X.X.rows == a.V.X.rows && a.X.X.cols == a.V.X.cols) = true := by
    rw [x4, x5, v4, v5]; simp
  simp only [hac, h.state, g1, beq_self_eq_true, check_true, require_true, ok_bind, eP, hset]

theorem RunReady.updateV (h : RunReady ID p a) (hp : p.acceleration = true)
    (hY : ArrOk p.r p.d a.graph.n a.Y) (hV : ArrOk p.r p.d a.graph.n a.V) :
    ∃ V, a.updateV o = ok { a with V := V } ∧ ArrOk p.r p.d a.graph.n V := by
  have hac : a.params.acceleration = true := by rw [h.params]; exact hp
  obtain ⟨x1, x2, x3, x4, x5⟩ := h.X
  obtain ⟨y1, y2, y3, y4, y5⟩ := hY
  have hV' := hV
  obtain ⟨v1, v2, v3, v4, v5⟩ := hV
  obtain ⟨P, eP, p1, p2⟩ := Agent.project_total (o := o) (a := a)
    h.graph.reach (M := a.V.X.add ((a.X.X.sub a.Y.X).smul a.gamma)) v4 v5
  have hset := PArr.setData_ok hV' (X := P) ⟨p1, p2⟩
  refine ⟨{ a.V with X := P }, ?_, v1, v2, v3, p1, p2⟩
  unfold Agent.updateV
  have g1 : (a.X.X.rows == a.V.X.rows && a.X.X.cols == a.V.X.cols) = true := by
    rw [x4, x5, v4, v5]; simp
  have g2 : (a.X.X.rows == a.Y.X.rows && a.X.X.cols == a.Y.X.cols) = true := by
    rw [x4, x5, y4, y5]; simp
  simp only [hac, h.state, g1, g2, beq_self_eq_true, check_true, require_true, ok_bind, eP, hset]

theorem RunReady.restart (hd : 0 < p.d) (h : RunReady ID p a) (hp : p.acceleration = true)
    (hP : ArrOk p.r p.d a.graph.n a.XPrev) (doOpt : Bool) :
    ∃ a', a.restartNesterovAcceleration o doOpt = ok a' ∧ RunReady ID p a' ∧
      a'.graph.n = a.graph.n := by
  unfold Agent.restartNesterovAcceleration
  rw [if_pos ⟨by rw [h.params]; exact hp, h.state⟩]
  have r6 : RunReady ID p { a with X := a.XPrev } :=
    ⟨h.graph, h.state, h.params, hP, h.nbr, h.aux⟩
  obtain ⟨b, c, e, -, r7, n7⟩ := r6.updateX (o := o) hd (accel := false) (by simp) doOpt
  rw [e]
  exact ⟨_, rfl, ⟨r7.graph, r7.state, r7.params, r7.X, r7.nbr, r7.aux⟩, n7⟩

/-- When the accelerated step succeeds, and what it returns. -/
theorem RunReady.accelStep (hd : 0 < p.d) (h : RunReady ID p a) (hp : p.acceleration = true)
    (ho : AccelOk p) (hY : ArrOk p.r p.d a.graph.n a.Y) (hV : ArrOk p.r p.d a.graph.n a.V)
    (hP : ArrOk p.r p.d a.graph.n a.XPrev) (doOpt : Bool) :
    ∃ s a', a.accelStep o doOpt = ok (s, a') ∧ (doOpt = true → (s = true ↔ ¬ stepMissing a true)) ∧
      RunReady ID p a' ∧ a'.graph.n = a.graph.n := by
  obtain ⟨hN, hI⟩ := ho
  unfold Agent.accelStep
  obtain ⟨γ, hγ, e1⟩ := h.updateGamma hp hN
  rw [e1, ok_bind]
  have r1 : RunReady ID p { a with gamma := γ } :=
    ⟨h.graph, h.state, h.params, h.X, h.nbr, h.aux⟩
  obtain ⟨α, e2⟩ := r1.updateAlpha hp hN hγ
  rw [e2, ok_bind]
  have r2 : RunReady ID p { a with gamma := γ, alpha := α } :=
    ⟨h.graph, h.state, h.params, h.X, h.nbr, h.aux⟩
  obtain ⟨Y, e3, hY'⟩ := r2.updateY (o := o) hp hY hV
  rw [e3, ok_bind]
  have r3 : RunReady ID p { a with gamma := γ, alpha := α, Y := Y } :=
    ⟨h.graph, h.state, h.params, h.X, h.nbr, h.aux⟩
  obtain ⟨s, a4, e4, hs, r4, n4⟩ := r3.updateX (o := o) hd (accel := true)
    (fun _ => ⟨hp, hY'⟩) doOpt
  rw [e4]
  simp only [ok_bind]
  have f4 := (Agent.updateX_frame e4).1
  have f1 : a4.V = a.V := by rw [f4]
  have f2 : a4.Y = Y := by rw [f4]
  have f5 : a4.XPrev = a.XPrev := by rw [f4]
  have n4' : a4.graph.n = a.graph.n := n4
  clear f4
  obtain ⟨V, e5, -⟩ := r4.updateV (o := o) hp (by rw [f2, n4']; exact hY')
    (by rw [f1, n4']; exact hV)
  rw [e5, ok_bind]
  have r5 : RunReady ID p { a4 with V := V } :=
    ⟨r4.graph, r4.state, r4.params, r4.X, r4.nbr, r4.aux⟩
  generalize ha5 : ({ a4 with V := V } : Agent) = a5 at r5 ⊢
  have n5 : a5.graph.n = a.graph.n := by rw [← ha5]; exact n4'
  have f6 : a5.XPrev = a.XPrev := by rw [← ha5]; exact f5
  have e6 : a5.shouldRestart =
      ok (decide (u32 (a5.iterationNumber + 1) % a5.params.restartInterval = 0)) := by
    unfold Agent.shouldRestart
    rw [if_pos (by rw [r5.params]; exact hp), if_neg (by rw [r5.params]; exact hI)]
  rw [e6, ok_bind]
  by_cases hb : u32 (a5.iterationNumber + 1) % a5.params.restartInterval = 0
  · simp only [hb, decide_true, if_true]
    obtain ⟨a7, e7, r7, n7⟩ := r5.restart (o := o) hd hp (by rw [f6, n5]; exact hP) doOpt
    rw [e7, ok_bind]
    exact ⟨s, a7, rfl, hs, r7, n7.trans n5⟩
  · simp only [hb, decide_false, Bool.false_eq_true, if_false]
    exact ⟨s, a5, rfl, hs, r5, n5⟩

/-- The accelerated step when poses are missing. -/
theorem Agent.accelStep_missing (h : Reachable ID p.r p.d a.graph)
    (hp : ∀ q ∈ a.graph.priors, PoseOk p.r p.d q.2)
    (hn : StoreOk p.r p.d a.graph a.neighborPoses) (hx : StoreOk p.r p.d a.graph a.neighborAuxPoses)
    {s : Bool} (e : a.accelStep o true = ok (s, a')) (hP : a.XPrev = a.X)
    (hm : Lacks ID a a.neighborAuxPoses)
    (hr : u32 (a.iterationNumber + 1) % a.params.restartInterval = 0 → Lacks ID a a.neighborPoses) :
    s = false ∧ a'.X = a.X := by
  obtain ⟨a1, a2, a3, a4, a5, b, e1, e2, e3, e4, e5, e6, e7⟩ := accelStep_form e
  obtain ⟨-, -, -, rfl⟩ := updateGamma_form e1
  obtain ⟨-, -, -, rfl⟩ := updateAlpha_form e2
  obtain ⟨-, -, P, -, -, -, rfl⟩ := updateY_form e3
  obtain ⟨hs, f4, hst⟩ := Agent.updateX_missing (by exact h) (by exact hp) (by exact hx)
    (by exact hm) e4
  obtain ⟨-, -, R, -, -, -, h5⟩ := updateV_form e5
  have k1 : a5.X = a.X := by rw [h5]; show a4.X = _; rw [f4]
  have k2 : a5.XPrev = a.X := by rw [h5]; show a4.XPrev = _; rw [f4]; exact hP
  have k3 : a5.graph = a4.graph := by rw [h5]
  have k4 : a5.neighborPoses = a.neighborPoses := by rw [h5]; show a4.neighborPoses = _; rw [f4]
  have k5 : a5.iterationNumber = a.iterationNumber := by
    rw [h5]; show a4.iterationNumber = _; rw [f4]
  have k6 : a5.params = a.params := by rw [h5]; show a4.params = _; rw [f4]
  have hst' : Steps updating a.graph a5.graph := by rw [k3]; exact hst
  clear h5 f4
  rcases e7 with ⟨-, rfl⟩ | ⟨rfl, e7⟩
  · exact ⟨hs, k1⟩
  · refine ⟨hs, ?_⟩
    have hb : u32 (a.iterationNumber + 1) % a.params.restartInterval = 0 := by
      rcases shouldRestart_form e6 with ⟨-, c⟩ | ⟨-, -, c⟩
      · cases c
      · rw [k5, k6] at c
        simpa using c.symm
    rcases restart_form e7 with ⟨-, rfl⟩ | ⟨-, b', c, e8, rfl⟩
    · exact k1
    · have t := hst'.topology updating_quiet
      have hr5 : Reachable ID p.r p.d a5.graph :=
        hst'.reach (fun op hop => quiet_wf op (updating_quiet op hop)) h
      obtain ⟨-, f8, -⟩ := Agent.updateX_missing (a := { a5 with X := a5.XPrev }) (by exact hr5)
        (by have := (updating_book hst').priors; show ∀ q ∈ a5.graph.priors, _; rw [this]; exact hp)
        (by show StoreOk _ _ a5.graph a5.neighborPoses; rw [k4]; exact hn.topology t.nbrShared)
        (by
          show Lacks ID { a5 with X := a5.XPrev } a5.neighborPoses
          rw [k4]
          exact Lacks.updating (a := a) hst' (hr hb)) e8
      show c.X = a.X
      rw [f8]
      exact k2

/-- A restarting step that cannot be repeated from the previous estimate goes back to it. -/
theorem Agent.accelStep_reverts (h : Reachable ID p.r p.d a.graph)
    (hp : ∀ q ∈ a.graph.priors, PoseOk p.r p.d q.2)
    (hn : StoreOk p.r p.d a.graph a.neighborPoses)
    {s : Bool} (e : a.accelStep o true = ok (s, a')) (hs : a.state = .INITIALIZED)
    (hr : u32 (a.iterationNumber + 1) % a.params.restartInterval = 0)
    (hm : Lacks ID a a.neighborPoses) : a'.X = a.XPrev := by
  obtain ⟨a1, a2, a3, a4, a5, b, e1, e2, e3, e4, e5, e6, e7⟩ := accelStep_form e
  obtain ⟨hac, -, -, rfl⟩ := updateGamma_form e1
  obtain ⟨-, -, -, rfl⟩ := updateAlpha_form e2
  obtain ⟨-, -, P, -, -, -, rfl⟩ := updateY_form e3
  obtain ⟨f4, hst⟩ := Agent.updateX_frame e4
  obtain ⟨-, -, R, -, -, -, h5⟩ := updateV_form e5
  have k2 : a5.XPrev = a.XPrev := by rw [h5]; show a4.XPrev = _; rw [f4]
  have k3 : a5.graph = a4.graph := by rw [h5]
  have k4 : a5.neighborPoses = a.neighborPoses := by rw [h5]; show a4.neighborPoses = _; rw [f4]
  have k5 : a5.iterationNumber = a.iterationNumber := by
    rw [h5]; show a4.iterationNumber = _; rw [f4]
  have k6 : a5.params = a.params := by rw [h5]; show a4.params = _; rw [f4]
  have k7 : a5.state = a.state := by rw [h5]; show a4.state = _; rw [f4]
  have hst' : Steps updating a.graph a5.graph := by rw [k3]; exact hst
  clear h5 f4
  have hb : b = true := by
    rcases shouldRestart_form e6 with ⟨c, -⟩ | ⟨-, -, c⟩
    · rw [k6, hac] at c; cases c
    · rw [c, k5, k6, hr]; rfl
  rcases e7 with ⟨c, -⟩ | ⟨-, e7⟩
  · rw [hb] at c; cases c
  rcases restart_form e7 with ⟨c, -⟩ | ⟨-, b', c, e8, rfl⟩
  · exact absurd ⟨by rw [k6]; exact hac, by rw [k7]; exact hs⟩ c
  · have t := hst'.topology updating_quiet
    have hr5 : Reachable ID p.r p.d a5.graph :=
      hst'.reach (fun op hop => quiet_wf op (updating_quiet op hop)) h
    obtain ⟨-, f8, -⟩ := Agent.updateX_missing (a := { a5 with X := a5.XPrev }) (by exact hr5)
      (by have := (updating_book hst').priors; show ∀ q ∈ a5.graph.priors, _; rw [this]; exact hp)
      (by show StoreOk _ _ a5.graph a5.neighborPoses; rw [k4]; exact hn.topology t.nbrShared)
      (by
        show Lacks ID { a5 with X := a5.XPrev } a5.neighborPoses
        rw [k4]
        exact Lacks.updating (a := a) hst' hm) e8
    show c.X = a.XPrev
    rw [f8]
    exact k2

/-- When `iterate` succeeds, and what it returns. -/
theorem iterate_total (hd : 0 < p.d) (h : AgInv ID p a) (hc : AgCache p a)
    (hs : a.state = .INITIALIZED) (h1 : ¬ hasSelfLoop a.graph) (h2 : posesCovered a.graph)
    (hk : p.robust.costType ≠ .L2 → a.innerIter + 1 < 2 ^ 31)
    (ho : p.acceleration = true → AccelOk p) (doOpt : Bool) :
    ∃ s a', a.iterate o doOpt = ok (s, a') ∧
      (doOpt = true → (s = true ↔ ¬ stepMissing a p.acceleration)) := by
  have hr := runReady h hc hs h1 h2
  obtain ⟨k, ek⟩ : ∃ k, a.tick =
      ok { a with iterationNumber := u32 (a.iterationNumber + 1), innerIter := k } := by
    unfold Agent.tick
    by_cases c : a.params.robust.costType ≠ .L2
    · rw [if_pos c]
      unfold incInt
      rw [if_pos (hk (by rw [← h.params]; exact c))]
      exact ⟨_, rfl⟩
    · rw [if_neg c]
      exact ⟨_, rfl⟩
  unfold Agent.iterate
  rw [ek, ok_bind]
  simp only [hs, if_true]
  unfold Agent.iterateBody
  have fin : ∀ (s : Bool) (b : Agent), RunReady ID p b → ArrOk p.r p.d b.graph.n b.XPrev →
      ∃ c, b.iterateStatus s = ok c := by
    intro s b hb hP
    obtain ⟨m, em, -⟩ := PArr.max_value hb.X hP
    obtain ⟨act, st, -, es, -⟩ := Props.C06_statistics ID p.r p.d b.graph hb.graph.reach
    unfold Agent.iterateStatus
    simp only [em, es, ok_bind]
    exact ⟨_, rfl⟩
  have hr0 : RunReady ID p { a with
      iterationNumber := u32 (a.iterationNumber + 1), innerIter := k, XPrev := a.X } :=
    ⟨hr.graph, hr.state, hr.params, hr.X, hr.nbr, hr.aux⟩
  cases hac : p.acceleration with
  | true =>
    obtain ⟨hY, hV, -⟩ := h.accel hs hac
    obtain ⟨s, b, e, hb, rb, nb⟩ := hr0.accelStep (o := o) hd hac (ho hac) hY hV hr.X doOpt
    have fP : b.XPrev = a.X := by rw [(Agent.accelStep_frame e).1]
    obtain ⟨c, ec⟩ := fin s b rb (by rw [fP, nb]; exact hr.X)
    simp only [h.params, hac, if_true]
    simp only [hs, h.params] at e
    rw [e]
    cases doOpt with
    | true =>
      simp only [ok_bind, ec, if_true]
      exact ⟨s, _, rfl, fun _ => hb rfl⟩
    | false => exact ⟨s, _, rfl, fun c => by cases c⟩
  | false =>
    obtain ⟨s, b, e, hb, rb, nb⟩ := hr0.updateX (o := o) hd (accel := false) (by simp) doOpt
    have fP : b.XPrev = a.X := by rw [(Agent.updateX_frame e).1]
    obtain ⟨c, ec⟩ := fin s b rb (by rw [fP, nb]; exact hr.X)
    simp only [h.params, hac, if_false, Bool.false_eq_true]
    simp only [hs, h.params] at e
    rw [e]
    cases doOpt with
    | true =>
      simp only [ok_bind, ec, if_true]
      exact ⟨s, _, rfl, fun _ => hb rfl⟩
    | false => exact ⟨s, _, rfl, fun c => by cases c⟩

end Dpgo
