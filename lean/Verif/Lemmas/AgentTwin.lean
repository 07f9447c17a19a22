import Verif.Lemmas.Fresh
import Verif.Lemmas.AgentIterate

/-! # Two agents that differ only in cached matrices -/

namespace Dpgo

open Res Spec PoseGraph

/-- Two graphs that differ only in caches, all of which are current; `C` accepts the matrices the
Cholesky factorisation succeeds on. -/
structure Twin (C : DMat ℝ → Bool) (x y : PoseGraph ℝ) : Prop where
  same : y = { x with Q := y.Q, G := y.G, precon := y.precon }
  unused : x.useInactive = false
  fx : Fresh x
  fy : Fresh y
  cx : ∀ P, x.precon = some P → C P = true
  cy : ∀ P, y.precon = some P → C P = true

theorem scratch_form {x y : PoseGraph ℝ} (h : scratch x = scratch y) :
    y = { x with Q := y.Q, G := y.G, precon := y.precon } := by
  cases x; cases y
  simp only [scratch, PoseGraph.mk.injEq] at h ⊢
  simp [h]

theorem scratch_of_form {x y : PoseGraph ℝ}
    (h : y = { x with Q := y.Q, G := y.G, precon := y.precon }) : scratch y = scratch x := by
  rw [h]; rfl

namespace Twin

variable {C : DMat ℝ → Bool} {x y x' y' : PoseGraph ℝ}

theorem data (h : Twin C x y) : SameData x y := by
  rw [h.same]; constructor <;> rfl

theorem quadratic (h : Twin C x y) {Q Q' : DMat ℝ} (e : x.quadraticMatrix = ok (Q, x'))
    (e' : y.quadraticMatrix = ok (Q', y')) : Q' = Q ∧ Twin C x' y' := by
  obtain ⟨f1, b1⟩ := h.fx.quadraticMatrix e
  obtain ⟨f2, b2⟩ := h.fy.quadraticMatrix e'
  have hx : x' = { x with Q := some Q } := by
    rcases quadraticMatrix_ok e with ⟨c, rfl⟩ | ⟨-, -, c⟩
    · rw [← c]
    · exact c
  have hy : y' = { y with Q := some Q' } := by
    rcases quadraticMatrix_ok e' with ⟨c, rfl⟩ | ⟨-, -, c⟩
    · rw [← c]
    · exact c
  have hq : Q' = Q := by
    have hb1 : BuiltQ x Q := b1.congr (by rw [hx]; constructor <;> rfl)
    have hb2 : BuiltQ x Q' := (b2.congr (h := y) (by rw [hy]; constructor <;> rfl)).congr h.data.symm
    obtain ⟨g1, s1, k1, -⟩ := hb1
    obtain ⟨g2, s2, k2, -⟩ := hb2
    have hu1 : g1.useInactive = false := s1.useInactive.trans h.unused
    refine (constructQ_indep hu1 ?_ Q Q' k1 k2).symm
    have := s1.symm.trans s2
    obtain ⟨a1, a2, a3, a4, a5, a6, a7, a8, a9, a10, a11, a12⟩ := this
    exact ⟨a1, a2, a3, a4, a5, a6, a7, a8, a9, rfl, a11, a12⟩
  refine ⟨hq, ?_, ?_, f1, f2, ?_, ?_⟩
  · rw [hy, hx]
    have := h.same
    generalize y.Q = a, y.G = b, y.precon = c at this
    rw [this]
  · rw [hx]; exact h.unused
  · rw [hx]; exact h.cx
  · rw [hy]; exact h.cy

theorem linear (h : Twin C x y) {G G' : DMat ℝ} (e : x.linearMatrix = ok (G, x'))
    (e' : y.linearMatrix = ok (G', y')) : G' = G ∧ Twin C x' y' := by
  have kx : x.constructG = ok (some G) ∧ x' = { x with G := some G } := by
    rcases linearMatrix_ok e with ⟨c, rfl⟩ | ⟨-, c, c'⟩
    · exact ⟨h.fx.lin G c, by rw [← c]⟩
    · exact ⟨c, c'⟩
  have ky : y.constructG = ok (some G') ∧ y' = { y with G := some G' } := by
    rcases linearMatrix_ok e' with ⟨c, rfl⟩ | ⟨-, c, c'⟩
    · exact ⟨h.fy.lin G' c, by rw [← c]⟩
    · exact ⟨c, c'⟩
  obtain ⟨k1, hx⟩ := kx
  obtain ⟨k2, hy⟩ := ky
  have hG : G' = G := by
    have := k2
    rw [h.data.constructG, k1] at this
    cases this; rfl
  refine ⟨hG, ?_, ?_, by rw [hx]; exact h.fx.fillG k1, by rw [hy]; exact h.fy.fillG k2, ?_, ?_⟩
  · rw [hy, hx]
    have := h.same
    generalize y.Q = a, y.G = b, y.precon = c at this
    rw [this]
  · rw [hx]; exact h.unused
  · rw [hx]; exact h.cx
  · rw [hy]; exact h.cy

theorem precondition (h : Twin C x y) {b b' : Bool} (e : x.hasPreconditioner C = ok (b, x'))
    (e' : y.hasPreconditioner C = ok (b', y')) (hQ : ∃ Q, x.Q = some Q) (hQ' : ∃ Q, y.Q = some Q) :
    b' = b ∧ (b = true → ∃ P, x'.precon = some P ∧ y'.precon = some P) ∧ Twin C x' y' := by
  obtain ⟨Q, hQ⟩ := hQ
  obtain ⟨Q', hQ'⟩ := hQ'
  have eq : x.quadraticMatrix = ok (Q, x) := by unfold quadraticMatrix; rw [hQ]
  have eq' : y.quadraticMatrix = ok (Q', y) := by unfold quadraticMatrix; rw [hQ']
  obtain ⟨hq, -⟩ := h.quadratic eq eq'
  subst hq
  have uniq : ∀ (z : PoseGraph ℝ) (P : DMat ℝ), SameData x z → Fresh z → z.precon = some P →
      P = precondMatrix Q' := by
    intro z P hd hf hP
    obtain ⟨Q1, rfl, hb⟩ := hf.p P hP
    have t : Twin C { x with Q := some Q1, precon := none } { x with Q := some Q', precon := none } := by
      refine ⟨rfl, h.unused, ?_, ?_, by simp, by simp⟩
      · have hb' : BuiltQ x Q1 := hb.congr hd.symm
        have hs : SameData x { x with Q := some Q1, precon := none } := by constructor <;> rfl
        exact ⟨fun Q e => by cases e; exact hb'.congr hs,
          fun G e => by rw [hs.constructG]; exact h.fx.lin G e, fun P e => by cases e⟩
      · have hb' : BuiltQ x Q' := h.fx.q Q' hQ
        have hs : SameData x { x with Q := some Q', precon := none } := by constructor <;> rfl
        exact ⟨fun Q e => by cases e; exact hb'.congr hs,
          fun G e => by rw [hs.constructG]; exact h.fx.lin G e, fun P e => by cases e⟩
    rw [(t.quadratic (Q := Q1) (Q' := Q') (by unfold quadraticMatrix; rfl)
      (by unfold quadraticMatrix; rfl)).1]
  -- outcome of each side
  have side : ∀ (z z' : PoseGraph ℝ) (b : Bool), SameData x z → Fresh z → z.Q = some Q' →
      (∀ P, z.precon = some P → C P = true) → z.hasPreconditioner C = ok (b, z') →
      b = C (precondMatrix Q') ∧
      z' = { z with precon := if C (precondMatrix Q') then some (precondMatrix Q') else none } ∧
      Fresh z' := by
    intro z z' b hd hf hq hc e
    rcases hasPreconditioner_ok e with ⟨P, hP, rfl, rfl⟩ | ⟨Q1, g1, hn, h1, rfl, rfl⟩
    · have := uniq _ P hd hf hP
      subst this
      have hC := hc _ hP
      refine ⟨hC.symm, ?_, hf⟩
      rw [hC, if_pos rfl, ← hP]
    · unfold quadraticMatrix at h1
      rw [hq] at h1
      obtain ⟨rfl, rfl⟩ := Prod.mk.inj (Res.ok.inj h1)
      cases hC : C (precondMatrix Q') with
      | false =>
        simp only [Bool.false_eq_true, if_false]
        exact ⟨trivial, by rw [← hn], hf⟩
      | true =>
        simp only [if_true]
        exact ⟨trivial, trivial, hf.fillP (hf.q _ hq)⟩
  obtain ⟨a1, a2, a3⟩ := side x x' b (SameData.refl _) h.fx hQ h.cx e
  obtain ⟨b1, b2, b3⟩ := side y y' b' h.data h.fy hQ' h.cy e'
  refine ⟨b1.trans a1.symm, fun hb => ⟨precondMatrix Q', ?_, ?_⟩, ?_, by rw [a2]; exact h.unused, a3, b3,
    ?_, ?_⟩
  · rw [a2, ← a1, hb]; rfl
  · rw [b2, ← a1, hb]; rfl
  · rw [b2, a2]
    have := h.same
    generalize y.Q = a, y.G = b, y.precon = c at this
    rw [this]
  · intro P hP
    rw [a2] at hP
    simp only at hP
    split at hP
    · cases hP; assumption
    · cases hP
  · intro P hP
    rw [b2] at hP
    simp only at hP
    split at hP
    · cases hP; assumption
    · cases hP

theorem value (h : Twin C x y) {Y : DMat ℝ} {v v' : ℝ} (e : problemF x Y = ok (v, x'))
    (e' : problemF y Y = ok (v', y')) : v' = v ∧ Twin C x' y' := by
  unfold problemF at e e'
  simp only [bind_eq_ok] at e e'
  obtain ⟨-, -, -, -, ⟨Q, x1⟩, a1, ⟨G, x2⟩, a2, -, -, e⟩ := e
  obtain ⟨-, -, -, -, ⟨Q', y1⟩, b1, ⟨G', y2⟩, b2, -, -, e'⟩ := e'
  obtain ⟨rfl, t1⟩ := h.quadratic a1 b1
  obtain ⟨rfl, t2⟩ := t1.linear a2 b2
  cases e; cases e'
  exact ⟨rfl, t2⟩

end Twin

theorem quadraticMatrix_has {x x' : PoseGraph ℝ} {Q : DMat ℝ} (e : x.quadraticMatrix = ok (Q, x')) :
    x'.Q = some Q := by
  rcases quadraticMatrix_ok e with ⟨c, rfl⟩ | ⟨-, -, rfl⟩
  · exact c
  · rfl

theorem linearMatrix_Q {x x' : PoseGraph ℝ} {G : DMat ℝ} (e : x.linearMatrix = ok (G, x')) :
    x'.Q = x.Q := by
  rcases linearMatrix_ok e with ⟨c, rfl⟩ | ⟨-, -, rfl⟩ <;> rfl

theorem Twin.optimizeWith {o : OptOracles} {p : OptParams} {x y x' y' : PoseGraph ℝ}
    (h : Twin o.chol x y) {Q G Y Z Z' : DMat ℝ} (hQ : ∃ Q, x.Q = some Q) (hQ' : ∃ Q, y.Q = some Q)
    (e : Dpgo.optimizeWith o p x Q G Y = ok (Z, x')) (e' : Dpgo.optimizeWith o p y Q G Y = ok (Z', y')) :
    Z' = Z ∧ Twin o.chol x' y' := by
  have hs := h.same
  unfold Dpgo.optimizeWith at e e'
  cases hm : p.method with
  | RTR =>
    rw [hm] at e e'
    obtain ⟨rfl, rfl⟩ := Prod.mk.inj (Res.ok.inj e)
    obtain ⟨rfl, rfl⟩ := Prod.mk.inj (Res.ok.inj e')
    refine ⟨?_, h⟩
    generalize y.Q = a, y.G = b, y.precon = c at hs
    rw [hs]; rfl
  | RGD =>
    rw [hm] at e e'
    unfold gradientDescent at e e'
    simp only at e e'
    cases hp : p.RGDUsePreconditioner with
    | false =>
      rw [hp] at e e'
      simp only [Bool.false_eq_true, if_false, ok_bind] at e e'
      obtain ⟨rfl, rfl⟩ := Prod.mk.inj (Res.ok.inj e)
      obtain ⟨rfl, rfl⟩ := Prod.mk.inj (Res.ok.inj e')
      refine ⟨?_, h⟩
      generalize y.Q = a, y.G = b, y.precon = c at hs
      rw [hs]; rfl
    | true =>
      rw [hp] at e e'
      simp only [if_true] at e e'
      unfold preConditioner at e e'
      simp only [bind_eq_ok] at e e'
      obtain ⟨⟨V, x1⟩, ⟨⟨b, x2⟩, h1, e1⟩, e⟩ := e
      obtain ⟨⟨V', y1⟩, ⟨⟨b', y2⟩, h1', e1'⟩, e'⟩ := e'
      obtain ⟨rfl, hb, t⟩ := h.precondition h1 h1' hQ hQ'
      obtain ⟨rfl, rfl⟩ := Prod.mk.inj (Res.ok.inj e)
      obtain ⟨rfl, rfl⟩ := Prod.mk.inj (Res.ok.inj e')
      obtain ⟨rfl, rfl⟩ := Prod.mk.inj (Res.ok.inj e1)
      obtain ⟨rfl, rfl⟩ := Prod.mk.inj (Res.ok.inj e1')
      refine ⟨?_, t⟩
      clear h1 h1' t h hQ hQ'
      generalize y.Q = a, y.G = b, y.precon = c at hs
      subst hs
      cases b' with
      | false => rfl
      | true =>
        obtain ⟨P, k1, k2⟩ := hb rfl
        simp only [k1, k2]
        rfl

theorem Twin.optimize {o : OptOracles} {p : OptParams} {x y x' y' : PoseGraph ℝ}
    (h : Twin o.chol x y) {Y Z Z' : DMat ℝ} {s s' : OptResult}
    (e : Dpgo.optimize o p x Y = ok (Z, s, x')) (e' : Dpgo.optimize o p y Y = ok (Z', s', y')) :
    Z' = Z ∧ Twin o.chol x' y' := by
  unfold Dpgo.optimize at e e'
  simp only [bind_eq_ok] at e e'
  obtain ⟨⟨f, x1⟩, a1, ⟨Q, x2⟩, a2, ⟨G, x3⟩, a3, ⟨Z1, x4⟩, a4, ⟨f1, x5⟩, a5, e⟩ := e
  obtain ⟨⟨f', y1⟩, b1, ⟨Q', y2⟩, b2, ⟨G', y3⟩, b3, ⟨Z1', y4⟩, b4, ⟨f1', y5⟩, b5, e'⟩ := e'
  obtain ⟨-, t1⟩ := h.value a1 b1
  obtain ⟨rfl, t2⟩ := t1.quadratic a2 b2
  obtain ⟨rfl, t3⟩ := t2.linear a3 b3
  obtain ⟨rfl, t4⟩ := t3.optimizeWith ⟨_, (linearMatrix_Q a3).trans (quadraticMatrix_has a2)⟩
    ⟨_, (linearMatrix_Q b3).trans (quadraticMatrix_has b2)⟩ a4 b4
  obtain ⟨-, t5⟩ := t4.value a5 b5
  obtain ⟨rfl, h2⟩ := Prod.mk.inj (Res.ok.inj e)
  obtain ⟨rfl, h2'⟩ := Prod.mk.inj (Res.ok.inj e')
  obtain ⟨-, rfl⟩ := Prod.mk.inj h2
  obtain ⟨-, rfl⟩ := Prod.mk.inj h2'
  exact ⟨rfl, t5⟩

theorem PoseGraph.Fresh.neighborPoses {g : PoseGraph ℝ} (h : Fresh g) (hu : g.useInactive = false)
    (s : PoseDict ℝ) : Fresh (g.setNeighborPoses s) := by
  constructor
  · intro Q e; exact (h.q Q e).poses hu _ _
  · intro G e; cases e
  · intro P e
    obtain ⟨Q, h1, h2⟩ := h.p P e
    exact ⟨Q, h1, h2.poses hu _ _⟩

theorem Twin.neighborPoses {C : DMat ℝ → Bool} {x y : PoseGraph ℝ} (h : Twin C x y) (s : PoseDict ℝ) :
    Twin C (x.setNeighborPoses s) (y.setNeighborPoses s) := by
  refine ⟨?_, h.unused, h.fx.neighborPoses h.unused s, h.fy.neighborPoses ?_ s, h.cx, h.cy⟩
  · have hs := h.same
    generalize y.Q = a, y.G = b, y.precon = c at hs
    rw [hs]; rfl
  · rw [h.data.useInactive]; exact h.unused

/-- What `constructDataMatrices` does to a graph whose matrices are current. -/
theorem PoseGraph.Fresh.data {x z z' : PoseGraph ℝ} {ID r d : Nat} (hd : 0 < d)
    (hr : Reachable ID r d x) (hP : PosesOk x) {b : Bool} (hs : SameData x z) (hf : Fresh z)
    (hG : z.G = none) (e : z.constructDataMatrices = ok (b, z')) :
    (b = true ↔ ¬ posesMissing x) ∧ Fresh z' ∧ z' = { z with Q := z'.Q, G := z'.G } := by
  obtain ⟨⟨log, hinv⟩, -⟩ := Reachable.inv hr
  obtain ⟨-, -, dd, -⟩ := reach_dims hr
  obtain ⟨b1, g2, e1, he⟩ := constructDataMatrices_ok e
  have k : (g2 = { z with Q := g2.Q } ∧ Fresh g2) ∧ (b1 = false → posesMissing x) := by
    rcases ensureQ_ok e1 with ⟨Q, -, rfl, rfl⟩ | ⟨Q, -, c, rfl, rfl⟩ | ⟨-, c, rfl, rfl⟩
    · exact ⟨⟨rfl, hf⟩, by simp⟩
    · exact ⟨⟨rfl, hf.fillQ (BuiltQ.of_construct c)⟩, by simp⟩
    · refine ⟨⟨rfl, hf⟩, fun _ => ?_⟩
      rw [hs.constructQ] at c
      rcases hinv.constructQ_cases (by rw [dd]; exact hd) (priors_lt hr) with
        ⟨-, k⟩ | ⟨-, k, -⟩ | ⟨-, -, -, k⟩ | ⟨-, -, -, Q, k⟩
      · rw [c] at k; cases k
      · exact k
      · rw [c] at k; cases k
      · rw [c] at k; cases k
  obtain ⟨⟨k1, k2⟩, k3⟩ := k
  have ks : SameData x g2 := hs.trans (by rw [k1]; constructor <;> rfl)
  have kG : g2.G = none := by rw [k1]; exact hG
  rcases he with ⟨rfl, e2⟩ | ⟨hb1, hb, rfl⟩
  · rcases ensureG_ok e2 with ⟨G, c, -⟩ | ⟨G, -, c, rfl, rfl⟩ | ⟨-, c, rfl, rfl⟩
    · rw [kG] at c; cases c
    · refine ⟨?_, k2.fillG c, ?_⟩
      · rw [ks.constructG] at c
        rcases hinv.constructG_cases hP (priors_lt hr) with ⟨-, k⟩ | ⟨k, -⟩
        · rw [c] at k; cases k
        · simp [k]
      · generalize g2.Q = q at k1
        rw [k1]
    · refine ⟨?_, k2, ?_⟩
      · rw [ks.constructG] at c
        rcases hinv.constructG_cases hP (priors_lt hr) with ⟨k, -⟩ | ⟨-, G, k⟩
        · simp [k]
        · rw [c] at k; cases k
      · rw [kG, ← hG]; exact k1
  · refine ⟨?_, k2, ?_⟩
    · have := k3 hb1
      simp [hb, this]
    · rw [kG, ← hG]; exact k1

theorem Twin.construct {C : DMat ℝ → Bool} {x y x' y' : PoseGraph ℝ} (h : Twin C x y) {ID r d : Nat}
    (hd : 0 < d) (hr : Reachable ID r d x) (hP : PosesOk x) (hx : x.G = none) (hy : y.G = none)
    {b b' : Bool} (e : x.constructDataMatrices = ok (b, x'))
    (e' : y.constructDataMatrices = ok (b', y')) : b' = b ∧ Twin C x' y' := by
  obtain ⟨a1, a2, a3⟩ := Fresh.data hd hr hP (SameData.refl _) h.fx hx e
  obtain ⟨b1, b2, b3⟩ := Fresh.data hd hr hP h.data h.fy hy e'
  refine ⟨?_, ?_, by rw [a3]; exact h.unused, a2, b2, by rw [a3]; exact h.cx, by rw [b3]; exact h.cy⟩
  · rw [Bool.eq_iff_iff, b1, a1]
  · have hs := h.same
    generalize y.Q = a, y.G = b, y.precon = c at hs
    generalize x'.Q = q, x'.G = l at a3
    have k : y'.precon = y.precon := by rw [b3]
    rw [k]
    generalize y'.Q = q', y'.G = l' at b3
    rw [b3, hs, a3]

/-- Two agents that differ only in the caches of their graphs. -/
structure Pair (ID : Nat) (p : AgentParams) (C : DMat ℝ → Bool) (a b : Agent) : Prop where
  same : b = { a with graph := b.graph }
  twin : Twin C a.graph b.graph
  reach : Reachable ID p.r p.d a.graph
  priors : ∀ q ∈ a.graph.priors, PoseOk p.r p.d q.2
  nbr : StoreOk p.r p.d a.graph a.neighborPoses
  aux : StoreOk p.r p.d a.graph a.neighborAuxPoses

namespace Pair

variable {o : AgentOracles} {ID : Nat} {p : AgentParams} {C : DMat ℝ → Bool} {a b a' b' : Agent}

/-- A call that leaves graph and stores alone and does not read caches. -/
theorem keep (h : Pair ID p C a b) (f : Agent → Agent)
    (hf : ∀ c g, f { c with graph := g } = { f c with graph := g })
    (hg : ∀ c, (f c).graph = c.graph) (h1 : ∀ c, (f c).neighborPoses = c.neighborPoses)
    (h2 : ∀ c, (f c).neighborAuxPoses = c.neighborAuxPoses) : Pair ID p C (f a) (f b) := by
  refine ⟨?_, ?_, ?_, ?_, ?_, ?_⟩
  · rw [hg]
    have := h.same
    generalize b.graph = g at this
    rw [this, hf]
  · rw [hg, hg]; exact h.twin
  · rw [hg]; exact h.reach
  · rw [hg]; exact h.priors
  · rw [hg, h1]; exact h.nbr
  · rw [hg, h2]; exact h.aux

theorem updateX (hd : 0 < p.d) (hC : ∀ k, (o.opt k).chol = C) (h : Pair ID p C a b)
    {doOpt accel s s' : Bool}
    (e : a.updateX o doOpt accel = ok (s, a')) (e' : b.updateX o doOpt accel = ok (s', b')) :
    s' = s ∧ Pair ID p C a' b' := by
  have f := Agent.updateX_frame e
  have hs := h.same
  generalize hgb : b.graph = gb at hs
  rcases Agent.updateX_form e with ⟨rfl, rfl, ha⟩ | ⟨rfl, -, -, g1, ec, hs1, hrest⟩
  · rcases Agent.updateX_form e' with ⟨-, rfl, hb⟩ | ⟨c, -⟩
    · refine ⟨rfl, ?_⟩
      rw [ha, hb]
      cases accel with
      | false => rw [if_neg (by simp), if_neg (by simp)]; exact h
      | true =>
        rw [if_pos rfl, if_pos rfl]
        exact h.keep (fun c => { c with X := c.Y }) (fun _ _ => rfl) (fun _ => rfl)
          (fun _ => rfl) (fun _ => rfl)
    · cases c
  · rcases Agent.updateX_form e' with ⟨c, -⟩ | ⟨-, -, -, g1', ec', hs1', hrest'⟩
    · cases c
    have hst : (if accel then b.neighborAuxPoses else b.neighborPoses) =
        (if accel then a.neighborAuxPoses else a.neighborPoses) := by rw [hs]
    rw [hst] at ec'
    have hS : StoreOk p.r p.d a.graph (if accel then a.neighborAuxPoses else a.neighborPoses) := by
      cases accel; exacts [h.nbr, h.aux]
    have hr1 : Reachable ID p.r p.d (a.graph.setNeighborPoses
        (if accel then a.neighborAuxPoses else a.neighborPoses)) :=
      Reachable.snoc h.reach (op := .setNeighborPoses _) trivial rfl
    obtain ⟨-, dr, dd, -⟩ := reach_dims hr1
    obtain ⟨rfl, t⟩ := (h.twin.neighborPoses _).construct hd hr1
      ⟨fun q hq => by rw [dr, dd]; exact PriorOk (hS.mem q hq).2,
        fun q hq => by rw [dr, dd]; exact h.priors q hq⟩ rfl rfl ec ec'
    refine ⟨rfl, ?_⟩
    have t0 := f.2.topology Agent.updating_quiet
    have base : Twin C a'.graph b'.graph → b' = { a' with graph := b'.graph } →
        Pair ID p C a' b' := by
      intro k1 k2
      have f3 : a'.neighborPoses = a.neighborPoses := by rw [f.1]
      have f4 : a'.neighborAuxPoses = a.neighborAuxPoses := by rw [f.1]
      refine ⟨k2, k1, f.2.reach (fun op h => quiet_wf op (Agent.updating_quiet op h)) h.reach, ?_,
        by rw [f3]; exact h.nbr.topology t0.nbrShared, by rw [f4]; exact h.aux.topology t0.nbrShared⟩
      rw [(updating_book f.2).priors]
      exact h.priors
    rcases hrest with ⟨rfl, ha⟩ | ⟨rfl, Z, res, g2, ho, -, -, -, ha⟩
    · rcases hrest' with ⟨-, hb⟩ | ⟨c, -⟩
      · apply base
        · rw [ha, hb]; exact t
        · rw [hb, ha, hs]
      · cases c
    · rcases hrest' with ⟨c, -⟩ | ⟨-, Z', res', g2', ho', -, -, -, hb⟩
      · cases c
      · have hin : (if accel then b.Y.X else b.X.X) = (if accel then a.Y.X else a.X.X) := by rw [hs]
        have hcl : b.calls = a.calls := by rw [hs]
        have hpa : b.params = a.params := by rw [hs]
        rw [hin, hcl, hpa] at ho'
        rw [← hC a.calls] at t
        obtain ⟨rfl, t2⟩ := t.optimize ho ho'
        apply base
        · rw [ha, hb]
          rw [hC] at t2
          exact t2
        · rw [hb, ha, hs]

/-- Agents that differ in caches only. -/
theorem graph_eq (h : Pair ID p C a b) : ∃ q l c, b = { a with graph :=
    { a.graph with Q := q, G := l, precon := c } } := by
  refine ⟨b.graph.Q, b.graph.G, b.graph.precon, ?_⟩
  have h1 := h.same
  have h2 := h.twin.same
  rw [← h2]; exact h1

/-- A change of other fields that does not depend on the caches. -/
theorem other (h : Pair ID p C a b) (F : Agent → Res Agent)
    (hF : ∀ (c c' : Agent) (g : PoseGraph ℝ), scratch g = scratch c.graph → F c = ok c' →
      F { c with graph := g } = ok { c' with graph := g } ∧ c'.graph = c.graph ∧
      c'.neighborPoses = c.neighborPoses ∧ c'.neighborAuxPoses = c.neighborAuxPoses)
    (e : F a = ok a') (e' : F b = ok b') : Pair ID p C a' b' := by
  have h1 := h.same
  obtain ⟨k1, k2, k3, k4⟩ := hF a a' b.graph (scratch_of_form h.twin.same) e
  rw [h1, k1] at e'
  have hb := (Res.ok.inj e').symm
  have hbg : b'.graph = b.graph := by rw [hb]
  refine ⟨by rw [hbg]; exact hb, by rw [k2, hbg]; exact h.twin, by rw [k2]; exact h.reach,
    by rw [k2]; exact h.priors, by rw [k2, k3]; exact h.nbr, by rw [k2, k4]; exact h.aux⟩

theorem updateGamma (h : Pair ID p C a b) (e : a.updateGamma = ok a') (e' : b.updateGamma = ok b') :
    Pair ID p C a' b' := by
  refine h.other Agent.updateGamma (fun c c' g hg ec => ?_) e e'
  obtain ⟨h1, h2, h3, rfl⟩ := Agent.updateGamma_form ec
  refine ⟨?_, rfl, rfl, rfl⟩
  unfold Agent.updateGamma
  simp only [h1, h2, beq_self_eq_true, check_true, ok_bind, if_neg h3]

theorem updateAlpha (h : Pair ID p C a b) (e : a.updateAlpha = ok a') (e' : b.updateAlpha = ok b') :
    Pair ID p C a' b' := by
  refine h.other Agent.updateAlpha (fun c c' g hg ec => ?_) e e'
  obtain ⟨h1, h2, h3, rfl⟩ := Agent.updateAlpha_form ec
  refine ⟨?_, rfl, rfl, rfl⟩
  unfold Agent.updateAlpha
  simp only [h1, h2, beq_self_eq_true, check_true, ok_bind, if_neg h3]

theorem project_eq {c : Agent} {g : PoseGraph ℝ} (hg : scratch g = scratch c.graph) (M : DMat ℝ) :
    Agent.project o { c with graph := g } M = c.project o M := by
  have := scratch_form hg.symm
  generalize g.Q = q, g.G = l, g.precon = t at this
  rw [this]; rfl

theorem updateY (h : Pair ID p C a b) (e : a.updateY o = ok a') (e' : b.updateY o = ok b') :
    Pair ID p C a' b' := by
  refine h.other (Agent.updateY o) (fun c c' g hg ec => ?_) e e'
  obtain ⟨h1, h2, P, h3, h4, h5, hc'⟩ := Agent.updateY_form ec
  refine ⟨?_, by rw [hc'], by rw [hc'], by rw [hc']⟩
  unfold Agent.updateY at ec ⊢
  simp only [project_eq hg]
  simp only [bind_eq_ok] at ec ⊢
  obtain ⟨u1, k1, u2, k2, u3, k3, P', k4, Y, k5, k6⟩ := ec
  refine ⟨u1, k1, u2, k2, u3, k3, P', k4, Y, k5, ?_⟩
  rw [← Res.ok.inj k6]

theorem updateV (h : Pair ID p C a b) (e : a.updateV o = ok a') (e' : b.updateV o = ok b') :
    Pair ID p C a' b' := by
  refine h.other (Agent.updateV o) (fun c c' g hg ec => ?_) e e'
  obtain ⟨h1, h2, P, h3, h4, h5, hc'⟩ := Agent.updateV_form ec
  refine ⟨?_, by rw [hc'], by rw [hc'], by rw [hc']⟩
  unfold Agent.updateV at ec ⊢
  simp only [project_eq hg]
  simp only [bind_eq_ok] at ec ⊢
  obtain ⟨u1, k1, u2, k2, u3, k3, u4, k3', P', k4, Y, k5, k6⟩ := ec
  refine ⟨u1, k1, u2, k2, u3, k3, u4, k3', P', k4, Y, k5, ?_⟩
  rw [← Res.ok.inj k6]

theorem iterateStatus (h : Pair ID p C a b) {s : Bool} (e : a.iterateStatus s = ok a')
    (e' : b.iterateStatus s = ok b') : Pair ID p C a' b' := by
  refine h.other (fun c => c.iterateStatus s) (fun c c' g hg ec => ?_) e e'
  have hs : g.statistics = c.graph.statistics := by
    have := scratch_form hg.symm
    generalize g.Q = q, g.G = l, g.precon = t at this
    rw [this]; rfl
  obtain ⟨ch, st, k1, k2, r, -, hc'⟩ := Agent.iterateStatus_form ec
  refine ⟨?_, by rw [hc'], by rw [hc'], by rw [hc']⟩
  unfold Agent.iterateStatus at ec ⊢
  simp only [bind_eq_ok] at ec ⊢
  obtain ⟨ch', j1, st', j2, j3⟩ := ec
  refine ⟨ch', j1, st', hs.trans j2, ?_⟩
  rw [← Res.ok.inj j3]

theorem tick (h : Pair ID p C a b) (e : a.tick = ok a') (e' : b.tick = ok b') :
    Pair ID p C a' b' := by
  refine h.other Agent.tick (fun c c' g hg ec => ?_) e e'
  obtain ⟨k, -, -, hc'⟩ := Agent.tick_form ec
  refine ⟨?_, by rw [hc'], by rw [hc'], by rw [hc']⟩
  unfold Agent.tick at ec ⊢
  by_cases ht : c.params.robust.costType ≠ .L2
  · rw [if_pos ht, bind_eq_ok] at ec
    obtain ⟨k, k1, k2⟩ := ec
    simp only [if_pos ht, k1, ok_bind]
    rw [← Res.ok.inj k2]
  · rw [if_neg ht, ok_bind] at ec
    simp only [if_neg ht, ok_bind]
    rw [← Res.ok.inj ec]

theorem restart (hd : 0 < p.d) (hC : ∀ k, (o.opt k).chol = C) (h : Pair ID p C a b) {doOpt : Bool}
    (e : a.restartNesterovAcceleration o doOpt = ok a')
    (e' : b.restartNesterovAcceleration o doOpt = ok b') : Pair ID p C a' b' := by
  have hc : b.params = a.params ∧ b.state = a.state := by
    have := h.same
    generalize b.graph = g at this
    rw [this]; exact ⟨rfl, rfl⟩
  rcases Agent.restart_form e with ⟨k, rfl⟩ | ⟨k, s, c, ec, ha⟩
  · rcases Agent.restart_form e' with ⟨-, rfl⟩ | ⟨k', -⟩
    · exact h
    · rw [hc.1, hc.2] at k'; exact absurd k' k
  · rcases Agent.restart_form e' with ⟨k', -⟩ | ⟨-, s', c', ec', hb⟩
    · rw [hc.1, hc.2] at k'; exact absurd k k'
    · have h0 : Pair ID p C { a with X := a.XPrev } { b with X := b.XPrev } :=
        h.keep (fun c => { c with X := c.XPrev }) (fun _ _ => rfl) (fun _ => rfl) (fun _ => rfl)
          (fun _ => rfl)
      obtain ⟨-, h1⟩ := h0.updateX hd hC ec ec'
      rw [ha, hb]
      exact h1.keep (fun c => { c with V := c.X, Y := c.X, gamma := 0, alpha := 0 }) (fun _ _ => rfl)
        (fun _ => rfl) (fun _ => rfl) (fun _ => rfl)

theorem accelStep (hd : 0 < p.d) (hC : ∀ k, (o.opt k).chol = C) (h : Pair ID p C a b)
    {doOpt s s' : Bool} (e : a.accelStep o doOpt = ok (s, a')) (e' : b.accelStep o doOpt = ok (s', b')) :
    s' = s ∧ Pair ID p C a' b' := by
  obtain ⟨a1, a2, a3, a4, a5, r, e1, e2, e3, e4, e5, e6, e7⟩ := Agent.accelStep_form e
  obtain ⟨b1, b2, b3, b4, b5, r', f1, f2, f3, f4, f5, f6, f7⟩ := Agent.accelStep_form e'
  have h3 := ((h.updateGamma e1 f1).updateAlpha e2 f2).updateY e3 f3
  obtain ⟨rfl, h4⟩ := h3.updateX hd hC e4 f4
  have h5 := h4.updateV e5 f5
  refine ⟨rfl, ?_⟩
  have hr : r' = r := by
    have hc : b5.params = a5.params ∧ b5.iterationNumber = a5.iterationNumber := by
      have := h5.same
      generalize b5.graph = g at this
      rw [this]; exact ⟨rfl, rfl⟩
    unfold Agent.shouldRestart at e6 f6
    rw [hc.1, hc.2, e6] at f6
    exact (Res.ok.inj f6).symm
  subst hr
  rcases e7 with ⟨rfl, ha⟩ | ⟨rfl, ha⟩
  · rcases f7 with ⟨-, hb⟩ | ⟨c, -⟩
    · rw [ha, hb]; exact h5
    · cases c
  · rcases f7 with ⟨c, -⟩ | ⟨-, hb⟩
    · cases c
    · exact h5.restart hd hC ha hb

theorem iterate (hd : 0 < p.d) (hC : ∀ k, (o.opt k).chol = C) (h : Pair ID p C a b)
    {doOpt s s' : Bool} (e : a.iterate o doOpt = ok (s, a')) (e' : b.iterate o doOpt = ok (s', b')) :
    s' = s ∧ Pair ID p C a' b' := by
  obtain ⟨a0, t, he⟩ := Agent.iterate_form e
  obtain ⟨b0, t', he'⟩ := Agent.iterate_form e'
  have h0 := h.tick t t'
  have hc : b.state = a.state := by
    have := h.same
    generalize b.graph = g at this
    rw [this]
  rcases he with ⟨k, eb⟩ | ⟨k, rfl, rfl⟩
  · rcases he' with ⟨-, eb'⟩ | ⟨k', -⟩
    · obtain ⟨a1, a2, x1, x2, x3⟩ := Agent.iterateBody_form eb
      obtain ⟨b1, b2, y1, y2, y3⟩ := Agent.iterateBody_form eb'
      have h1 : Pair ID p C { a0 with XPrev := a0.X } { b0 with XPrev := b0.X } :=
        h0.keep (fun c => { c with XPrev := c.X }) (fun _ _ => rfl) (fun _ => rfl) (fun _ => rfl)
          (fun _ => rfl)
      have hp : b0.params = a0.params := by
        have := h0.same
        generalize b0.graph = g at this
        rw [this]
      have h2 : s' = s ∧ Pair ID p C a1 b1 := by
        rcases x1 with ⟨c, x1⟩ | ⟨c, x1⟩
        · rcases y1 with ⟨-, y1⟩ | ⟨c', -⟩
          · exact h1.accelStep hd hC x1 y1
          · rw [hp, c] at c'; cases c'
        · rcases y1 with ⟨c', -⟩ | ⟨-, y1⟩
          · rw [hp, c] at c'; cases c'
          · exact h1.updateX hd hC x1 y1
      obtain ⟨rfl, h2⟩ := h2
      refine ⟨rfl, ?_⟩
      have h3 : Pair ID p C a2 b2 := by
        rcases x2 with ⟨rfl, x2⟩ | ⟨rfl, x2⟩
        · rcases y2 with ⟨-, y2⟩ | ⟨c, -⟩
          · exact h2.iterateStatus x2 y2
          · cases c
        · rcases y2 with ⟨c, -⟩ | ⟨-, y2⟩
          · cases c
          · rw [x2, y2]; exact h2
      rw [x3, y3]
      exact h3.keep (fun c => c.publish doOpt) (fun _ _ => rfl) (fun _ => rfl) (fun _ => rfl)
        (fun _ => rfl)
    · rw [hc] at k'; exact absurd k k'
  · rcases he' with ⟨k', -⟩ | ⟨-, rfl, rfl⟩
    · rw [hc] at k'; exact absurd k' k
    · exact ⟨rfl, h0⟩

end Pair

end Dpgo
