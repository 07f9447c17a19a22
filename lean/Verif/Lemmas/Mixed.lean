import Verif.Spec.Mixed
import Verif.Lemmas.Main

/-! # Helper lemmas for files that mix dimensions -/

namespace Dpgo

open Res Spec Spec.G2o

theorem abort_foldl {α ι : Type} {f : α → ι → Res α} {b : α} {x : ι} (l : List ι) (h : f b x = abort) :
    Res.foldl f b (x :: l) = abort := by
  rw [foldl_cons, h]
  rfl

namespace PoseGraph

/-- An edge of one robot is added or refused, and other keys of the index stay free. -/
theorem add_free {g : PoseGraph ℝ} {m : Meas ℝ} {k : EdgeID} (hg : g.id = 0) (h1 : m.r1 = 0) (h2 : m.r2 = 0)
    (hk : k ≠ m.edge) (hf : g.edgeIndex.get? k = none) :
    g.addMeasurement m = abort ∨ ∃ g', g.addMeasurement m = ok g' ∧ g'.id = 0 ∧ g'.d = g.d ∧
      g'.edgeIndex.get? k = none := by
  have hkey : g.hasMeasurement m.src m.dst = false → ∀ i, (g.edgeIndex.emplace m.edge i).get? k = none := by
    intro hh i
    have hn : g.edgeIndex.get? m.edge = none := by
      unfold hasMeasurement at hh
      change (g.edgeIndex.get? m.edge).isSome = false at hh
      simpa using hh
    rw [EdgeMap.get?_emplace_of_none _ _ _ _ hn, if_neg hk, hf]
  have e1 : (m.r1 == g.id) = true := by simp [h1, hg]
  have e2 : (m.r2 == g.id) = true := by simp [h2, hg]
  unfold addMeasurement
  rw [if_neg (by simp [h1, hg]), if_pos (by simp [h1, h2, hg])]
  split
  · rename_i hp
    unfold addOdometry
    split
    · exact Or.inr ⟨g, rfl, hg, rfl, hf⟩
    · rename_i hh
      cases hd : g.dimsOk m with
      | false => exact Or.inl (by simp [h1, h2, hg, hp, Res.check])
      | true =>
        simp only [e1, e2, hp, Res.check, if_true, ok_bind]
        exact Or.inr ⟨_, rfl, hg, rfl, hkey (by simpa using hh) ((g.odometry ++ [m]).length - 1)⟩
  · unfold addPrivateLoopClosure
    split
    · exact Or.inr ⟨g, rfl, hg, rfl, hf⟩
    · rename_i hh
      cases hd : g.dimsOk m with
      | false => exact Or.inl (by simp [h1, h2, hg, Res.check])
      | true =>
        simp only [e1, e2, Res.check, if_true, ok_bind]
        exact Or.inr ⟨_, rfl, hg, rfl, hkey (by simpa using hh) ((g.privateLcs ++ [m]).length - 1)⟩

/-- A new edge of the wrong size is refused. -/
theorem add_wrong {g : PoseGraph ℝ} {m : Meas ℝ} (hg : g.id = 0) (h1 : m.r1 = 0) (h2 : m.r2 = 0)
    (hd : m.t.rows ≠ g.d) (hf : g.edgeIndex.get? m.edge = none) : g.addMeasurement m = abort := by
  have hdim : g.dimsOk m = false := by simp [dimsOk, hd]
  have hh : g.hasMeasurement m.src m.dst = false := by
    unfold hasMeasurement
    change (g.edgeIndex.get? m.edge).isSome = false
    rw [hf]
    rfl
  unfold addMeasurement
  rw [if_neg (by simp [h1, hg]), if_pos (by simp [h1, h2, hg])]
  split
  · rename_i hp
    simp [addOdometry, hh, h1, h2, hg, hp, hdim, Res.check]
  · simp [addPrivateLoopClosure, hh, h1, h2, hg, hdim, Res.check]

theorem addAll_wrong {m : Meas ℝ} {D2 : List (Meas ℝ)} (h1 : m.r1 = 0) (h2 : m.r2 = 0) :
    ∀ {D1 : List (Meas ℝ)} {g : PoseGraph ℝ}, (∀ x ∈ D1, x.r1 = 0 ∧ x.r2 = 0 ∧ m.edge ≠ x.edge) → g.id = 0 →
      m.t.rows ≠ g.d → g.edgeIndex.get? m.edge = none → Res.foldl addMeasurement g (D1 ++ m :: D2) = abort
  | [], _, _, hg, hd, hf => abort_foldl _ (add_wrong hg h1 h2 hd hf)
  | x :: D1, g, hx, hg, hd, hf => by
    obtain ⟨a, b, c⟩ := hx x (by simp)
    rcases add_free hg a b c hf with e | ⟨g', e, i, j, k⟩
    · exact abort_foldl _ e
    · rw [List.cons_append, foldl_cons, e]
      exact addAll_wrong h1 h2 (fun y hy => hx y (by simp [hy])) i (by rw [j]; exact hd) k

end PoseGraph

/-- What an edge of a file determines whatever its numbers. -/
theorem says_shape {e : Entry} {m : Meas ℝ} (h : Says e m) :
    m.r1 = 0 ∧ m.r2 = 0 ∧ e.ends = some (m.p1, m.p2) ∧ m.t.rows = e.dim ∧ m.t.cols = 1 ∧ e.isEdge = true := by
  cases e with
  | vertex => exact h.elim
  | edge2 i j v =>
    obtain ⟨a, b, c, d, e, f, -⟩ := h
    exact ⟨a, b, by rw [c, d]; rfl, e, f, rfl⟩
  | edge3 i j v =>
    obtain ⟨a, b, c, d, e, f, -⟩ := h
    exact ⟨a, b, by rw [c, d]; rfl, e, f, rfl⟩

theorem edge_ne {x y : Meas ℝ} (hx : x.p1 < 2 ^ 32 ∧ x.p2 < 2 ^ 32) (hy : y.p1 < 2 ^ 32 ∧ y.p2 < 2 ^ 32)
    (h : (x.p1, x.p2) ≠ (y.p1, y.p2)) : x.edge ≠ y.edge := by
  intro c
  apply h
  have e1 : u32 x.p1 = u32 y.p1 := congrArg (fun k => k.src.frame) c
  have e2 : u32 x.p2 = u32 y.p2 := congrArg (fun k => k.dst.frame) c
  unfold u32 at e1 e2
  rw [Nat.mod_eq_of_lt hx.1, Nat.mod_eq_of_lt hy.1] at e1
  rw [Nat.mod_eq_of_lt hx.2, Nat.mod_eq_of_lt hy.2] at e2
  rw [e1, e2]

theorem forall₂_split {α β : Type} {R : α → β → Prop} : ∀ {l1 l2 : List α} {l : List β}, List.Forall₂ R (l1 ++ l2) l →
    ∃ k1 k2, List.Forall₂ R l1 k1 ∧ List.Forall₂ R l2 k2 ∧ l = k1 ++ k2
  | [], _, l, h => ⟨[], l, .nil, h, rfl⟩
  | _ :: _, _, _, .cons a h => by
    obtain ⟨k1, k2, h1, h2, rfl⟩ := forall₂_split h
    exact ⟨_ :: k1, k2, .cons a h1, h2, rfl⟩

theorem forall₂_right_mem {α β : Type} {R : α → β → Prop} : ∀ {l : List α} {k : List β}, List.Forall₂ R l k →
    ∀ {y : β}, y ∈ k → ∃ x ∈ l, R x y
  | _, _, .cons a h, y, hy => by
    rcases List.mem_cons.1 hy with rfl | hy
    · exact ⟨_, by simp, a⟩
    · obtain ⟨x, hx, hR⟩ := forall₂_right_mem h hy
      exact ⟨x, by simp [hx], hR⟩

/-- The central pose graph of such a file is not built. -/
theorem mixed_central {es : List Entry} {D : List (Meas ℝ)} (h : List.Forall₂ Says (es.filter Entry.isEdge) D)
    (hs : ∀ p ∈ endsOf es, p.1 < 2 ^ 32 ∧ p.2 < 2 ^ 32) (hm : MixedNew es) (r : Nat) :
    (PoseGraph.new 0 r (Example.dimensionOf D) : Res (PoseGraph ℝ)) = abort ∨
    ∃ g : PoseGraph ℝ, PoseGraph.new 0 r (Example.dimensionOf D) = ok g ∧ g.setMeasurements D = abort := by
  have small : ∀ {x : Entry} {m : Meas ℝ}, x ∈ es → Says x m → m.p1 < 2 ^ 32 ∧ m.p2 < 2 ^ 32 := by
    intro x m hx hS
    exact hs (m.p1, m.p2) (List.mem_filterMap.2 ⟨x, hx, (says_shape hS).2.2.1⟩)
  obtain ⟨a, f, b, e, c, rfl, ha, hf, he, hd, hn⟩ := hm
  have ha' : a.filter Entry.isEdge = [] := by
    rw [List.filter_eq_nil_iff]
    intro x hx
    rw [ha x hx]
    simp [Entry.isEdge]
  rw [List.filter_append, ha', List.nil_append, List.filter_cons_of_pos hf, List.filter_append,
    List.filter_cons_of_pos he] at h
  obtain ⟨m0, D', hm0, hD', rfl⟩ := List.forall₂_cons_left_iff.1 h
  obtain ⟨D1, D2', hb, hec, rfl⟩ := forall₂_split hD'
  obtain ⟨m, D2, hm, -, rfl⟩ := List.forall₂_cons_left_iff.1 hec
  obtain ⟨-, -, -, hr0, hc0, -⟩ := says_shape hm0
  obtain ⟨h1, h2, hends, hrm, -, -⟩ := says_shape hm
  have hdim : Example.dimensionOf (m0 :: (D1 ++ m :: D2)) = f.dim := by
    change u32 (m0.t.rows * m0.t.cols) = f.dim
    rw [hr0, hc0]
    cases f <;> rfl
  rw [hdim]
  unfold PoseGraph.new
  by_cases hr : f.dim ≤ r
  · right
    simp only [hr, decide_true, Res.check, if_true, ok_bind]
    refine ⟨_, rfl, ?_⟩
    unfold PoseGraph.setMeasurements
    refine PoseGraph.addAll_wrong (D1 := m0 :: D1) h1 h2 ?_ rfl ?_ rfl
    · have hmm := small (by simp) hm
      have other : ∀ {x : Entry} {y : Meas ℝ}, x ∈ f :: b → Says x y → y.r1 = 0 ∧ y.r2 = 0 ∧ m.edge ≠ y.edge := by
        intro x y hx hS
        obtain ⟨a1, a2, a3, -⟩ := says_shape hS
        refine ⟨a1, a2, edge_ne hmm (small ?_ hS) fun c => hn x hx ?_⟩
        · rcases List.mem_cons.1 hx with rfl | hx
          · simp
          · simp [hx]
        · rw [a3, hends, c]
      intro y hy
      rcases List.mem_cons.1 hy with rfl | hy
      · exact other (by simp) hm0
      · obtain ⟨x, hx, hS⟩ := forall₂_right_mem hb hy
        exact other (List.mem_cons_of_mem _ (List.mem_filter.1 hx).1) hS
    · change m.t.rows ≠ f.dim
      rw [hrm]
      exact hd.symm
  · left
    simp only [hr, decide_false, Res.check]
    rfl

/-- Adding edges of one robot succeeds or aborts. -/
theorem PoseGraph.addAll_ends : ∀ {D : List (Meas ℝ)} {g : PoseGraph ℝ}, (∀ x ∈ D, x.r1 = 0 ∧ x.r2 = 0) → g.id = 0 →
    Res.foldl PoseGraph.addMeasurement g D = abort ∨ ∃ g', Res.foldl PoseGraph.addMeasurement g D = ok g'
  | [], g, _, _ => Or.inr ⟨g, rfl⟩
  | x :: D, g, hx, hg => by
    obtain ⟨a, b⟩ := hx x (by simp)
    have h : g.addMeasurement x = abort ∨ ∃ g', g.addMeasurement x = ok g' ∧ g'.id = 0 := by
      have e1 : (x.r1 == g.id) = true := by simp [a, hg]
      have e2 : (x.r2 == g.id) = true := by simp [b, hg]
      unfold PoseGraph.addMeasurement
      rw [if_neg (by simp [a, hg]), if_pos (by simp [a, b, hg])]
      split
      · rename_i hp
        unfold PoseGraph.addOdometry
        split
        · exact Or.inr ⟨g, rfl, hg⟩
        · cases hd : g.dimsOk x with
          | false => exact Or.inl (by simp [a, b, hg, hp, Res.check])
          | true =>
            simp only [e1, e2, hp, Res.check, if_true, ok_bind]
            exact Or.inr ⟨_, rfl, hg⟩
      · unfold PoseGraph.addPrivateLoopClosure
        split
        · exact Or.inr ⟨g, rfl, hg⟩
        · cases hd : g.dimsOk x with
          | false => exact Or.inl (by simp [a, b, hg, Res.check])
          | true =>
            simp only [e1, e2, Res.check, if_true, ok_bind]
            exact Or.inr ⟨_, rfl, hg⟩
    rcases h with e | ⟨g', e, i⟩
    · exact Or.inl (abort_foldl _ e)
    · rw [foldl_cons, e]
      exact PoseGraph.addAll_ends (fun y hy => hx y (by simp [hy])) i

theorem central_ends {D : List (Meas ℝ)} (h : ∀ x ∈ D, x.r1 = 0 ∧ x.r2 = 0) :
    Example.centralGraph D = abort ∨ ∃ g, Example.centralGraph D = ok g := by
  unfold Example.centralGraph PoseGraph.new
  simp only [le_refl, decide_true, Res.check, if_true, ok_bind]
  exact PoseGraph.addAll_ends h rfl

/-- The chordal initialisation of edges of which the first is spatial and another planar. -/
theorem chordal_planar {svd : SvdOracle} {qr : LsqOracle} {m0 m : Meas ℝ} {D : List (Meas ℝ)} (h0 : m0.t.rows = 3)
    (h1 : m0.t.cols = 1) (hm : m ∈ D) (h2 : m.t.rows = 2) : chordalInitialization svd qr (m0 :: D) = ub := by
  have hr : (m0 :: D).all (measReadable 3) = false := by
    rw [List.all_eq_false]
    exact ⟨m, by simp [hm], by simp [measReadable, h2]⟩
  unfold chordalInitialization getDimensionAndNumPoses constructBMatrices bMatricesOf
  simp only [h0, h1, hr, Res.check, Res.require]
  rfl

/-- A second edge from 0 to 1 is dropped, whatever its size. -/
theorem repeated_central {m0 m1 : Meas ℝ} (r1 : m0.r1 = 0) (r2 : m0.r2 = 0) (p1 : m0.p1 = 0) (p2 : m0.p2 = 1)
    (tr : m0.t.rows = 3) (tc : m0.t.cols = 1) (Rr : m0.R.rows = 3) (Rc : m0.R.cols = 3) (s1 : m1.r1 = 0)
    (s2 : m1.r2 = 0) (q1 : m1.p1 = 0) (q2 : m1.p2 = 1) : ∃ g, Example.centralGraph [m0, m1] = ok g := by
  have hsrc : m1.src = m0.src := by simp [Meas.src, r1, s1, p1, q1]
  have hdst : m1.dst = m0.dst := by simp [Meas.dst, r2, s2, p2, q2]
  have hkey : m0.edge = ⟨m0.src, m0.dst⟩ := rfl
  have e1 : ∀ g : PoseGraph ℝ, g.id = 0 → g.d = 3 → g.edgeIndex = [] → ∃ g', g.addMeasurement m0 = ok g' ∧ g'.id = 0 ∧
      g'.hasMeasurement m0.src m0.dst = true := by
    intro g h1 h2 h3
    have hh : g.hasMeasurement m0.src m0.dst = false := by
      unfold PoseGraph.hasMeasurement
      rw [h3]
      rfl
    have hd : g.dimsOk m0 = true := by simp [PoseGraph.dimsOk, h2, tr, tc, Rr, Rc]
    have a : (m0.r1 == g.id) = true := by simp [r1, h1]
    have b : (m0.r2 == g.id) = true := by simp [r2, h1]
    have c : (u64 (m0.p1 + 1) == m0.p2) = true := by rw [p1, p2]; rfl
    unfold PoseGraph.addMeasurement PoseGraph.addOdometry
    rw [if_neg (by simp [r1, h1]), if_pos (by simp [r1, r2, h1]), if_pos c, if_neg (by simp [hh])]
    simp only [a, b, c, hd, Res.check, if_true, ok_bind]
    refine ⟨_, rfl, h1, ?_⟩
    unfold PoseGraph.hasMeasurement
    change ((g.edgeIndex.emplace m0.edge ((g.odometry ++ [m0]).length - 1)).get? m0.edge).isSome = true
    rw [EdgeMap.get?_emplace_of_none _ _ _ _ (by rw [h3]; rfl), if_pos rfl]
    rfl
  suffices key : ∀ g : PoseGraph ℝ, g.id = 0 → g.d = 3 → ∃ g', g.setMeasurements [m0, m1] = ok g' by
    unfold Example.centralGraph PoseGraph.new
    simp only [Example.dimensionOf, tr, tc, le_refl, decide_true, Res.check, if_true, ok_bind]
    exact key _ rfl rfl
  intro g h1 h2
  obtain ⟨g', e, hi, hh⟩ := e1 g.empty h1 h2 rfl
  refine ⟨g', ?_⟩
  unfold PoseGraph.setMeasurements
  rw [foldl_cons, e]
  change Res.foldl _ g' [m1] = _
  rw [foldl_cons]
  have : g'.addMeasurement m1 = ok g' := by
    have c : (u64 (m1.p1 + 1) == m1.p2) = true := by rw [q1, q2]; rfl
    unfold PoseGraph.addMeasurement PoseGraph.addOdometry
    rw [if_neg (by simp [s1, hi]), if_pos (by simp [s1, s2, hi]), if_pos c, hsrc, hdst, if_pos hh]
  rw [this]
  rfl

end Dpgo
