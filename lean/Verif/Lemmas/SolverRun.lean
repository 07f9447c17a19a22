import Verif.Lemmas.Solver
import Verif.Lemmas.Errors
import Verif.Lemmas.ChordalInit

/-! # Lemmas about the single-robot solvers: control flow -/

namespace Dpgo

open Res Spec PoseGraph Finset

theorem optimize_total {o : OptOracles} {p : OptParams} (hm : p.method = .RTR) {g g1 : PoseGraph ℝ}
    {Y : DMat ℝ} {v : ℝ} (e : problemF g Y = ok (v, g1)) :
    ∃ Z res g', optimize o p g Y = ok (Z, res, g') := by
  obtain ⟨Q, G, rfl, -, hr, hc, hQr, hQc, hGr, hGc, -⟩ := problemF_full e
  have hs : ∀ Z, (Z = Y ∨ ∃ V : LVar g.r g.d g.n, Z = DMat.ofMat V) → Z.rows = g.r ∧
      Z.cols = (g.d + 1) * g.n := by
    rintro Z (rfl | ⟨V, rfl⟩)
    · exact ⟨hr, hc⟩
    · exact ⟨rfl, rfl⟩
  have hz := hs (trustRegion o p { g with Q := some Q, G := some G } Q G Y) (by
    unfold trustRegion
    split
    · exact Or.inl rfl
    · split
      · obtain ⟨k, -, -, -, h | h⟩ := retryLoop_spec
          (fun k Δ => o.rtr g.r g.d g.n Q G p k Δ Δ (Y.toMat _ _)) Y 11 0 p.RTRInitialRadius rfl
          (by omega)
        · exact Or.inr ⟨_, h.2⟩
        · exact Or.inl h.2.2
      · exact Or.inr ⟨_, rfl⟩)
  unfold optimize
  rw [e]
  simp only [ok_bind, quadraticMatrix, linearMatrix, optimizeWith, hm]
  have e2 : ∃ v' g', problemF { g with Q := some Q, G := some G }
      (trustRegion o p { g with Q := some Q, G := some G } Q G Y) = ok (v', g') := by
    simp only [problemF, quadraticMatrix, linearMatrix, ok_bind, hz.1, hz.2, hQr, hQc, hGr, hGc, hr,
      hc, beq_self_eq_true, Bool.and_self, check_true, require_true]
    exact ⟨_, _, rfl⟩
  obtain ⟨v', g', e2⟩ := e2
  rw [e2]
  exact ⟨_, _, _, rfl⟩

theorem solvePGO_ok {o : SolverOracles} {k : Nat} {p : OptParams} {ms : List (Meas ℝ)}
    {T0 : Option (PArr ℝ)} {T : PArr ℝ} (e : solvePGO o k p ms T0 = ok T) :
    ∃ m l d n P g₀ g X res g', ms = m :: l ∧ getDimensionAndNumPoses ms = ok (d, n) ∧
      StartsAt o ms T0 P ∧ P.d = d ∧ P.n = n ∧ PoseGraph.new m.r1 d d = ok g₀ ∧
      g₀.setMeasurements ms = ok g ∧ optimize (o.opt k) p g P.X = ok (X, res, g') ∧
      P.setData X = ok T := by
  unfold solvePGO at e
  cases ms with
  | nil => cases e
  | cons m l =>
    rw [bind_eq_ok] at e
    obtain ⟨⟨d, n⟩, h1, e⟩ := e
    have key : ∃ P, StartsAt o (m :: l) T0 P ∧ (do
        check (P.d == d)
        check (P.n == n)
        let g ← PoseGraph.new m.r1 d d
        let g ← g.setMeasurements (m :: l)
        let x ← optimize (o.opt k) p g P.X
        P.setData x.1) = ok T := by
      cases T0 with
      | some P => exact ⟨P, rfl, e⟩
      | none =>
        simp only [bind_eq_ok (x := chordalInitialization o.svd o.qr (m :: l))] at e
        exact e
    obtain ⟨P, h2, e⟩ := key
    simp only [bind_eq_ok] at e
    obtain ⟨_, h3, _, h4, g₀, h5, g, h6, ⟨X, res, g'⟩, h7, h8⟩ := e
    rw [check_eq_ok, beq_iff_eq] at h3 h4
    exact ⟨m, l, d, n, P, g₀, g, X, res, g', rfl, h1, h2, h3, h4, h5, h6, h7, h8⟩

theorem oneRobot_dims {id d n : Nat} {ms : List (Meas ℝ)} (h : OneRobot id d n ms) :
    getDimensionAndNumPoses ms = ok (d, n) := by
  rw [getDim_ok h.nonempty h.dim h.dims, numPoses_eq h.num]
  intro m hm
  have := h.wf m hm
  unfold MeasWF at this
  omega

theorem teamCost_const {r d id : Nat} {ms : List (Meas ℝ)} (h : ∀ m ∈ ms, m.r1 = id ∧ m.r2 = id)
    (X Y : DMat ℝ) :
    teamCost r d ms (Function.update (fun _ => X) id Y) = teamCost r d ms (fun _ => Y) := by
  unfold teamCost
  congr 2
  refine List.map_congr_left fun m hm => ?_
  have := h m (mem_of_firstWins hm)
  simp [this.1, this.2]

theorem OneGraph.upToDate {id r d n : Nat} {ms : List (Meas ℝ)} {g : PoseGraph ℝ}
    (h : OneGraph id r d n ms g) (X : Joint ℝ) : Spec.upToDate r d X g g.neighborPoses := by
  intro p hp
  obtain ⟨⟨log, hi⟩, -⟩ := Reachable.inv h.team.reach
  obtain ⟨m, hm, hs, -⟩ := (hi.nbrMem p).1 hp
  have : m ∈ g.sharedLcs := by rw [hi.shared, List.mem_filter]; exact ⟨hm, hs⟩
  rw [h.noShared] at this
  cases this

theorem OneGraph.problemF_total {id r d n : Nat} {ms : List (Meas ℝ)} {g : PoseGraph ℝ} (hd : 0 < d)
    (h : OneGraph id r d n ms g) {X : DMat ℝ} (hr : X.rows = r) (hc : X.cols = (d + 1) * n) :
    ∃ v g', problemF g X = ok (v, g') := by
  have e1 := h.team.d_eq
  have e2 := h.team.r_eq
  have e3 := h.n_eq
  refine Dpgo.problemF_total h.team.reach (e1 ▸ hd) h.local_ne h.noSelf ?_ h.covered ?_ h.Q h.G
    (by rw [e2]; exact hr) (by rw [e1, e3]; exact hc)
  · rintro ⟨m, hm, -⟩
    rw [h.noShared] at hm
    cases hm
  · constructor
    · rw [h.poses]; intro p hp; cases hp
    · rw [h.team.priors]; intro p hp; cases hp

theorem solvePGO_descent {o : SolverOracles} {k : Nat} {p : OptParams} {id d n : Nat}
    {ms : List (Meas ℝ)} {T0 : Option (PArr ℝ)} {T : PArr ℝ} (h : OneRobot id d n ms)
    (ho : LawfulRtr (o.opt k)) (hm : p.method = .RTR) (e : solvePGO o k p ms T0 = ok T) :
    ∃ P, StartsAt o ms T0 P ∧ P.d = d ∧ P.n = n ∧ T.r = P.r ∧ T.d = P.d ∧ T.n = P.n ∧
      T.X.rows = d ∧ T.X.cols = (d + 1) * n ∧ P.r = d ∧ pgoCost d ms T ≤ pgoCost d ms P := by
  obtain ⟨m, l, d', n', P, g₀, g, X, res, g', hms, h1, h2, h3, h4, h5, h6, h7, h8⟩ := solvePGO_ok e
  rw [oneRobot_dims h] at h1
  cases h1
  have hid : m.r1 = id := (h.ids m (by rw [hms]; simp)).1
  rw [hid] at h5
  obtain ⟨g₀', g1, e0, e1, hg⟩ := oneGraph h le_rfl
  rw [e0] at h5
  cases h5
  rw [e1] at h6
  cases h6
  have hd : 0 < d := by rcases h.dim with rfl | rfl <;> omega
  obtain ⟨Q, G, g2, f1, -, -, -, -, -, hYr, hYc, hZr, hZc, -, -, -, -, ⟨g3, f2⟩, -⟩ := optimize_ok h7
  have hle := optimize_rtr ho hm h7
  have hc := hg.team.change (two_ne_zero) hd (fun _ => P.X) X (hg.upToDate _) f1 f2
  rw [teamCost_const h.ids] at hc
  rw [hg.team.r_eq] at hZr
  rw [hg.team.d_eq, hg.n_eq] at hZc
  unfold PArr.setData at h8
  simp only [bind_eq_ok, check_eq_ok, beq_iff_eq] at h8
  obtain ⟨_, k1, _, k2, h8⟩ := h8
  cases h8
  refine ⟨P, h2, h3, h4, rfl, rfl, rfl, hZr, hZc, ?_, ?_⟩
  · change X.rows = P.r at k1
    rw [← k1, hZr]
  · unfold pgoCost
    change teamCost d d ms (fun _ => X) ≤ _
    linarith

theorem solvePGO_total {o : SolverOracles} {k : Nat} {p : OptParams} {id d n : Nat}
    {ms : List (Meas ℝ)} {T0 : Option (PArr ℝ)} {P : PArr ℝ} (h : OneRobot id d n ms)
    (hm : p.method = .RTR) (hP : StartsAt o ms T0 P) (hA : ArrOk d d n P) :
    ∃ T, solvePGO o k p ms T0 = ok T := by
  obtain ⟨g₀, g, e0, e1, hg⟩ := oneGraph h le_rfl
  have hd : 0 < d := by rcases h.dim with rfl | rfl <;> omega
  obtain ⟨v, g1, f1⟩ := hg.problemF_total hd hA.2.2.2.1 hA.2.2.2.2
  obtain ⟨X, res, g', f2⟩ := optimize_total (o := o.opt k) hm f1
  obtain ⟨Q, G, g2, -, -, -, -, -, -, -, -, hZr, hZc, -⟩ := optimize_ok f2
  rw [hg.team.r_eq] at hZr
  rw [hg.team.d_eq, hg.n_eq] at hZc
  have hs := PArr.setData_ok hA ⟨hZr, hZc⟩
  cases ms with
  | nil => exact absurd rfl h.nonempty
  | cons m l =>
    have hid : m.r1 = id := (h.ids m (by simp)).1
    refine ⟨{ P with X := X }, ?_⟩
    unfold solvePGO
    cases T0 with
    | some T =>
      cases hP
      simp only [oneRobot_dims h, ok_bind, hA.2.1, hA.2.2.1, beq_self_eq_true, check_true, hid, e0,
        e1, f2]
      rw [hs, hA.2.1, hA.2.2.1]
    | none =>
      simp only [oneRobot_dims h, ok_bind, show chordalInitialization _ _ _ = _ from hP, hA.2.1, hA.2.2.1, beq_self_eq_true, check_true, hid,
        e0, e1, f2]
      rw [hs, hA.2.1, hA.2.2.1]

theorem solvePGO_arr {o : SolverOracles} {k : Nat} {p : OptParams} {id d n : Nat}
    {ms : List (Meas ℝ)} {T0 : Option (PArr ℝ)} {T : PArr ℝ} (h : OneRobot id d n ms)
    (e : solvePGO o k p ms T0 = ok T) : ArrOk d d n T := by
  obtain ⟨m, l, d', n', P, g₀, g, X, res, g', hms, h1, h2, h3, h4, h5, h6, h7, h8⟩ := solvePGO_ok e
  rw [oneRobot_dims h] at h1
  cases h1
  have hid : m.r1 = id := (h.ids m (by rw [hms]; simp)).1
  rw [hid] at h5
  obtain ⟨g₀', g1, e0, e1, hg⟩ := oneGraph h le_rfl
  rw [e0] at h5
  cases h5
  rw [e1] at h6
  cases h6
  obtain ⟨Q, G, g2, -, -, -, -, -, -, -, -, hZr, hZc, -⟩ := optimize_ok h7
  rw [hg.team.r_eq] at hZr
  rw [hg.team.d_eq, hg.n_eq] at hZc
  unfold PArr.setData at h8
  simp only [bind_eq_ok, check_eq_ok, beq_iff_eq] at h8
  obtain ⟨_, k1, _, k2, h8⟩ := h8
  cases h8
  exact ⟨k1.symm.trans hZr, h3, h4, hZr, hZc⟩

/-! ### Reweighting -/

theorem reweighted_refl (ms : List (Meas ℝ)) : Reweighted ms ms :=
  List.forall₂_same.2 fun _ _ => ⟨rfl, fun _ => rfl⟩

theorem reweighted_trans {a b c : List (Meas ℝ)} (h : Reweighted a b) (h' : Reweighted b c) :
    Reweighted a c := by
  unfold Reweighted at *
  induction h generalizing c with
  | nil => exact h'
  | cons h1 _ ih =>
    cases h' with
    | cons h2 h3 =>
      refine List.Forall₂.cons ⟨?_, ?_⟩ (ih h3)
      · have a1 := h1.1
        have a2 := h2.1
        unfold SameButWeight at *
        rw [a2, a1]
      · intro hf
        have a1 := h1.2 hf
        rw [h2.2 (by rw [a1]; exact hf), a1]

theorem sqrtWeight_range {barc : ℝ} {c : RobustCost} (hb : 0 < barc) (h : GncCost barc c) {r w : ℝ}
    (e : sqrtWeight c r = ok w) : 0 ≤ w ∧ w ≤ 1 := by
  by_cases hr : 0 ≤ r
  · rw [sqrtWeight_ok hb h hr] at e
    cases e
    exact ⟨RobustCost.gncForm_nonneg _ _ _, RobustCost.gncForm_le_one hb h.mu _⟩
  · unfold sqrtWeight at e
    rw [if_pos (not_le.1 hr)] at e
    cases e

theorem pgoReweight_ok {c : RobustCost} {T : PArr ℝ} : ∀ {ms ms' : List (Meas ℝ)},
    pgoReweight c T ms = ok ms' → Reweighted ms ms' ∧
      (∀ barc, 0 < barc → GncCost barc c → WeightsOk ms')
  | [], ms', e => by
    cases e
    exact ⟨List.Forall₂.nil, fun _ _ _ m hm => by cases hm⟩
  | m :: l, ms', e => by
    unfold pgoReweight at e
    by_cases hf : m.fixedWeight = true
    · rw [if_pos hf] at e
      simp only [ok_bind, bind_eq_ok] at e
      obtain ⟨l', h2, e⟩ := e
      cases e
      obtain ⟨i1, i2⟩ := pgoReweight_ok h2
      refine ⟨List.Forall₂.cons ⟨rfl, fun _ => rfl⟩ i1, fun barc hb hc x hx hx' => ?_⟩
      rcases List.mem_cons.1 hx with rfl | hx
      · rw [hf] at hx'; cases hx'
      · exact i2 barc hb hc x hx hx'
    · rw [if_neg hf] at e
      simp only [ok_bind, bind_eq_ok] at e
      obtain ⟨r, -, w, h3, l', h2, e⟩ := e
      cases e
      obtain ⟨i1, i2⟩ := pgoReweight_ok h2
      refine ⟨List.Forall₂.cons ⟨rfl, fun h => absurd h hf⟩ i1, fun barc hb hc x hx hx' => ?_⟩
      rcases List.mem_cons.1 hx with rfl | hx
      · exact sqrtWeight_range hb hc h3
      · exact i2 barc hb hc x hx hx'

theorem pgoLoop_ok {solve : Nat → List (Meas ℝ) → Res (PArr ℝ)} :
    ∀ {fuel i : Nat} {c : RobustCost} {ms ms' : List (Meas ℝ)}, pgoLoop solve fuel i c ms = ok ms' →
      Reweighted ms ms' ∧
      (∀ barc, 0 < barc → GncCost barc c → WeightsOk ms → WeightsOk ms')
  | 0, i, c, ms, ms', e => by
    cases e
    exact ⟨reweighted_refl _, fun _ _ _ h => h⟩
  | fuel + 1, i, c, ms, ms', e => by
    unfold pgoLoop at e
    simp only [bind_eq_ok] at e
    obtain ⟨T, -, ms1, h1, e⟩ := e
    obtain ⟨j1, j2⟩ := pgoReweight_ok h1
    split at e
    · cases e
      exact ⟨j1, fun barc hb hc _ => j2 barc hb hc⟩
    · obtain ⟨k1, k2⟩ := pgoLoop_ok e
      exact ⟨reweighted_trans j1 k1, fun barc hb hc _ => k2 barc hb hc.update (j2 barc hb hc)⟩

theorem pgoGraduate_ok {solve : Nat → List (Meas ℝ) → Res (PArr ℝ)} {rp : RobustParams}
    (ht : rp.costType = .GNC_TLS) {mu : PgoMu} {ms ms' : List (Meas ℝ)}
    (e : pgoGraduate solve rp mu ms = ok ms') : Reweighted ms ms' ∧
      (0 < rp.GNCBarc → 0 < rp.GNCMuStep → WeightsOk ms → WeightsOk ms') := by
  unfold pgoGraduate at e
  cases mu with
  | nan => cases e; exact ⟨reweighted_refl _, fun _ _ h => h⟩
  | inf =>
    simp only at e
    split at e
    · cases e; exact ⟨reweighted_refl _, fun _ _ h => h⟩
    · rw [bind_eq_ok] at e
      obtain ⟨T, -, e⟩ := e
      split at e
      · cases e; exact ⟨reweighted_refl _, fun _ _ h => h⟩
      · cases e
  | fin mu =>
    simp only at e
    split at e
    · rename_i hmu
      obtain ⟨h1, h2⟩ := pgoLoop_ok e
      refine ⟨h1, fun hb hs h => h2 rp.GNCBarc hb ?_ h⟩
      simp only [RobustCost.new, RobustCost.reset, ht]
      exact ⟨rfl, rfl, hs, hmu⟩
    · cases e; exact ⟨reweighted_refl _, fun _ _ h => h⟩

theorem solveRobustPGO_ok {o : SolverOracles} {p : RobustPGOParams} {ms ms' : List (Meas ℝ)}
    {T0 : Option (PArr ℝ)} {T : PArr ℝ} (e : solveRobustPGO o p ms T0 = ok (T, ms')) :
    p.robust.costType = .GNC_TLS ∧ Reweighted (ms.map fun m => { m with weight := 1 }) ms' ∧
    (0 < p.robust.GNCBarc → 0 < p.robust.GNCMuStep → WeightsOk ms') ∧
    ∃ k, solvePGO o k p.opt ms' T0 = ok T := by
  unfold solveRobustPGO at e
  simp only [bind_eq_ok] at e
  obtain ⟨_, -, T1, -, rs, -, _, h1, ms2, h2, T2, h3, e⟩ := e
  cases e
  rw [check_eq_ok, beq_iff_eq] at h1
  obtain ⟨a, b⟩ := pgoGraduate_ok h1 h2
  refine ⟨h1, a, fun hb hs => b hb hs ?_, _, h3⟩
  intro m hm _
  rw [List.mem_map] at hm
  obtain ⟨m0, -, rfl⟩ := hm
  simp

/-! ### Totality -/

theorem oneRobot_reweighted {id d n : Nat} {ms ms' : List (Meas ℝ)} (h : OneRobot id d n ms)
    (hr : List.Forall₂ SameButWeight ms ms') : OneRobot id d n ms' := by
  have back : ∀ m' ∈ ms', ∃ m ∈ ms, SameButWeight m m' := by
    intro m' hm'
    obtain ⟨i, hi, rfl⟩ := List.mem_iff_getElem.1 hm'
    have hl := hr.length_eq
    exact ⟨ms[i], List.getElem_mem _, hr.get (by omega) hi⟩
  have forth : ∀ m ∈ ms, ∃ m' ∈ ms', SameButWeight m m' := by
    intro m hm
    obtain ⟨i, hi, rfl⟩ := List.mem_iff_getElem.1 hm
    have hl := hr.length_eq
    exact ⟨ms'[i], List.getElem_mem _, hr.get hi (by omega)⟩
  constructor
  · intro h0
    subst h0
    cases hr
    exact h.nonempty rfl
  · exact h.dim
  · intro m' hm'
    obtain ⟨m, hm, e⟩ := back m' hm'
    rw [e]; exact h.ids m hm
  · intro m' hm'
    obtain ⟨m, hm, e⟩ := back m' hm'
    rw [e]; exact h.wf m hm
  · intro m' hm'
    obtain ⟨m, hm, e⟩ := back m' hm'
    rw [e]; exact h.dims m hm
  · intro m' hm'
    obtain ⟨m, hm, e⟩ := back m' hm'
    rw [e]; exact h.noSelf m hm
  · refine ⟨fun m' hm' => ?_, ?_⟩
    · obtain ⟨m, hm, e⟩ := back m' hm'
      rw [e]; exact h.num.1 m hm
    · obtain ⟨m, hm, h1⟩ := h.num.2
      obtain ⟨m', hm', e⟩ := forth m hm
      refine ⟨m', hm', ?_⟩
      rw [e]; exact h1

theorem precise_reweighted {ms ms' : List (Meas ℝ)} (h : Precise ms)
    (hr : List.Forall₂ SameButWeight ms ms') : Precise ms' := by
  intro m' hm'
  obtain ⟨i, hi, rfl⟩ := List.mem_iff_getElem.1 hm'
  have hl := hr.length_eq
  have e : SameButWeight ms[i] ms'[i] := hr.get (by omega) hi
  rw [e]; exact h ms[i] (List.getElem_mem _)

theorem startOk_startsAt {o : SolverOracles} {id d n : Nat} {ms : List (Meas ℝ)}
    {T0 : Option (PArr ℝ)} (h : OneRobot id d n ms) (hp : Precise ms) (hs : StartOk o d n T0) :
    ∃ P, StartsAt o ms T0 P ∧ ArrOk d d n P := by
  cases T0 with
  | some P => exact ⟨P, rfl, hs⟩
  | none =>
    have hwf : ChordalWF d ms := ⟨h.nonempty, fun m hm => ⟨h.dims m hm, (hp m hm).2, (hp m hm).1, by
      have := h.wf m hm
      unfold MeasWF at this
      omega⟩⟩
    obtain ⟨T, -, e, hT, -⟩ := chordal_spec o.svd hs h.dim hwf h.num
    exact ⟨T, e, hT⟩

theorem pgoResidual_total {d n : Nat} {T : PArr ℝ} (hT : ArrOk d d n T) {m : Meas ℝ}
    (hm : MeasDim d m) (h1 : m.p1 < n) (h2 : m.p2 < n) (hk : 0 ≤ m.kappa) (ht : 0 ≤ m.tau) :
    ∃ r, pgoResidual T m = ok r ∧ 0 ≤ r := by
  unfold pgoResidual
  simp only [PArr.rotationAt_ok hT h1, PArr.translationAt_ok hT h1, PArr.rotationAt_ok hT h2,
    PArr.translationAt_ok hT h2, ok_bind]
  have hb : ∀ (A : DMat ℝ) i j r c, (A.block i j r c).cols = c := fun _ _ _ _ _ => rfl
  simp only [hb, hm.1, hm.2.1, hm.2.2.1, hm.2.2.2, beq_self_eq_true, Bool.and_self, require_true,
    ok_bind]
  exact ⟨_, rfl, measurementError_nonneg hk ht _ _ _ _⟩

theorem pgoResiduals_total {d n : Nat} {T : PArr ℝ} (hT : ArrOk d d n T) : ∀ {ms : List (Meas ℝ)},
    (∀ m ∈ ms, MeasDim d m ∧ m.p1 < n ∧ m.p2 < n ∧ 0 ≤ m.kappa ∧ 0 ≤ m.tau) →
    ∃ rs, pgoResiduals T ms = ok rs
  | [], _ => ⟨_, rfl⟩
  | m :: l, h => by
    have h0 := h m (by simp)
    obtain ⟨r, e1, -⟩ := pgoResidual_total hT h0.1 h0.2.1 h0.2.2.1 h0.2.2.2.1 h0.2.2.2.2
    obtain ⟨rs, e2⟩ := pgoResiduals_total (ms := l) hT fun x hx => h x (by simp [hx])
    exact ⟨_, by simp only [pgoResiduals, e1, e2, ok_bind]; rfl⟩

theorem pgoReweight_total {d n : Nat} {T : PArr ℝ} (hT : ArrOk d d n T) {barc : ℝ} {c : RobustCost}
    (hb : 0 < barc) (hc : GncCost barc c) : ∀ {ms : List (Meas ℝ)},
    (∀ m ∈ ms, MeasDim d m ∧ m.p1 < n ∧ m.p2 < n ∧ 0 ≤ m.kappa ∧ 0 ≤ m.tau) →
    ∃ ms', pgoReweight c T ms = ok ms'
  | [], _ => ⟨_, rfl⟩
  | m :: l, h => by
    have h0 := h m (by simp)
    obtain ⟨r, e1, hr⟩ := pgoResidual_total hT h0.1 h0.2.1 h0.2.2.1 h0.2.2.2.1 h0.2.2.2.2
    obtain ⟨l', e2⟩ := pgoReweight_total (ms := l) hT hb hc fun x hx => h x (by simp [hx])
    unfold pgoReweight
    by_cases hf : m.fixedWeight = true
    · rw [if_pos hf]
      simp only [e2, ok_bind]
      exact ⟨_, rfl⟩
    · rw [if_neg hf]
      simp only [e1, sqrtWeight_ok hb hc hr, e2, ok_bind]
      exact ⟨_, rfl⟩

theorem reweighted_same {ms ms' : List (Meas ℝ)} (h : Reweighted ms ms') :
    List.Forall₂ SameButWeight ms ms' := List.Forall₂.imp (fun _ _ h => h.1) h

theorem oneRobot_meas {id d n : Nat} {ms : List (Meas ℝ)} (h : OneRobot id d n ms)
    (hp : Precise ms) :
    ∀ m ∈ ms, MeasDim d m ∧ m.p1 < n ∧ m.p2 < n ∧ 0 ≤ m.kappa ∧ 0 ≤ m.tau := fun m hm =>
  ⟨h.dims m hm, (h.num.1 m hm).1, (h.num.1 m hm).2, (hp m hm).1, (hp m hm).2⟩

theorem pgoLoop_total {o : SolverOracles} {p : OptParams} {T0 : Option (PArr ℝ)} {id d n : Nat}
    (hm : p.method = .RTR) (hs : StartOk o d n T0) {barc : ℝ} (hb : 0 < barc) :
    ∀ {fuel i : Nat} {c : RobustCost} {ms : List (Meas ℝ)}, GncCost barc c → OneRobot id d n ms →
      Precise ms → ∃ ms', pgoLoop (fun i ms => solvePGO o (i + 1) p ms T0) fuel i c ms = ok ms'
  | 0, _, _, _, _, _, _ => ⟨_, rfl⟩
  | fuel + 1, i, c, ms, hc, h, hp => by
    obtain ⟨P, hP, hA⟩ := startOk_startsAt h hp hs
    obtain ⟨T, e1⟩ := solvePGO_total (k := i + 1) h hm hP hA
    obtain ⟨ms1, e2⟩ := pgoReweight_total (solvePGO_arr h e1) hb hc (oneRobot_meas h hp)
    have hr := reweighted_same (pgoReweight_ok e2).1
    unfold pgoLoop
    simp only [e1, e2, ok_bind]
    split
    · exact ⟨_, rfl⟩
    · exact pgoLoop_total hm hs hb hc.update (oneRobot_reweighted h hr) (precise_reweighted hp hr)

theorem same_one (ms : List (Meas ℝ)) :
    List.Forall₂ SameButWeight ms (ms.map fun m => { m with weight := 1 }) := by
  rw [List.forall₂_map_right_iff]
  exact List.forall₂_same.2 fun _ _ => rfl

theorem solveRobustPGO_total {o : SolverOracles} {p : RobustPGOParams} {T0 : Option (PArr ℝ)}
    {id d n : Nat} {ms : List (Meas ℝ)} (hm : p.opt.method = .RTR)
    (ht : p.robust.costType = .GNC_TLS) (hb : 0 < p.robust.GNCBarc) (hmu : 0 < p.robust.GNCMuStep)
    (hs : StartOk o d n T0) (h : OneRobot id d n ms) (hp : Precise ms) :
    (∃ T ms', solveRobustPGO o p ms T0 = ok (T, ms')) ∨
    (solveRobustPGO o p ms T0 = nonfinite ∧ ∃ T rs, solvePGO o 0 p.opt ms T0 = ok T ∧
      pgoResiduals T (ms.map fun m => { m with weight := 1 }) = ok rs ∧
      2 * maxCoeff rs = p.robust.GNCBarc ^ 2 ∧ ∃ m ∈ ms, m.fixedWeight = false) := by
  obtain ⟨P, hP, hA⟩ := startOk_startsAt h hp hs
  obtain ⟨T, e1⟩ := solvePGO_total (k := 0) h hm hP hA
  have h1 := oneRobot_reweighted h (same_one ms)
  have hp1 := precise_reweighted hp (same_one ms)
  obtain ⟨rs, e2⟩ := pgoResiduals_total (solvePGO_arr h e1) (oneRobot_meas h1 hp1)
  have fin : ∀ ms2, Reweighted (ms.map fun m => { m with weight := 1 }) ms2 →
      ∃ T, solvePGO o (p.robust.GNCMaxNumIters + 1) p.opt ms2 T0 = ok T := by
    intro ms2 hr
    have h2 := oneRobot_reweighted h1 (reweighted_same hr)
    have hp2 := precise_reweighted hp1 (reweighted_same hr)
    obtain ⟨P, hP, hA⟩ := startOk_startsAt h2 hp2 hs
    exact solvePGO_total h2 hm hP hA
  unfold solveRobustPGO
  simp only [oneRobot_dims h, e1, e2, ok_bind, ht, beq_self_eq_true, check_true]
  by_cases hg : ∃ ms2, pgoGraduate (fun i ms => solvePGO o (i + 1) p.opt ms T0) p.robust
      (pgoMuInit p.robust.GNCBarc (maxCoeff rs)) (ms.map fun m => { m with weight := 1 }) = ok ms2
  · obtain ⟨ms2, e3⟩ := hg
    obtain ⟨T2, e4⟩ := fin ms2 (pgoGraduate_ok ht e3).1
    simp only [e3, e4, ok_bind]
    exact Or.inl ⟨_, _, rfl⟩
  · right
    have hne : p.robust.GNCBarc * p.robust.GNCBarc ≠ 0 := mul_ne_zero hb.ne' hb.ne'
    have key : 2 * maxCoeff rs = p.robust.GNCBarc ^ 2 ∧ pgoGraduate
        (fun i ms => solvePGO o (i + 1) p.opt ms T0) p.robust
        (pgoMuInit p.robust.GNCBarc (maxCoeff rs)) (ms.map fun m => { m with weight := 1 }) =
        nonfinite ∧ ∃ m ∈ ms, m.fixedWeight = false := by
      unfold pgoMuInit at hg ⊢
      simp only at hg ⊢
      by_cases hden : 2 * maxCoeff rs - p.robust.GNCBarc * p.robust.GNCBarc = 0
      · rw [if_pos hden, if_neg hne] at hg ⊢
        unfold pgoGraduate at hg ⊢
        simp only at hg ⊢
        split at hg
        · exact absurd ⟨_, rfl⟩ hg
        · rename_i hit
          rw [if_neg hit]
          obtain ⟨P, hP, hA⟩ := startOk_startsAt h1 hp1 hs
          obtain ⟨T1, e3⟩ := solvePGO_total (k := 0 + 1) h1 hm hP hA
          rw [e3] at hg ⊢
          simp only [ok_bind] at hg ⊢
          split at hg
          · exact absurd ⟨_, rfl⟩ hg
          · rename_i hall
            rw [if_neg hall]
            refine ⟨by linarith, rfl, ?_⟩
            simp only [List.all_eq_true, List.mem_map, not_forall] at hall
            obtain ⟨_, ⟨m, hm, rfl⟩, hx⟩ := hall
            exact ⟨m, hm, by simpa using hx⟩
      · rw [if_neg hden] at hg
        exfalso
        apply hg
        unfold pgoGraduate
        simp only
        split
        · rename_i hmu'
          refine pgoLoop_total (id := id) hm hs hb ?_ h1 hp1
          simp only [RobustCost.new, RobustCost.reset, ht]
          exact ⟨rfl, rfl, hmu, hmu'⟩
        · exact ⟨_, rfl⟩
    rw [key.2.1]
    exact ⟨rfl, T, rs, rfl, e2, key.1, key.2.2⟩

end Dpgo
