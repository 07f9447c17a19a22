import Verif.Lemmas.AsyncTeam
import Verif.Lemmas.StiefelSteps
import Verif.Lemmas.ConvergenceStep

/-! # Gradient steps with preconditioner -/

namespace Dpgo

open Res Spec PoseGraph Finset

noncomputable section

section
variable {o : AgentOracles} {p : AgentParams} {E : List (Meas ℝ)} {sh : Nat → Nat} {i k : Nat} {a a' : Agent}

theorem dot_comm_of {r c : Nat} {A B : DMat ℝ} (h : DMat.Fits r c A) (h' : DMat.Fits r c B) : A.dot B = B.dot A := by
  unfold DMat.dot
  rw [h.1, h.2, h'.1, h'.2]
  exact sum_congr rfl fun _ _ => sum_congr rfl fun _ _ => mul_comm _ _

/-- Matrices that are symmetric and bounded: the square of the image is bounded by the form. -/
theorem form_bound {r m : Nat} {P : DMat ℝ} (hr : P.rows = m) (hc : P.cols = m) (hs : ∀ x y, P.v x y = P.v y x)
    {lam : ℝ} (h0 : 0 < lam)
    (hpos : ∀ V : DMat ℝ, DMat.Fits r m V → 0 ≤ (V.mul P).dot V ∧ (V.mul P).dot V ≤ lam * V.normSq)
    {W : DMat ℝ} (hW : DMat.Fits r m W) : (W.mul P).normSq ≤ lam * (W.mul P).dot W := by
  have hw' : DMat.Fits r m (W.mul P) := ⟨hW.1, hc⟩
  have hV : DMat.Fits r m (DMat.smul (-(1 / lam)) (W.mul P)) := hw'
  have hx := objective_expand (Q := P) (G := DMat.zero r m) (X := W) (V := DMat.smul (-(1 / lam)) (W.mul P))
    (by rw [hc, hW.2]) (by rw [hV.1, hW.1]) (by rw [hV.2, hW.2]) fun x _ y _ => hs x y
  have z : ∀ Y : DMat ℝ, Y.dot (DMat.zero r m) = 0 := by
    intro Y
    unfold DMat.dot DMat.zero
    simp
  have hg : (eucGrad P (DMat.zero r m) W).dot (DMat.smul (-(1 / lam)) (W.mul P)) =
      -(1 / lam) * (W.mul P).normSq := by
    unfold eucGrad DMat.dot DMat.normSq DMat.add DMat.zero DMat.smul
    simp only [mul_sum]
    refine sum_congr rfl fun x _ => sum_congr rfl fun y _ => ?_
    ring
  unfold objective at hx
  rw [hg, z, z] at hx
  have h1 := (hpos (W.add (DMat.smul (-(1 / lam)) (W.mul P))) ⟨hW.1, hW.2⟩).1
  have h2 := (hpos _ hV).2
  rw [DMat.normSq_smul] at h2
  unfold eucHess at hx
  have h3 : lam * ((-(1 / lam)) ^ 2 * (W.mul P).normSq) = 1 / lam * (W.mul P).normSq := by field_simp
  rw [h3] at h2
  have h4 : 1 / lam * (W.mul P).normSq ≤ (W.mul P).dot W := by linarith
  rw [one_div, inv_mul_le_iff₀ h0] at h4
  exact h4

theorem mul_precond_dot {r m : Nat} {Q U Z : DMat ℝ} (hr : Q.rows = m) (hc : Q.cols = m) (hU : DMat.Fits r m U) :
    (U.mul (precondMatrix Q)).dot Z = (U.mul Q).dot Z + 1 / 10 * U.dot Z := by
  unfold DMat.dot DMat.mul precondMatrix
  simp only [hc, hU.2, mul_sum, ← sum_add_distrib]
  refine sum_congr rfl fun ρ _ => sum_congr rfl fun j hj => ?_
  have : ∑ k ∈ range m, U.v ρ k * (if k = j then Q.v k j + 1 / 10 else Q.v k j) =
      ∑ k ∈ range m, U.v ρ k * Q.v k j + U.v ρ j * (1 / 10) := by
    have hd : U.v ρ j * (1 / 10) = ∑ k ∈ range m, if k = j then U.v ρ k * (1 / 10 : ℝ) else 0 := by
      rw [Finset.sum_ite_eq', if_pos hj]
    rw [hd, ← sum_add_distrib]
    refine sum_congr rfl fun k _ => ?_
    split_ifs <;> ring
  rw [this]
  ring

/-- A gradient step of a member with preconditioner. -/
theorem Member.preconditioned (hd : 0 < p.d) (hp : p.acceleration = false) (hl : p.robust.costType = .L2)
    (hm : p.localOpt.method = .RGD) (hpre : p.localOpt.RGDUsePreconditioner = true) (hγ : 0 ≤ p.localOpt.RGDStepsize)
    {π : PoseProj} (hπ : ∀ c, ActsPosewise π (o.opt c)) {α β L : ℝ} (ht : ∀ c, Tame α β (o.opt c))
    (hex : ∀ c, ExactSolve (o.opt c)) (hL0 : 0 < L) (hpos : ∀ Y, 0 ≤ teamCost p.r p.d E Y) {X : Joint ℝ}
    (h : Member o p E sh i k a) (hL : SmoothFor p.r p.d (sh i) E i L) (hX : X i = a.X.X)
    (hfe : Orthonormal p.r p.d (sh i) a.X)
    (hup : upToDate p.r p.d X a.graph a.neighborPoses) {s : Bool} (e : a.iterate o true = ok (s, a')) :
    ∃ V Gr, GradStep p.r p.d (sh i) E π α β (1 / 10) (L + 1) p.localOpt.RGDStepsize X i a.X.X a'.X.X V Gr := by
  obtain ⟨Q, G, g, g', c, hG, g1, g2, g3, hw, hQr, hQc, hsym, form, hgQ, hP⟩ := h.solve hd hp hl hX hup e
  have ht := ht c
  have hπ := hπ c
  have hex := hex c
  generalize o.opt c = oo at *
  unfold optimizeWith at hw
  rw [hm] at hw
  simp only [gradientDescent, hpre, if_true, preConditioner, bind_eq_ok] at hw
  obtain ⟨⟨V, g5⟩, ⟨⟨b, g4⟩, hb, hV⟩, hw⟩ := hw
  cases hV
  simp only [Res.ok.injEq, Prod.mk.injEq] at hw
  replace hw := hw.1
  have hfe' : Orthonormal p.r p.d (sh i) ⟨p.r, p.d, sh i, a.X.X⟩ := hfe
  have idem : ∀ U W : LVar p.r p.d (sh i),
      (DMat.ofMat U).dot (DMat.ofMat (oo.proj p.r p.d (sh i) (a.X.X.toMat _ _) W)) =
        (DMat.ofMat (oo.proj p.r p.d (sh i) (a.X.X.toMat _ _) U)).dot
          (DMat.ofMat (oo.proj p.r p.d (sh i) (a.X.X.toMat _ _) W)) :=
    fun U W => ht.orthogonal p.r p.d (sh i) _ _ _ (orthonormal_through hfe')
  have hor : (∃ W : LVar p.r p.d (sh i), W = oo.proj p.r p.d (sh i) (a.X.X.toMat _ _) ((eucGrad Q G a.X.X).toMat _ _) ∧
      a'.X.X = DMat.ofMat (oo.retr p.r p.d (sh i) (a.X.X.toMat _ _) ((-p.localOpt.RGDStepsize) •
        oo.proj p.r p.d (sh i) (a.X.X.toMat _ _) W))) ∨
      ∃ W : LVar p.r p.d (sh i), W = oo.cholSolve p.r p.d (sh i) (precondMatrix Q)
        (oo.proj p.r p.d (sh i) (a.X.X.toMat _ _) ((eucGrad Q G a.X.X).toMat _ _)) ∧
      a'.X.X = DMat.ofMat (oo.retr p.r p.d (sh i) (a.X.X.toMat _ _) ((-p.localOpt.RGDStepsize) •
        oo.proj p.r p.d (sh i) (a.X.X.toMat _ _) W)) := by
    rcases hasPreconditioner_ok hb with ⟨P, hp1, rfl, rfl⟩ | ⟨Q1, g6, -, hq, rfl, rfl⟩
    · right
      rw [hp1] at hw
      obtain rfl := hP P hp1
      unfold rieGrad at hw
      simp only at hw
      rw [g1, g2, g3] at hw
      exact ⟨_, rfl, hw.symm⟩
    · have : Q1 = Q ∧ g6 = g := by
        rcases quadraticMatrix_ok hq with ⟨h1, h2⟩ | ⟨h1, -⟩
        · rw [hgQ] at h1; cases h1; exact ⟨rfl, h2⟩
        · rw [hgQ] at h1; cases h1
      obtain ⟨rfl, rfl⟩ := this
      cases hch : oo.chol (precondMatrix Q1) with
      | true =>
        right
        rw [hch] at hw
        unfold rieGrad at hw
        simp only [if_true] at hw
        rw [g1, g2, g3] at hw
        exact ⟨_, rfl, hw.symm⟩
      | false =>
        left
        rw [hch] at hw
        unfold rieGrad at hw
        simp only at hw
        rw [g1, g2, g3] at hw
        exact ⟨_, rfl, hw.symm⟩
  rcases hor with ⟨W, hW, hw⟩ | ⟨W, hW, hw⟩
  · rw [hw]
    have h1 := idem W W
    have h2 := idem W ((eucGrad Q G a.X.X).toMat _ _)
    rw [← hW] at h2
    have h3 : (DMat.ofMat (oo.proj p.r p.d (sh i) (a.X.X.toMat _ _) W)).normSq = (DMat.ofMat W).normSq := by
      have e1 : (DMat.ofMat W).normSq = (DMat.ofMat W).dot (DMat.ofMat W) := rfl
      have e2 : (DMat.ofMat (oo.proj p.r p.d (sh i) (a.X.X.toMat _ _) W)).normSq =
        (DMat.ofMat (oo.proj p.r p.d (sh i) (a.X.X.toMat _ _) W)).dot
          (DMat.ofMat (oo.proj p.r p.d (sh i) (a.X.X.toMat _ _) W)) := rfl
      rw [e1, e2, h2, ← h1]
      exact dot_comm_of (ofMat_fits _) (ofMat_fits _)
    refine ⟨_, _, gradStep_of hπ ht hγ hfe' hG W ?_ ?_⟩
    · rw [← hW, h1]
      have := normSq_nonneg (DMat.ofMat (oo.proj p.r p.d (sh i) (a.X.X.toMat _ _) W))
      have e2 : (DMat.ofMat (oo.proj p.r p.d (sh i) (a.X.X.toMat _ _) W)).normSq =
        (DMat.ofMat (oo.proj p.r p.d (sh i) (a.X.X.toMat _ _) W)).dot
          (DMat.ofMat (oo.proj p.r p.d (sh i) (a.X.X.toMat _ _) W)) := rfl
      rw [← e2]
      linarith
    · rw [← hW]
      have : PArr.norm (DMat.ofMat (oo.proj p.r p.d (sh i) (a.X.X.toMat _ _) W)) = PArr.norm (DMat.ofMat W) := by
        unfold PArr.norm
        rw [h3]
      rw [this]
      have := mul_nonneg hL0.le (DMat.norm_nonneg (DMat.ofMat W))
      linarith
  · rw [hw]
    have bounds : ∀ U : DMat ℝ, DMat.Fits p.r ((p.d + 1) * sh i) U →
        1 / 10 * U.normSq ≤ (U.mul (precondMatrix Q)).dot U ∧
          (U.mul (precondMatrix Q)).dot U ≤ (L + 1 / 10) * U.normSq := by
      intro U hU
      rw [mul_precond_dot hQr hQc hU, form U hU.1 hU.2]
      have h1 := hpos (only i U)
      have h2 := hL U hU.1 hU.2
      have h3 : U.normSq = U.dot U := rfl
      rw [← h3]
      constructor <;> linarith
    generalize hgr : oo.proj p.r p.d (sh i) (a.X.X.toMat _ _) ((eucGrad Q G a.X.X).toMat _ _) = gr at *
    have fV := ofMat_fits (oo.proj p.r p.d (sh i) (a.X.X.toMat _ _) W)
    have fW := ofMat_fits W
    have fg := ofMat_fits gr
    have k1 := (bounds _ fW).1
    have psym : ∀ x y, (precondMatrix Q).v x y = (precondMatrix Q).v y x := by
      intro x y
      unfold precondMatrix
      simp only [eq_comm (a := y) (b := x), hsym x y]
    have hsolve : ∀ ρ < p.r, ∀ j < (p.d + 1) * sh i,
        ((DMat.ofMat W).mul (precondMatrix Q)).v ρ j = (DMat.ofMat gr).v ρ j := by
      have := hex p.r p.d (sh i) (precondMatrix Q) gr hQr hQc psym (by
        rintro U u1 u2 ⟨x, hx, y, hy, hne⟩
        refine lt_of_lt_of_le ?_ (bounds U ⟨u1, u2⟩).1
        have h1 := entry_sq_le (V := U) (ρ := x) (j := y) (by rw [u1]; exact hx) (by rw [u2]; exact hy)
        have h2 : 0 < U.v x y ^ 2 := by positivity
        linarith)
      rw [← hW] at this
      intro ρ hρ j hj
      have h1 := congrFun (congrFun this ⟨ρ, hρ⟩) ⟨j, hj⟩
      rw [Matrix.mul_apply] at h1
      rw [show (DMat.ofMat gr).v ρ j = gr ⟨ρ, hρ⟩ ⟨j, hj⟩ from dif_pos ⟨hρ, hj⟩, ← h1]
      show ∑ k ∈ range ((p.d + 1) * sh i), (DMat.ofMat W).v ρ k * (precondMatrix Q).v k j = _
      rw [← Fin.sum_univ_eq_sum_range (fun k => (DMat.ofMat W).v ρ k * (precondMatrix Q).v k j)]
      refine sum_congr rfl fun k _ => ?_
      rw [show (DMat.ofMat W).v ρ k = W ⟨ρ, hρ⟩ k from dif_pos ⟨hρ, k.2⟩]
      rfl
    have fP : DMat.Fits p.r ((p.d + 1) * sh i) ((DMat.ofMat W).mul (precondMatrix Q)) := ⟨rfl, hQc⟩
    have hdot : ((DMat.ofMat W).mul (precondMatrix Q)).dot (DMat.ofMat W) = (DMat.ofMat gr).dot (DMat.ofMat W) := by
      unfold DMat.dot
      rw [fP.1, fP.2, fg.1, fg.2]
      refine sum_congr rfl fun x hx => sum_congr rfl fun y hy => ?_
      rw [hsolve x (mem_range.1 hx) y (mem_range.1 hy)]
    have k2 := form_bound (lam := L + 1 / 10) (r := p.r) (P := precondMatrix Q) hQr hQc psym (by positivity) (fun V hV => ⟨le_trans (by
        have := normSq_nonneg V
        positivity) (bounds V hV).1, (bounds V hV).2⟩) fW
    rw [hdot] at k1 k2
    rw [DMat.normSq_congr fP fg hsolve] at k2
    -- the step has the same product with the gradient as the solution
    have k3 : (DMat.ofMat gr).dot (DMat.ofMat W) =
        (DMat.ofMat gr).dot (DMat.ofMat (oo.proj p.r p.d (sh i) (a.X.X.toMat _ _) W)) := by
      have := idem W ((eucGrad Q G a.X.X).toMat _ _)
      rw [hgr] at this
      rw [dot_comm_of fg fW, this, dot_comm_of fV fg]
    have k4 : PArr.norm (DMat.ofMat (oo.proj p.r p.d (sh i) (a.X.X.toMat _ _) W)) ≤ PArr.norm (DMat.ofMat W) := by
      have := (le_abs_self _).trans (DMat.abs_dot_le fW fV)
      rw [idem W W] at this
      have e2 : (DMat.ofMat (oo.proj p.r p.d (sh i) (a.X.X.toMat _ _) W)).dot
          (DMat.ofMat (oo.proj p.r p.d (sh i) (a.X.X.toMat _ _) W)) =
          PArr.norm (DMat.ofMat (oo.proj p.r p.d (sh i) (a.X.X.toMat _ _) W)) ^ 2 := (DMat.norm_sq _).symm
      rw [e2, sq] at this
      by_contra hc
      push Not at hc
      have hn := DMat.norm_nonneg (DMat.ofMat W)
      have := le_of_mul_le_mul_right this (hn.trans_lt hc)
      linarith
    refine ⟨_, _, gradStep_of hπ ht hγ hfe' hG W ?_ ?_⟩
    · rw [hgr, ← k3]
      refine le_trans ?_ k1
      have := pow_le_pow_left₀ (DMat.norm_nonneg _) k4 2
      rw [DMat.norm_sq, DMat.norm_sq] at this
      linarith
    · rw [hgr]
      have hab := (le_abs_self _).trans (DMat.abs_dot_le fg fV)
      rw [← k3] at hab
      have hn := DMat.norm_nonneg (DMat.ofMat gr)
      have hv := DMat.norm_nonneg (DMat.ofMat (oo.proj p.r p.d (sh i) (a.X.X.toMat _ _) W))
      rw [← DMat.norm_sq] at k2
      have h5 := k2.trans (mul_le_mul_of_nonneg_left hab (by positivity))
      by_contra hc
      push Not at hc
      have hpos' : 0 < PArr.norm (DMat.ofMat gr) := lt_of_le_of_lt (by positivity) hc
      have h6 : PArr.norm (DMat.ofMat gr) ≤ (L + 1 / 10) *
          PArr.norm (DMat.ofMat (oo.proj p.r p.d (sh i) (a.X.X.toMat _ _) W)) := by
        refine le_of_mul_le_mul_left ?_ hpos'
        linarith
      linarith

end

section
variable {o : AgentOracles} {p : AgentParams} {E : List (Meas ℝ)} {N : Nat} {s : Net}

theorem asyncHyp_plain (hd : 0 < p.d) (hp : p.acceleration = false) (hl : p.robust.costType = .L2)
    (hrgd : p.localOpt.method = .RGD) (hpre : p.localOpt.RGDUsePreconditioner = false)
    (hfs : FeasibleSolver o p) {π : PoseProj} (hπ : ∀ c, ActsPosewise π (o.opt c))
    {L α β : ℝ} (hL0 : 0 < L) (hα : 0 ≤ α) (hβ : 0 ≤ β) (ht : ∀ c, Tame α β (o.opt c)) {B : Nat}
    (hγ : 0 < p.localOpt.RGDStepsize)
    (hsm : p.localOpt.RGDStepsize *
      (β * Real.sqrt (2 * L * teamCost p.r p.d E s.estimate) + α ^ 2 * L / 2 + L * α * B) ≤ 1 / 2)
    (hE : ∀ m ∈ E, m.r1 < N ∧ m.r2 < N) (hpr : Precise E) (hw : ∀ m ∈ E, 0 ≤ m.weight)
    (hL : ∀ i < N, SmoothFor p.r p.d (s.agents i).graph.n E i L) :
    AsyncHyp o p E N (fun i => (s.agents i).graph.n) π L α β 1 1 (teamCost p.r p.d E s.estimate) B where
  hd := hd
  hp := hp
  hl := hl
  pos := teamCost_nonneg hpr hw
  hE := hE
  L0 := hL0
  smooth := hL
  α0 := hα
  β0 := hβ
  μ0 := one_pos
  ν0 := zero_le_one
  γ0 := hγ
  small := hsm
  feas := hfs
  step := fun _ h hX hf hup e => h.gradient hd hp hl hrgd hpre hγ.le hπ ht hX hf hup e

theorem asyncHyp_preconditioned (hd : 0 < p.d) (hp : p.acceleration = false) (hl : p.robust.costType = .L2)
    (hrgd : p.localOpt.method = .RGD) (hpre : p.localOpt.RGDUsePreconditioner = true)
    (hfs : FeasibleSolver o p) {π : PoseProj} (hπ : ∀ c, ActsPosewise π (o.opt c))
    {L α β : ℝ} (hL0 : 0 < L) (hα : 0 ≤ α) (hβ : 0 ≤ β) (ht : ∀ c, Tame α β (o.opt c))
    (hex : ∀ c, ExactSolve (o.opt c)) {B : Nat}
    (hγ : 0 < p.localOpt.RGDStepsize)
    (hsm : p.localOpt.RGDStepsize *
      (β * Real.sqrt (2 * L * teamCost p.r p.d E s.estimate) + α ^ 2 * L / 2 + L * α * B) ≤ 1 / 20)
    (hE : ∀ m ∈ E, m.r1 < N ∧ m.r2 < N) (hpr : Precise E) (hw : ∀ m ∈ E, 0 ≤ m.weight)
    (hL : ∀ i < N, SmoothFor p.r p.d (s.agents i).graph.n E i L) :
    AsyncHyp o p E N (fun i => (s.agents i).graph.n) π L α β (1 / 10) (L + 1)
      (teamCost p.r p.d E s.estimate) B where
  hd := hd
  hp := hp
  hl := hl
  pos := teamCost_nonneg hpr hw
  hE := hE
  L0 := hL0
  smooth := hL
  α0 := hα
  β0 := hβ
  μ0 := by norm_num
  ν0 := by positivity
  γ0 := hγ
  small := by linarith
  feas := hfs
  step := fun hi h hX hf hup e => h.preconditioned hd hp hl hrgd hpre hγ.le hπ ht hex hL0 (teamCost_nonneg hpr hw)
    (hL _ hi) hX hf hup e

end

/-- Solving by the inverse matrix. -/
def inverting (o : OptOracles) : OptOracles :=
  { o with chol := fun _ => true, cholSolve := fun _ d n P V => V * (P.toMat ((d + 1) * n) ((d + 1) * n))⁻¹ }

theorem inverting_exact (o : OptOracles) : ExactSolve (inverting o) := by
  intro r d n P V hr hc hs hpos
  show V * (P.toMat ((d + 1) * n) ((d + 1) * n))⁻¹ * P.toMat _ _ = V
  rcases Nat.eq_zero_or_pos r with rfl | h0
  · ext i; exact i.elim0
  have hdet : IsUnit (P.toMat ((d + 1) * n) ((d + 1) * n)).det := by
    rw [isUnit_iff_ne_zero]
    intro hz
    obtain ⟨x, hx, hx'⟩ := Matrix.exists_vecMul_eq_zero_iff.2 hz
    obtain ⟨j, hj⟩ := Function.ne_iff.1 hx
    let U : LVar r d n := Matrix.of fun i k => if i.1 = 0 then x k else 0
    have := hpos (DMat.ofMat U) rfl rfl ⟨0, h0, j, j.2, by
      rw [show (DMat.ofMat U).v 0 j = U ⟨0, h0⟩ j from dif_pos ⟨h0, j.2⟩]
      exact hj⟩
    refine absurd this (not_lt.2 (le_of_eq ?_))
    unfold DMat.dot
    refine sum_eq_zero fun ρ hρ => sum_eq_zero fun k hk => ?_
    have hρ : ρ < r := mem_range.1 hρ
    have hk : k < (d + 1) * n := by
      have : ((DMat.ofMat U).mul P).cols = P.cols := rfl
      rw [this, hc] at hk
      exact mem_range.1 hk
    rw [show ((DMat.ofMat U).mul P).v ρ k = 0 by
      show ∑ l ∈ range ((d + 1) * n), (DMat.ofMat U).v ρ l * P.v l k = 0
      rw [← Fin.sum_univ_eq_sum_range (fun l => (DMat.ofMat U).v ρ l * P.v l k)]
      by_cases h : ρ = 0
      · have := congrFun hx' ⟨k, hk⟩
        refine Eq.trans (sum_congr rfl fun l _ => ?_) this
        rw [show (DMat.ofMat U).v ρ l = U ⟨ρ, hρ⟩ l from dif_pos ⟨hρ, l.2⟩]
        show (if ρ = 0 then x l else 0) * _ = _
        rw [if_pos h]
        rfl
      · refine sum_eq_zero fun l _ => ?_
        rw [show (DMat.ofMat U).v ρ l = U ⟨ρ, hρ⟩ l from dif_pos ⟨hρ, l.2⟩]
        show (if ρ = 0 then x l else 0) * _ = _
        rw [if_neg h, zero_mul], zero_mul]
  rw [Matrix.mul_assoc, Matrix.nonsing_inv_mul _ hdet, Matrix.mul_one]

end

end Dpgo
