import Verif.Lemmas.AsyncTeam
import Verif.Lemmas.StiefelSteady
import Mathlib.Topology.Order.MonotoneConvergence
import Mathlib.Topology.Instances.Real.Lemmas

/-! # All gradients vanish together -/

namespace Dpgo

open Res Spec PoseGraph Finset

noncomputable section

/-! ### Gradients exist, and change little -/

section
variable {r d n i : Nat} {E : List (Meas ℝ)} {L : ℝ}

/-- The only entry `x` of a matrix. -/
def entry (r c : Nat) (x : Nat × Nat) : DMat ℝ := ⟨r, c, fun ρ j => if (ρ, j) = x then 1 else 0⟩

/-- Some of the entries of a matrix. -/
def part (S : Finset (Nat × Nat)) (V : DMat ℝ) : DMat ℝ := ⟨V.rows, V.cols, fun ρ j => if (ρ, j) ∈ S then V.v ρ j else 0⟩

theorem teamForm_part (X : Joint ℝ) (i c : Nat) (V : DMat ℝ) (S : Finset (Nat × Nat)) :
    teamForm r d E X (only i (part S V)) = ∑ x ∈ S, V.v x.1 x.2 * teamForm r d E X (only i (entry r c x)) := by
  classical
  induction S using Finset.induction_on with
  | empty =>
    rw [sum_empty, teamForm_comm]
    have := teamForm_add (r := r) (d := d) (E := E) (X := only i (part ∅ V)) (Y := only i (part ∅ V))
      (Z := only i (part ∅ V)) (s := -1) (fun j ρ c => by
        by_cases e : j = i
        · subst e
          rw [only, Function.update_self]
          simp [part]
        · rw [only, Function.update_of_ne e]
          simp [DMat.zero]) X
    linarith
  | insert x S hx ih =>
    rw [sum_insert hx, teamForm_comm]
    rw [teamForm_add (X := only i (part S V)) (Y := only i (entry r c x)) (s := V.v x.1 x.2) (fun j ρ c' => by
        by_cases e : j = i
        · subst e
          rw [only, Function.update_self, only, Function.update_self, only, Function.update_self]
          unfold part entry
          simp only [mem_insert]
          by_cases h : (ρ, c') = x
          · subst h
            simp [hx]
          · simp [h]
        · rw [only, Function.update_of_ne e, only, Function.update_of_ne e, only, Function.update_of_ne e]
          simp [DMat.zero]) X, teamForm_comm _ X, teamForm_comm _ X, ih]
    ring

/-- Every point has a gradient with respect to each robot. -/
theorem blockGradient_exists (hpos : ∀ Y, 0 ≤ teamCost r d E Y) (hL0 : 0 ≤ L) (hL : SmoothFor r d n E i L)
    (X : Joint ℝ) : ∃ Gr, IsBlockGradient r d n E X i Gr := by
  let Gr : DMat ℝ := ⟨r, (d + 1) * n, fun ρ j => teamForm r d E X (only i (entry r ((d + 1) * n) (ρ, j)))⟩
  refine ⟨Gr, rfl, rfl, fun V h1 h2 => ?_⟩
  rw [teamCost_add (X := X) (Y := only i V) (s := 1) fun j ρ c => by
    by_cases e : j = i
    · subst e
      rw [Function.update_self, only, Function.update_self]
      simp [DMat.add]
    · rw [Function.update_of_ne e, only, Function.update_of_ne e]
      simp [DMat.zero]]
  have hdot : Gr.dot V = teamForm r d E X (only i (part (range r ×ˢ range ((d + 1) * n)) V)) := by
    rw [teamForm_part X i ((d + 1) * n), sum_product]
    unfold DMat.dot
    refine sum_congr rfl fun ρ _ => sum_congr rfl fun j _ => ?_
    exact mul_comm _ _
  -- the rest of `V` is not read
  have hrest : teamForm r d E X (only i V) = teamForm r d E X (only i (part (range r ×ˢ range ((d + 1) * n)) V)) := by
    let W := V.sub (part (range r ×ˢ range ((d + 1) * n)) V)
    have hW : DMat.Fits r ((d + 1) * n) W := ⟨h1, h2⟩
    have h0 : PArr.norm W = 0 := by
      have : W.normSq = (DMat.zero r ((d + 1) * n) : DMat ℝ).normSq := by
        refine DMat.normSq_congr hW ⟨rfl, rfl⟩ fun ρ hρ j hj => ?_
        simp only [W, DMat.sub, part, DMat.zero, mem_product, mem_range]
        rw [if_pos ⟨hρ, hj⟩, sub_self]
      unfold PArr.norm
      rw [this]
      unfold DMat.normSq DMat.zero
      simp
    have hz : teamForm r d E X (only i W) = 0 := by
      have h3 := costNorm_only hL hL0 hW
      rw [h0, mul_zero] at h3
      have h4 := abs_teamForm_le hpos X (only i W)
      rw [le_antisymm h3 (costNorm_nonneg _), mul_zero] at h4
      exact abs_nonpos_iff.1 h4
    rw [teamForm_comm, teamForm_add (X := only i (part (range r ×ˢ range ((d + 1) * n)) V)) (Y := only i W) (s := 1)
      (fun j ρ c' => by
        by_cases e : j = i
        · subst e
          rw [only, Function.update_self, only, Function.update_self, only, Function.update_self]
          simp [W, DMat.sub]
        · rw [only, Function.update_of_ne e, only, Function.update_of_ne e, only, Function.update_of_ne e]
          simp [DMat.zero]) X, teamForm_comm _ X, teamForm_comm _ X, hz]
    ring
  rw [hdot, hrest]
  ring

/-- Gradients at nearby points. -/
theorem blockGradient_close (hpos : ∀ Y, 0 ≤ teamCost r d E Y) (hL0 : 0 ≤ L) (hL : SmoothFor r d n E i L)
    {X X' D : Joint ℝ} (hD : ∀ j ρ c, (X' j).v ρ c = (X j).v ρ c + (D j).v ρ c) {G G' : DMat ℝ}
    (h : IsBlockGradient r d n E X i G) (h' : IsBlockGradient r d n E X' i G') :
    PArr.norm (G'.sub G) ≤ Real.sqrt L * costNorm r d E D := by
  have hG : DMat.Fits r ((d + 1) * n) G := ⟨h.1, h.2.1⟩
  have hG' : DMat.Fits r ((d + 1) * n) G' := ⟨h'.1, h'.2.1⟩
  have hW : DMat.Fits r ((d + 1) * n) (G'.sub G) := ⟨h'.1, h'.2.1⟩
  have e1 : (G'.sub G).normSq = G'.dot (G'.sub G) - G.dot (G'.sub G) := by
    unfold DMat.normSq DMat.dot
    rw [hG.1, hG.2, hG'.1, hG'.2, hW.1, hW.2]
    simp only [← sum_sub_distrib, DMat.sub]
    refine sum_congr rfl fun _ _ => sum_congr rfl fun _ _ => ?_
    ring
  have e2 : G'.dot (G'.sub G) - G.dot (G'.sub G) = teamForm r d E D (only i (G'.sub G)) := by
    rw [blockGradient_form h hW, blockGradient_form h' hW,
      teamForm_add (X := X) (Y := D) (Z := X') (s := 1) (fun j ρ c => by rw [hD, one_mul])]
    ring
  have h1 := (le_abs_self _).trans (abs_teamForm_le hpos D (only i (G'.sub G)))
  rw [← e2, ← e1, ← DMat.norm_sq, sq] at h1
  have h2 := h1.trans (mul_le_mul_of_nonneg_left (costNorm_only hL hL0 hW) (costNorm_nonneg _))
  rcases (DMat.norm_nonneg (G'.sub G)).eq_or_lt with h0 | h0
  · rw [← h0]
    exact mul_nonneg (Real.sqrt_nonneg _) (costNorm_nonneg _)
  · refine le_of_mul_le_mul_right (h2.trans (le_of_eq ?_)) h0
    ring

end

section
variable {r d i : Nat} {E : List (Meas ℝ)} {L : ℝ}

/-- Projected gradients at two places, for robots that are close by at both. -/
theorem slope_close {o : AgentOracles} {π : PoseProj} (hπ : ∀ c, ActsPosewise π (o.opt c)) {C : ℝ} (hC : 0 ≤ C)
    (hst : ∀ c, Steady C (o.opt c)) (hpos : ∀ Y, 0 ≤ teamCost r d E Y) (hL : 0 < L) {N : Nat} {sh : Nat → Nat}
    (hsm : ∀ i < N, SmoothFor r d (sh i) E i L) (hE : ∀ m ∈ E, m.r1 < N ∧ m.r2 < N) {X X' : Joint ℝ}
    (hfit : ∀ j < N, DMat.Fits r ((d + 1) * sh j) (X' j)) {η f₀ : ℝ}
    (hη : ∀ j < N, PArr.norm ((X' j).sub (X j)) ≤ η) (hf : teamCost r d E X ≤ f₀) (hi : i < N)
    (hY : Orthonormal r d (sh i) ⟨r, d, sh i, X i⟩) (hY' : Orthonormal r d (sh i) ⟨r, d, sh i, X' i⟩) {G G' : DMat ℝ}
    (hG : IsBlockGradient r d (sh i) E X i G) (hG' : IsBlockGradient r d (sh i) E X' i G') :
    Real.sqrt (slopeSq π r d (sh i) (X' i) G') ≤ Real.sqrt (slopeSq π r d (sh i) (X i) G) +
      (L * N + C * Real.sqrt (2 * L * f₀)) * η := by
  have hη0 : 0 ≤ η := (DMat.norm_nonneg _).trans (hη i hi)
  have hD : costNorm r d E (fun j => if j < N then (X' j).sub (X j) else DMat.zero 0 0) ≤ Real.sqrt L * (N * η) := by
    refine (costNorm_sum_le hpos N fun j => (X' j).sub (X j)).trans ?_
    refine (sum_le_sum (g := fun _ => Real.sqrt L * η) fun j hj => ?_).trans ?_
    · rw [mem_range] at hj
      refine (costNorm_only (hsm j hj) hL.le (V := (X' j).sub (X j)) ⟨(hfit j hj).1, (hfit j hj).2⟩).trans ?_
      exact mul_le_mul_of_nonneg_left (hη j hj) (Real.sqrt_nonneg _)
    · rw [sum_const, card_range, nsmul_eq_mul]
      exact le_of_eq (by ring)
  -- robots outside the team do not matter
  have hG'' : IsBlockGradient r d (sh i) E (fun j => if j < N then X' j else X j) i G' := by
    refine ⟨hG'.1, hG'.2.1, fun V h1 h2 => ?_⟩
    have := hG'.2.2 V h1 h2
    rw [show teamCost r d E (fun j => if j < N then X' j else X j) = teamCost r d E X' from
      teamCost_congr fun m hm => by simp [hE m hm], ← this]
    refine teamCost_congr fun m hm => ?_
    have hN := hE m hm
    constructor
    · by_cases c : m.r1 = i
      · rw [c, Function.update_self, Function.update_self]
        simp only [hi, if_true]
      · rw [Function.update_of_ne c, Function.update_of_ne c, if_pos hN.1]
    · by_cases c : m.r2 = i
      · rw [c, Function.update_self, Function.update_self]
        simp only [hi, if_true]
      · rw [Function.update_of_ne c, Function.update_of_ne c, if_pos hN.2]
  have hclose : PArr.norm (G'.sub G) ≤ L * N * η := by
    refine (blockGradient_close hpos hL.le (hsm i hi)
      (D := fun j => if j < N then (X' j).sub (X j) else DMat.zero 0 0) (fun j ρ c => ?_) hG hG'').trans ?_
    · by_cases hj : j < N
      · simp only [hj, if_true, DMat.sub]
        ring
      · simp only [hj, if_false, DMat.zero, add_zero]
    · refine (mul_le_mul_of_nonneg_left hD (Real.sqrt_nonneg _)).trans (le_of_eq ?_)
      rw [← mul_assoc, Real.mul_self_sqrt hL.le]
      ring
  have hGn : PArr.norm G ≤ Real.sqrt (2 * L * f₀) :=
    Real.sqrt_le_sqrt ((blockGradient_bound hL hpos (hsm i hi) hG).trans
      (mul_le_mul_of_nonneg_left hf (by linarith)))
  have hsub : ∀ A A' : DMat ℝ, DMat.Fits r ((d + 1) * sh i) A →
      PArr.norm (DMat.ofMat (A.toMat r ((d + 1) * sh i) - A'.toMat _ _)) = PArr.norm (A.sub A') := by
    intro A A' hA
    refine DMat.norm_congr (r := r) (c := (d + 1) * sh i) ⟨rfl, rfl⟩ ⟨hA.1, hA.2⟩ fun ρ hρ j hj => ?_
    simp only [DMat.ofMat, DMat.sub, DMat.toMat]
    rw [dif_pos ⟨hρ, hj⟩]
    rfl
  have hVn : PArr.norm (DMat.ofMat (G.toMat r ((d + 1) * sh i))) = PArr.norm G :=
    DMat.norm_congr (r := r) (c := (d + 1) * sh i) ⟨rfl, rfl⟩ ⟨hG.1, hG.2.1⟩ fun ρ hρ j hj => ofMat_toMat_v hρ hj
  have hfin := hst 0 r d (sh i) ((X i).toMat _ _) ((X' i).toMat _ _) (G.toMat _ _) (G'.toMat _ _)
    (orthonormal_through hY) (orthonormal_through hY')
  rw [hsub _ _ ⟨hG'.1, hG'.2.1⟩, hsub _ _ (hfit i hi), hVn] at hfin
  have h1 : C * PArr.norm ((X' i).sub (X i)) * PArr.norm G ≤ C * η * Real.sqrt (2 * L * f₀) :=
    mul_le_mul (mul_le_mul_of_nonneg_left (hη i hi) hC) hGn (DMat.norm_nonneg _) (by positivity)
  unfold PArr.norm at hfin h1 hclose
  rw [slope_eq (hπ 0), slope_eq (hπ 0)] at hfin
  linarith

end

/-! ### The whole run -/

/-- Increments of a bounded increasing sequence vanish. -/
theorem increments_small {q : Nat → ℝ} (hq : Monotone q) {b : ℝ} (hb : ∀ k, q k ≤ b) {δ : ℝ} (hδ : 0 < δ) :
    ∃ k₀, ∀ k ≥ k₀, q (k + 1) - q k < δ := by
  have hbd : BddAbove (Set.range q) := ⟨b, by rintro _ ⟨k, rfl⟩; exact hb k⟩
  have ht := tendsto_atTop_ciSup hq hbd
  obtain ⟨k₀, h⟩ := (Metric.tendsto_atTop.1 ht) δ hδ
  refine ⟨k₀, fun k hk => ?_⟩
  have h1 := h k hk
  rw [Real.dist_eq, abs_lt] at h1
  have h2 := le_ciSup hbd (k + 1)
  linarith

section
variable {o : AgentOracles} {p : AgentParams} {E : List (Meas ℝ)} {N : Nat} {π : PoseProj}
  {L α β μ ν f₀ ε C : ℝ} {B T : Nat} {s : Net}

/-- Every optimisation of the run, and late steps are short. -/
theorem AsyncHyp.short (hy : AsyncHyp o p E N (fun i => (s.agents i).graph.n) π L α β μ ν f₀ B)
    (hf : f₀ = teamCost p.r p.d E s.estimate) (h : ∀ i < N, OnDuty o p E i (s.agents i)) (hm : s.mail = [])
    (hfe : ∀ i < N, Orthonormal p.r p.d (s.agents i).graph.n (s.agents i).X) (sched : Nat → NetOp)
    (hs : ∀ k, Sound N (Clock.after ((List.range k).map sched)) (sched k))
    (hr : ∀ k, Recent E B ((List.range k).map sched) (sched k)) :
    ∃ u : Nat → Net, (∀ k, NetInv o p E (fun i => (s.agents i).graph.n) N s ((List.range k).map sched) (u k)) ∧
      (∀ k, ∀ j < N, Orthonormal p.r p.d (s.agents j).graph.n ((u k).agents j).X) ∧
      (∀ k, teamCost p.r p.d E (u k).estimate ≤ f₀) ∧
      ∀ δ > 0, ∃ k₀, ∀ k ≥ k₀, ∀ j < N, PArr.norm (((u (k + 1)).estimate j).sub ((u k).estimate j)) ≤ δ := by
  have ho : p.acceleration = true → AccelOk p := fun c => by rw [hy.hp] at c; cases c
  have split : ∀ k, (List.range (k + 1)).map sched = (List.range k).map sched ++ [sched k] := by
    intro k
    rw [List.range_succ, List.map_append, List.map_cons, List.map_nil]
  have always : ∀ k, Always (Sound N) ((List.range k).map sched) := by
    intro k
    induction k with
    | zero => exact Always.nil _
    | succ k ih =>
      rw [split]
      exact Always.snoc ih (hs k)
  choose u hu using fun k => NetInv.all hy.hd hy.hl ho h hm (always k)
  have base : ∃ H, AsyncInv o p E N (fun i => (s.agents i).graph.n) π L α μ ν f₀ 0 B s ((List.range 0).map sched) (u 0) H :=
    AsyncInv.all hy le_rfl hf h hm hfe (always 0) (Throughout.nil _) (hu 0).run
  have next : ∀ k H, AsyncInv o p E N (fun i => (s.agents i).graph.n) π L α μ ν f₀ 0 B s ((List.range k).map sched) (u k) H →
      ∃ H', AsyncInv o p E N (fun i => (s.agents i).graph.n) π L α μ ν f₀ 0 B s ((List.range (k + 1)).map sched) (u (k + 1)) H' ∧
        (H' = H ∨ ∃ x, H' = x :: H) := by
    intro k H hH
    have hu' := hu (k + 1)
    rw [split] at hu' ⊢
    by_cases c : ∃ i, sched k = .iterate i true
    · obtain ⟨i, hi⟩ := c
      have s2 := hs k
      have r2 := hr k
      rw [hi] at s2 r2 hu' ⊢
      obtain ⟨v, hv⟩ := hH.moves hy (fun _ _ => rfl) le_rfl (hu k) hu' s2 r2
      exact ⟨_, hv, Or.inr ⟨_, rfl⟩⟩
    · exact ⟨H, hH.idle hy (hu k) hu' fun i e => c ⟨i, e⟩, Or.inl rfl⟩
  choose H₀ hH₀ using base
  choose f hf1 hf2 using next
  let Hs : (k : Nat) → { H // AsyncInv o p E N (fun i => (s.agents i).graph.n) π L α μ ν f₀ 0 B s
      ((List.range k).map sched) (u k) H } :=
    fun k => Nat.rec ⟨H₀, hH₀⟩ (fun k x => ⟨f k x.1 x.2, hf1 k x.1 x.2⟩) k
  have hstep : ∀ k, (Hs (k + 1)).1 = (Hs k).1 ∨ ∃ x, (Hs (k + 1)).1 = x :: (Hs k).1 := fun k => hf2 k _ (Hs k).2
  have hγ := hy.γ0
  have hμ := hy.μ0
  have hpot : ∀ k, 0 ≤ L / 2 * α * p.localOpt.RGDStepsize ^ 2 * pot B (squares (Hs k).1) := fun k =>
    mul_nonneg (mul_nonneg (mul_nonneg (by have := hy.L0; linarith) hy.α0) (sq_nonneg _)) (pot_nonneg (squares_nonneg _))
  have hsq : ∀ k, 0 ≤ p.localOpt.RGDStepsize * μ / 2 * (squares (Hs k).1).sum := fun k =>
    mul_nonneg (by positivity) (List.sum_nonneg (squares_nonneg _))
  refine ⟨u, hu, fun k => (Hs k).2.stiefel, fun k => by linarith [(Hs k).2.energy, hpot k, hsq k], fun δ hδ => ?_⟩
  have hmono : Monotone fun k => (squares (Hs k).1).sum := by
    refine monotone_nat_of_le_succ fun k => ?_
    rcases hstep k with e | ⟨x, e⟩
    · simp only [e, le_refl]
    · simp only [e, squares, List.map_cons, List.sum_cons]
      linarith [sq_nonneg x.2]
  have hbound : ∀ k, (squares (Hs k).1).sum ≤ f₀ / (p.localOpt.RGDStepsize * μ / 2) := by
    intro k
    rw [le_div_iff₀ (by positivity)]
    linarith [(Hs k).2.energy, hpot k, hy.pos (u k).estimate]
  have hαγ := mul_nonneg hy.α0 hγ.le
  have hη : 0 < δ / (α * p.localOpt.RGDStepsize + 1) := by positivity
  obtain ⟨k₀, hk₀⟩ := increments_small hmono hbound (pow_pos hη 2)
  refine ⟨k₀, fun k hk j hj => ?_⟩
  have hwas : Was o s ((List.range (k + 1)).map sched) j ((Clock.after ((List.range k).map sched)).moves j)
      ((u k).agents j).X := ⟨_, u k, by rw [split]; exact List.prefix_append _ _, (hu k).run, rfl, rfl⟩
  have hd := ((Hs (k + 1)).2.drift j hj _ _ hwas).2
  refine le_trans hd ?_
  have hdiff : (Clock.after ((List.range (k + 1)).map sched)).moves j - (Clock.after ((List.range k).map sched)).moves j =
      if sched k = .iterate j true then 1 else 0 := by
    rw [split, Clock.after_snoc, Clock.moves_tick]
    split <;> omega
  rw [hdiff]
  by_cases c : sched k = .iterate j true
  · rw [if_pos c]
    have hnm := (Hs (k + 1)).2.names
    have hops : optimisers ((List.range (k + 1)).map sched) = j :: optimisers ((List.range k).map sched) := by
      rw [split, optimisers_snoc, c]
    rw [hops, ← (Hs k).2.names] at hnm
    rcases hstep k with e | ⟨x, e⟩
    · rw [e] at hnm
      have := congrArg List.length hnm
      simp at this
    · rw [e, List.map_cons, List.cons.injEq] at hnm
      have hinc := hk₀ k hk
      have hx0 : 0 ≤ x.2 := (Hs (k + 1)).2.nonneg x (by rw [e]; simp)
      simp only [e, squares, List.map_cons, List.sum_cons] at hinc
      have hx : x.2 < δ / (α * p.localOpt.RGDStepsize + 1) := by
        refine lt_of_pow_lt_pow_left₀ 2 hη.le ?_
        linarith
      rw [e, List.filter_cons_of_pos (by simp [hnm.1]), List.map_cons, List.take_succ_cons, List.take_zero,
        List.sum_cons, List.sum_nil, add_zero]
      calc α * p.localOpt.RGDStepsize * x.2 ≤ (α * p.localOpt.RGDStepsize + 1) * (δ / (α * p.localOpt.RGDStepsize + 1)) :=
            mul_le_mul (by linarith) hx.le hx0 (by linarith)
        _ = δ := mul_div_cancel₀ _ (by positivity)
  · rw [if_neg c, List.take_zero, List.sum_nil, mul_zero]
    exact hδ.le

/-- All robots, at all late times. -/
theorem AsyncHyp.critical (hy : AsyncHyp o p E N (fun i => (s.agents i).graph.n) π L α β μ ν f₀ B) (hε : 0 < ε)
    (hπ : ∀ c, ActsPosewise π (o.opt c)) (hC : 0 ≤ C) (hst : ∀ c, Steady C (o.opt c))
    (hf : f₀ = teamCost p.r p.d E s.estimate) (h : ∀ i < N, OnDuty o p E i (s.agents i)) (hm : s.mail = [])
    (hfe : ∀ i < N, Orthonormal p.r p.d (s.agents i).graph.n (s.agents i).X) (sched : Nat → NetOp)
    (hs : ∀ k, Sound N (Clock.after ((List.range k).map sched)) (sched k))
    (hr : ∀ k, Recent E B ((List.range k).map sched) (sched k)) (ha : Active N T sched) :
    ∃ k₀, ∀ k ≥ k₀, ∀ i < N, ∀ t Gr, netRun o s ((List.range k).map sched) = ok t →
      IsBlockGradient p.r p.d (s.agents i).graph.n E t.estimate i Gr →
      Real.sqrt (slopeSq π p.r p.d (s.agents i).graph.n (t.estimate i) Gr) < ε := by
  obtain ⟨u, hu, hsti, hcost, hshort⟩ := hy.short hf h hm hfe sched hs hr
  obtain ⟨k₁, hk₁⟩ := hy.settles (half_pos hε) hf h hm hfe sched hs hr
  have hL := hy.L0
  -- lipschitz constant of a window
  let K : ℝ := L * (N * T) + C * T * Real.sqrt (2 * L * f₀)
  have hK : 0 ≤ K := by positivity
  have hδ : 0 < ε / (2 * (K + 1)) := by positivity
  obtain ⟨k₂, hk₂⟩ := hshort _ hδ
  generalize hδe : ε / (2 * (K + 1)) = δ at *
  have hKδ : K * δ < ε / 2 := by
    rw [← hδe, mul_div_assoc', div_lt_div_iff₀ (by positivity) (by norm_num)]
    nlinarith
  have fits : ∀ k, ∀ j < N, DMat.Fits p.r ((p.d + 1) * (s.agents j).graph.n) ((u k).estimate j) := by
    intro k j hj
    obtain ⟨x, hx⟩ := (hu k).member j hj
    exact ⟨hx.arr.2.2.2.1, hx.arr.2.2.2.2⟩
  have window : ∀ e ≥ k₂, ∀ m, ∀ j < N, PArr.norm (((u (e + m)).estimate j).sub ((u e).estimate j)) ≤ m * δ := by
    intro e he m j hj
    induction m with
    | zero =>
      rw [Nat.add_zero, norm_self_sub]
      simp
    | succ m ih =>
      have h1 := DMat.norm_sub_le (A := (u (e + (m + 1))).estimate j) (B := (u (e + m)).estimate j)
        (C := (u e).estimate j) (fits _ j hj) (fits _ j hj)
      have h2 := hk₂ (e + m) (by omega) j hj
      rw [show e + m + 1 = e + (m + 1) by omega] at h2
      push_cast
      linarith
  refine ⟨max k₁ k₂ + T, fun k hk i hi t Gr ht hG => ?_⟩
  have : t = u k := by
    have := (hu k).run
    rw [ht] at this
    cases this
    rfl
  subst this
  obtain ⟨e, e1, e2, e3⟩ := ha i hi (k - T)
  have hek₁ : k₁ ≤ e := by omega
  have hek₂ : k₂ ≤ e := by omega
  obtain ⟨m, rfl⟩ : ∃ m, k = e + m := ⟨k - e, by omega⟩
  have hmT : (m : ℝ) ≤ T := by
    have : m ≤ T := by omega
    exact_mod_cast this
  obtain ⟨G, hGe⟩ := blockGradient_exists hy.pos hL.le (hy.smooth i hi) (u e).estimate
  have hse := hk₁ e hek₁ i (u e) G e3 (hu e).run hGe
  have hmove : ∀ j < N, PArr.norm (((u (e + m)).estimate j).sub ((u e).estimate j)) ≤ T * δ := fun j hj =>
    (window e hek₂ m j hj).trans (mul_le_mul_of_nonneg_right hmT hδ.le)
  have hfin := slope_close hπ hC hst hy.pos hL (i := i) (N := N) (sh := fun i => (s.agents i).graph.n) hy.smooth hy.hE
    (fits (e + m)) hmove (hcost e) hi (hsti e i hi) (hsti (e + m) i hi) hGe hG
  refine hfin.trans_lt ?_
  have h2 : K * δ = (L * N + C * Real.sqrt (2 * L * f₀)) * (T * δ) := by
    simp only [K]
    ring
  linarith

/-- Accumulation points. -/
theorem AsyncHyp.limit (hy : AsyncHyp o p E N (fun i => (s.agents i).graph.n) π L α β μ ν f₀ B)
    (hπ : ∀ c, ActsPosewise π (o.opt c)) (hC : 0 ≤ C) (hst : ∀ c, Steady C (o.opt c))
    (hf : f₀ = teamCost p.r p.d E s.estimate) (h : ∀ i < N, OnDuty o p E i (s.agents i)) (hm : s.mail = [])
    (hfe : ∀ i < N, Orthonormal p.r p.d (s.agents i).graph.n (s.agents i).X) (sched : Nat → NetOp)
    (hs : ∀ k, Sound N (Clock.after ((List.range k).map sched)) (sched k))
    (hr : ∀ k, Recent E B ((List.range k).map sched) (sched k)) (ha : Active N T sched) {X : Joint ℝ}
    (hfit : ∀ j < N, DMat.Fits p.r ((p.d + 1) * (s.agents j).graph.n) (X j)) (hX : Accumulates o N s sched X) :
    ∀ i < N, Orthonormal p.r p.d (s.agents i).graph.n ⟨p.r, p.d, (s.agents i).graph.n, X i⟩ ∧
      ∀ Gr, IsBlockGradient p.r p.d (s.agents i).graph.n E X i Gr →
        slopeSq π p.r p.d (s.agents i).graph.n (X i) Gr = 0 := by
  obtain ⟨u, hu, hsti, hcost, -⟩ := hy.short hf h hm hfe sched hs hr
  have hL := hy.L0
  have fits : ∀ k, ∀ j < N, DMat.Fits p.r ((p.d + 1) * (s.agents j).graph.n) ((u k).estimate j) := by
    intro k j hj
    obtain ⟨x, hx⟩ := (hu k).member j hj
    exact ⟨hx.arr.2.2.2.1, hx.arr.2.2.2.2⟩
  have near : ∀ η > 0, ∀ k₀, ∃ k ≥ k₀, ∀ j < N, PArr.norm ((X j).sub ((u k).estimate j)) ≤ η := by
    intro η hη k₀
    obtain ⟨k, hk, hk'⟩ := hX η hη k₀
    refine ⟨k, hk, fun j hj => le_trans (le_of_eq ?_) (hk' (u k) (hu k).run j hj).le⟩
    unfold PArr.norm DMat.normSq DMat.sub
    simp only [(hfit j hj).1, (hfit j hj).2, (fits k j hj).1, (fits k j hj).2]
    congr 1
    refine sum_congr rfl fun _ _ => sum_congr rfl fun _ _ => ?_
    ring
  intro i hi
  have hort : Orthonormal p.r p.d (s.agents i).graph.n ⟨p.r, p.d, (s.agents i).graph.n, X i⟩ := by
    choose k _ hk using fun n : Nat => near (1 / ((n : ℝ) + 1)) Nat.one_div_pos_of_nat 0
    have entries : ∀ ρ < p.r, ∀ j < (p.d + 1) * (s.agents i).graph.n,
        Filter.Tendsto (fun n => ((u (k n)).estimate i).v ρ j) Filter.atTop (nhds ((X i).v ρ j)) := by
      intro ρ hρ j hj
      refine Metric.tendsto_atTop.2 fun η hη => ?_
      obtain ⟨n₀, hn₀⟩ := exists_nat_one_div_lt hη
      refine ⟨n₀, fun n hn => ?_⟩
      rw [Real.dist_eq]
      have h1 : |((u (k n)).estimate i).v ρ j - (X i).v ρ j| ≤ PArr.norm ((X i).sub ((u (k n)).estimate i)) := by
        refine Real.abs_le_sqrt ?_
        have h2 : (((u (k n)).estimate i).v ρ j - (X i).v ρ j) ^ 2 =
            ((X i).sub ((u (k n)).estimate i)).v ρ j * ((X i).sub ((u (k n)).estimate i)).v ρ j := by
          simp only [DMat.sub]
          ring
        rw [h2]
        unfold DMat.normSq
        refine le_trans ?_ (single_le_sum (f := fun ρ => ∑ j ∈ range ((X i).sub ((u (k n)).estimate i)).cols,
          ((X i).sub ((u (k n)).estimate i)).v ρ j * ((X i).sub ((u (k n)).estimate i)).v ρ j)
          (fun _ _ => sum_nonneg fun _ _ => mul_self_nonneg _) (mem_range.2 (show ρ < (X i).rows by rw [(hfit i hi).1]; exact hρ)))
        exact single_le_sum (f := fun j => ((X i).sub ((u (k n)).estimate i)).v ρ j * ((X i).sub ((u (k n)).estimate i)).v ρ j)
          (fun _ _ => mul_self_nonneg _) (mem_range.2 (show j < (X i).cols by rw [(hfit i hi).2]; exact hj))
      refine (h1.trans (hk n i hi)).trans_lt (lt_of_le_of_lt ?_ hn₀)
      exact one_div_le_one_div_of_le (by positivity) (by have : (n₀ : ℝ) ≤ n := (by exact_mod_cast hn); linarith)
    intro x hx
    ext a b
    have hidx : ∀ c : Fin p.d, x * (p.d + 1) + (c : Nat) < (p.d + 1) * (s.agents i).graph.n := by
      intro c
      have : (x + 1) * (p.d + 1) ≤ (s.agents i).graph.n * (p.d + 1) := Nat.mul_le_mul_right _ hx
      have := c.2
      lia
    have hlim : Filter.Tendsto (fun n => ∑ ρ : Fin p.r, rotM p.r p.d ((u (k n)).agents i).X x ρ a *
        rotM p.r p.d ((u (k n)).agents i).X x ρ b) Filter.atTop
        (nhds (∑ ρ : Fin p.r, rotM p.r p.d ⟨p.r, p.d, (s.agents i).graph.n, X i⟩ x ρ a *
          rotM p.r p.d ⟨p.r, p.d, (s.agents i).graph.n, X i⟩ x ρ b)) :=
      tendsto_finsetSum _ fun ρ _ => (entries ρ ρ.2 _ (hidx a)).mul (entries ρ ρ.2 _ (hidx b))
    have hconst : (fun n => ∑ ρ : Fin p.r, rotM p.r p.d ((u (k n)).agents i).X x ρ a *
        rotM p.r p.d ((u (k n)).agents i).X x ρ b) = fun _ => (1 : Matrix (Fin p.d) (Fin p.d) ℝ) a b := by
      funext n
      rw [← hsti (k n) i hi x hx, Matrix.mul_apply]
      rfl
    rw [hconst] at hlim
    rw [Matrix.mul_apply]
    exact tendsto_nhds_unique hlim tendsto_const_nhds
  refine ⟨hort, fun Gr hG => ?_⟩
  refine le_antisymm (le_of_not_gt fun hpos => ?_) (slopeSq_nonneg ..)
  have hε := Real.sqrt_pos.2 hpos
  generalize hεe : Real.sqrt (slopeSq π p.r p.d (s.agents i).graph.n (X i) Gr) = ε at *
  obtain ⟨k₀, hk₀⟩ := hy.critical (half_pos hε) hπ hC hst hf h hm hfe sched hs hr ha
  have hK : 0 ≤ L * N + C * Real.sqrt (2 * L * f₀) := by positivity
  have hη : 0 < ε / (2 * (L * N + C * Real.sqrt (2 * L * f₀) + 1)) := by positivity
  obtain ⟨k, hk, hk'⟩ := near _ hη k₀
  obtain ⟨G, hGk⟩ := blockGradient_exists hy.pos hL.le (hy.smooth i hi) (u k).estimate
  have h1 := hk₀ k hk i hi (u k) G (hu k).run hGk
  have h2 := slope_close hπ hC hst hy.pos hL (i := i) (N := N) (sh := fun i => (s.agents i).graph.n) hy.smooth hy.hE
    hfit hk' (hcost k) hi (hsti k i hi) hort hGk hG
  rw [hεe] at h2
  generalize L * N + C * Real.sqrt (2 * L * f₀) = K at *
  have h3 : K * (ε / (2 * (K + 1))) < ε / 2 := by
    rw [mul_div_assoc', div_lt_div_iff₀ (by positivity) (by norm_num)]
    nlinarith
  linarith

/-- Bounded runs have accumulation points. -/
theorem accumulates_of_bounded {sh : Nat → Nat} {sched : Nat → NetOp} {u : Nat → Net}
    (hu : ∀ k, netRun o s ((List.range k).map sched) = ok (u k))
    (hfit : ∀ k, ∀ j < N, DMat.Fits p.r ((p.d + 1) * sh j) ((u k).estimate j)) {M : ℝ}
    (hM : ∀ k, ∀ j < N, PArr.norm ((u k).estimate j) ≤ M) :
    ∃ X : Joint ℝ, (∀ j < N, DMat.Fits p.r ((p.d + 1) * sh j) (X j)) ∧ Accumulates o N s sched X := by
  classical
  let ι := (j : Fin N) × Fin p.r × Fin ((p.d + 1) * sh j)
  let x : Nat → ι → ℝ := fun k a => ((u k).estimate a.1).v a.2.1 a.2.2
  have hx : ∀ k, x k ∈ Set.pi Set.univ fun _ : ι => Set.Icc (-M) M := by
    intro k a _
    show x k a ∈ Set.Icc (-M) M
    rw [Set.mem_Icc, ← abs_le]
    refine le_trans (Real.abs_le_sqrt ?_) (hM k a.1 a.1.2)
    have hf := hfit k a.1 a.1.2
    unfold DMat.normSq
    rw [hf.1, hf.2, sq]
    refine le_trans ?_ (single_le_sum (f := fun ρ => ∑ j ∈ range ((p.d + 1) * sh a.1),
      ((u k).estimate a.1).v ρ j * ((u k).estimate a.1).v ρ j)
      (fun _ _ => sum_nonneg fun _ _ => mul_self_nonneg _) (mem_range.2 a.2.1.2))
    exact single_le_sum (f := fun j => ((u k).estimate a.1).v a.2.1 j * ((u k).estimate a.1).v a.2.1 j)
      (fun _ _ => mul_self_nonneg _) (mem_range.2 a.2.2.2)
  have hcpt : IsCompact (Set.pi Set.univ fun _ : ι => Set.Icc (-M) M) := isCompact_univ_pi fun _ => isCompact_Icc
  obtain ⟨y, -, φ, hφ, hlim⟩ := hcpt.tendsto_subseq hx
  let X : Joint ℝ := fun j => if hj : j < N then ⟨p.r, (p.d + 1) * sh j, fun ρ c =>
    if h : ρ < p.r ∧ c < (p.d + 1) * sh j then y ⟨⟨j, hj⟩, ⟨ρ, h.1⟩, ⟨c, h.2⟩⟩ else 0⟩ else DMat.zero 0 0
  have hXf : ∀ j < N, DMat.Fits p.r ((p.d + 1) * sh j) (X j) := by
    intro j hj
    simp only [X, hj, dif_pos]
    exact ⟨rfl, rfl⟩
  refine ⟨X, hXf, ?_⟩
  have htend : Filter.Tendsto (fun k => ∑ j : Fin N, (((u (φ k)).estimate j).sub (X j)).normSq) Filter.atTop (nhds 0) := by
    rw [show (0 : ℝ) = ∑ j : Fin N, ∑ ρ : Fin p.r, ∑ c : Fin ((p.d + 1) * sh j),
      (y ⟨j, ρ, c⟩ - y ⟨j, ρ, c⟩) * (y ⟨j, ρ, c⟩ - y ⟨j, ρ, c⟩) by simp]
    refine tendsto_finsetSum _ fun j _ => ?_
    have e : (fun k => (((u (φ k)).estimate j).sub (X j)).normSq) = fun k => ∑ ρ : Fin p.r, ∑ c : Fin ((p.d + 1) * sh j),
        (x (φ k) ⟨j, ρ, c⟩ - y ⟨j, ρ, c⟩) * (x (φ k) ⟨j, ρ, c⟩ - y ⟨j, ρ, c⟩) := by
      funext k
      have hf := hfit (φ k) j j.2
      unfold DMat.normSq DMat.sub
      simp only
      rw [hf.1, hf.2, Finset.sum_range]
      refine sum_congr rfl fun ρ _ => ?_
      rw [Finset.sum_range]
      refine sum_congr rfl fun c _ => ?_
      simp only [X, j.2, dif_pos, ρ.2, c.2, and_self, x]
    rw [e]
    refine tendsto_finsetSum _ fun ρ _ => tendsto_finsetSum _ fun c _ => ?_
    have := (tendsto_pi_nhds.1 hlim ⟨j, ρ, c⟩).sub_const (y ⟨j, ρ, c⟩)
    exact this.mul this
  intro η hη k₀
  obtain ⟨n₀, hn₀⟩ := Metric.tendsto_atTop.1 htend (η ^ 2) (by positivity)
  refine ⟨φ (max n₀ k₀), (le_max_right _ _).trans (hφ.id_le _), fun t ht j hj => ?_⟩
  have : t = u (φ (max n₀ k₀)) := by
    have := hu (φ (max n₀ k₀))
    rw [ht] at this
    cases this
    rfl
  subst this
  have h1 := hn₀ _ (le_max_left n₀ k₀)
  rw [Real.dist_eq, sub_zero] at h1
  have h2 := (le_abs_self _).trans_lt h1
  have h3 := single_le_sum (f := fun j : Fin N => (((u (φ (max n₀ k₀))).estimate j).sub (X j)).normSq)
    (fun _ _ => normSq_nonneg _) (mem_univ (⟨j, hj⟩ : Fin N))
  have h4 := h3.trans_lt h2
  rw [← Real.sqrt_sq hη.le]
  exact Real.sqrt_lt_sqrt (normSq_nonneg _) h4

/-- A team without cost rests. -/
theorem AsyncHyp.rest (hy : AsyncHyp o p E N (fun i => (s.agents i).graph.n) π L α β μ ν f₀ B)
    (hf : f₀ = teamCost p.r p.d E s.estimate) (h0 : f₀ = 0) (h : ∀ i < N, OnDuty o p E i (s.agents i)) (hm : s.mail = [])
    (hfe : ∀ i < N, Orthonormal p.r p.d (s.agents i).graph.n (s.agents i).X) {ops : List NetOp}
    (hs : Always (Sound N) ops) (hr : Throughout (Recent E B) ops) {t : Net} (e : netRun o s ops = ok t) {j : Nat}
    (hj : j < N) : PArr.norm ((t.estimate j).sub (s.estimate j)) = 0 := by
  obtain ⟨H, hH⟩ := AsyncInv.all (ε := 0) hy le_rfl hf h hm hfe hs hr e
  have hd := (hH.drift j hj 0 (s.agents j).X ⟨[], s, List.nil_prefix, rfl, rfl, rfl⟩).2
  refine le_antisymm (hd.trans (le_of_eq ?_)) (DMat.norm_nonneg _)
  have hpot : 0 ≤ L / 2 * α * p.localOpt.RGDStepsize ^ 2 * pot B (squares H) :=
    mul_nonneg (mul_nonneg (mul_nonneg (by have := hy.L0; linarith) hy.α0) (sq_nonneg _)) (pot_nonneg (squares_nonneg _))
  have hγμ : 0 < p.localOpt.RGDStepsize * μ / 2 := by
    have := hy.γ0
    have := hy.μ0
    positivity
  have hsq : (squares H).sum ≤ 0 := by
    by_contra c
    push Not at c
    have := mul_pos hγμ c
    linarith [hH.energy, hy.pos t.estimate]
  have hz : ∀ x ∈ H, x.2 = 0 := by
    intro x hx
    have h1 := List.single_le_sum (squares_nonneg H) (x.2 ^ 2) (List.mem_map.2 ⟨x, hx, rfl⟩)
    exact pow_eq_zero_iff (n := 2) (by norm_num) |>.1 (le_antisymm (h1.trans hsq) (sq_nonneg _))
  rw [List.sum_eq_zero, mul_zero]
  intro y hy
  obtain ⟨x, hx, rfl⟩ := List.mem_map.1 (List.mem_of_mem_take hy)
  exact hz x (List.mem_filter.1 hx).1

end

end

end Dpgo
