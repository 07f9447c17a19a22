import Verif.Lemmas.Convergence
import Verif.Lemmas.Examples

/-! # Progress of a team -/

namespace Dpgo

open Res Spec PoseGraph Finset

theorem teamCost_nonneg {r d : Nat} {E : List (Meas ℝ)} (hp : Precise E) (hw : ∀ m ∈ E, 0 ≤ m.weight)
    (X : Joint ℝ) : 0 ≤ teamCost r d E X := by
  unfold teamCost
  refine mul_nonneg (by norm_num) (List.sum_nonneg fun x hx => ?_)
  obtain ⟨m, hm, rfl⟩ := List.mem_map.1 hx
  exact Example.edgeCost_nonneg (hp m (Example.mem_firstWins hm)) (hw m (Example.mem_firstWins hm)) _ _ _ _

/-! ### Gradients are unique -/

theorem dot_unit {A : DMat ℝ} {ρ j : Nat} (hρ : ρ < A.rows) (hj : j < A.cols) :
    A.dot ⟨A.rows, A.cols, fun x y => if x = ρ ∧ y = j then 1 else 0⟩ = A.v ρ j := by
  unfold DMat.dot
  rw [sum_eq_single_of_mem ρ (mem_range.2 hρ) (fun x _ hx => sum_eq_zero fun y _ => by
      simp only [hx, false_and, if_false, mul_zero]),
    sum_eq_single_of_mem j (mem_range.2 hj) (fun y _ hy => by simp only [hy, and_false, if_false, mul_zero])]
  simp

theorem blockGradient_unique {r d n i : Nat} {E : List (Meas ℝ)} {X : Joint ℝ} {A B : DMat ℝ}
    (hA : IsBlockGradient r d n E X i A) (hB : IsBlockGradient r d n E X i B) {ρ j : Nat} (hρ : ρ < r)
    (hj : j < (d + 1) * n) : A.v ρ j = B.v ρ j := by
  obtain ⟨a1, a2, a3⟩ := hA
  obtain ⟨b1, b2, b3⟩ := hB
  have h1 := a3 ⟨r, (d + 1) * n, fun x y => if x = ρ ∧ y = j then 1 else 0⟩ rfl rfl
  have h2 := b3 ⟨r, (d + 1) * n, fun x y => if x = ρ ∧ y = j then 1 else 0⟩ rfl rfl
  have u1 := dot_unit (A := A) (ρ := ρ) (j := j) (by rw [a1]; exact hρ) (by rw [a2]; exact hj)
  have u2 := dot_unit (A := B) (ρ := ρ) (j := j) (by rw [b1]; exact hρ) (by rw [b2]; exact hj)
  rw [a1, a2] at u1
  rw [b1, b2] at u2
  rw [u1] at h1
  rw [u2] at h2
  linarith

theorem slopeSq_congr {π : PoseProj} {r d n : Nat} {X X' A B : DMat ℝ}
    (hX : ∀ ρ < r, ∀ j < (d + 1) * n, X.v ρ j = X'.v ρ j)
    (h : ∀ ρ < r, ∀ j < (d + 1) * n, A.v ρ j = B.v ρ j) : slopeSq π r d n X A = slopeSq π r d n X' B := by
  unfold slopeSq
  refine sum_congr rfl fun k hk => ?_
  have hlt : ∀ c : Fin (d + 1), k * (d + 1) + c < (d + 1) * n := fun c => by
    have : (k + 1) * (d + 1) ≤ n * (d + 1) := Nat.mul_le_mul_right _ (mem_range.1 hk)
    rw [Nat.mul_comm (d + 1) n]
    have := c.2
    lia
  have e1 : poseOf r d X k = poseOf r d X' k := by
    ext ρ c
    exact hX ρ ρ.2 _ (hlt c)
  have e2 : poseOf r d A k = poseOf r d B k := by
    ext ρ c
    exact h ρ ρ.2 _ (hlt c)
  rw [e1, e2]

theorem slopeSq_nonneg (π : PoseProj) (r d n : Nat) (X Gr : DMat ℝ) : 0 ≤ slopeSq π r d n X Gr :=
  sum_nonneg fun _ _ => sum_nonneg fun _ _ => sum_nonneg fun _ _ => sq_nonneg _

/-! ### Smoothness -/

/-- Constant of one edge. -/
noncomputable def edgeBound (r d : Nat) (m : Meas ℝ) : ℝ :=
  |m.weight| * (|m.kappa| * ∑ _ρ ∈ range r, ∑ c ∈ range d, (∑ k ∈ range d, |m.R.v k c| + 1) ^ 2 +
    |m.tau| * ∑ _ρ ∈ range r, (∑ k ∈ range d, |m.t.v k 0| + 2) ^ 2)

theorem edgeBound_nonneg (r d : Nat) (m : Meas ℝ) : 0 ≤ edgeBound r d m := by
  unfold edgeBound
  positivity

theorem edgeCost_le {r d : Nat} {m : Meas ℝ} {A B : DMat ℝ} {i j : Nat} {b : ℝ} (hb : 0 ≤ b)
    (hA : ∀ ρ < r, ∀ c < d + 1, |A.v ρ (i * (d + 1) + c)| ≤ b)
    (hB : ∀ ρ < r, ∀ c < d + 1, |B.v ρ (j * (d + 1) + c)| ≤ b) :
    edgeCost r d m A i B j ≤ edgeBound r d m * b ^ 2 := by
  have lin : ∀ ρ < r, ∀ f : Nat → ℝ, |∑ k ∈ range d, A.v ρ (i * (d + 1) + k) * f k| ≤ (∑ k ∈ range d, |f k|) * b := by
    intro ρ hρ f
    refine (abs_sum_le_sum_abs _ _).trans ?_
    rw [sum_mul]
    refine sum_le_sum fun k hk => ?_
    rw [abs_mul, mul_comm]
    exact mul_le_mul_of_nonneg_left (hA ρ hρ k (by have := mem_range.1 hk; omega)) (abs_nonneg _)
  have h1 : rotRes r d m A i B j ≤ (∑ _ρ ∈ range r, ∑ c ∈ range d, (∑ k ∈ range d, |m.R.v k c| + 1) ^ 2) * b ^ 2 := by
    unfold rotRes rot
    rw [sum_mul]
    refine sum_le_sum fun ρ hρ => ?_
    rw [sum_mul]
    refine sum_le_sum fun c hc => ?_
    rw [← mul_pow, sq_le_sq, abs_of_nonneg (a := (_ + _) * b) (by positivity)]
    refine (abs_sub _ _).trans ?_
    rw [add_mul, one_mul, add_comm]
    exact add_le_add (lin ρ (mem_range.1 hρ) _) (hB ρ (mem_range.1 hρ) c (by have := mem_range.1 hc; omega))
  have h2 : traRes r d m A i B j ≤ (∑ _ρ ∈ range r, (∑ k ∈ range d, |m.t.v k 0| + 2) ^ 2) * b ^ 2 := by
    unfold traRes rot tra
    rw [sum_mul]
    refine sum_le_sum fun ρ hρ => ?_
    rw [← mul_pow, sq_le_sq, abs_of_nonneg (a := (_ + _) * b) (by positivity)]
    have l := lin ρ (mem_range.1 hρ) (fun k => m.t.v k 0)
    have x := hA ρ (mem_range.1 hρ) d (by omega)
    have y := hB ρ (mem_range.1 hρ) d (by omega)
    rw [abs_le] at l x y ⊢
    constructor <;> nlinarith [l.1, l.2, x.1, x.2, y.1, y.2]
  have r0 := Example.rotRes_nonneg r d m A B i j
  have t0 := Example.traRes_nonneg r d m A B i j
  unfold edgeCost edgeBound
  calc m.weight * (m.kappa * rotRes r d m A i B j + m.tau * traRes r d m A i B j)
      ≤ |m.weight| * (|m.kappa| * rotRes r d m A i B j + |m.tau| * traRes r d m A i B j) := by
        refine (le_abs_self _).trans ?_
        rw [abs_mul]
        refine mul_le_mul_of_nonneg_left ((abs_add_le _ _).trans ?_) (abs_nonneg _)
        rw [abs_mul, abs_mul, abs_of_nonneg r0, abs_of_nonneg t0]
    _ ≤ |m.weight| * (|m.kappa| * ((∑ _ρ ∈ range r, ∑ c ∈ range d, (∑ k ∈ range d, |m.R.v k c| + 1) ^ 2) * b ^ 2) +
          |m.tau| * ((∑ _ρ ∈ range r, (∑ k ∈ range d, |m.t.v k 0| + 2) ^ 2) * b ^ 2)) := by gcongr
    _ = _ := by ring

/-- Curvature bound of a list of edges. -/
noncomputable def curvature (r d : Nat) (E : List (Meas ℝ)) : ℝ := 1 + ((firstWins E).map (edgeBound r d)).sum

theorem curvature_pos (r d : Nat) (E : List (Meas ℝ)) : 0 < curvature r d E := by
  have : 0 ≤ ((firstWins E).map (edgeBound r d)).sum := List.sum_nonneg fun x hx => by
    obtain ⟨m, -, rfl⟩ := List.mem_map.1 hx
    exact edgeBound_nonneg r d m
  unfold curvature
  linarith

theorem entry_sq_le {V : DMat ℝ} {ρ j : Nat} (hρ : ρ < V.rows) (hj : j < V.cols) : V.v ρ j ^ 2 ≤ V.normSq := by
  unfold DMat.normSq
  refine le_trans ?_ (single_le_sum (f := fun x => ∑ y ∈ range V.cols, V.v x y * V.v x y)
    (fun x _ => sum_nonneg fun y _ => mul_self_nonneg _) (mem_range.2 hρ))
  refine le_trans (by rw [sq]) (single_le_sum (f := fun y => V.v ρ y * V.v ρ y)
    (fun y _ => mul_self_nonneg _) (mem_range.2 hj))

/-- The cost of bounded poses. -/
theorem teamCost_le {r d : Nat} {E : List (Meas ℝ)} {X : Joint ℝ} {b : ℝ} (hb : 0 ≤ b)
    (h : ∀ m ∈ E, (∀ ρ < r, ∀ c < d + 1, |(X m.r1).v ρ (m.p1 * (d + 1) + c)| ≤ b) ∧
      ∀ ρ < r, ∀ c < d + 1, |(X m.r2).v ρ (m.p2 * (d + 1) + c)| ≤ b) :
    2 * teamCost r d E X ≤ curvature r d E * b ^ 2 := by
  unfold teamCost curvature
  rw [← mul_assoc, show (2 : ℝ) * (1 / 2) = 1 by norm_num, one_mul, add_mul, one_mul, ← List.sum_map_mul_right]
  refine le_trans (List.sum_le_sum (g := fun m => edgeBound r d m * b ^ 2) fun m hm => ?_) ?_
  · obtain ⟨h1, h2⟩ := h m (Example.mem_firstWins hm)
    exact edgeCost_le hb h1 h2
  · have := sq_nonneg b
    linarith

theorem smoothFor_curvature {r d n i : Nat} {E : List (Meas ℝ)}
    (h : ∀ m ∈ E, ∀ x ∈ ownIndices i m, x < n) : SmoothFor r d n E i (curvature r d E) := by
  intro V v1 v2
  have hb := Real.sqrt_nonneg V.normSq
  have key : ∀ j p, (j = i → p < n) → ∀ ρ < r, ∀ c < d + 1, |(only i V j).v ρ (p * (d + 1) + c)| ≤ Real.sqrt V.normSq := by
    intro j p hp ρ hρ c hc
    by_cases hj : j = i
    · rw [hj, only, Function.update_self]
      refine Real.abs_le_sqrt (entry_sq_le (by rw [v1]; exact hρ) ?_)
      rw [v2, Nat.mul_comm (d + 1) n]
      have : (p + 1) * (d + 1) ≤ n * (d + 1) := Nat.mul_le_mul_right _ (hp hj)
      lia
    · rw [only, Function.update_of_ne hj]
      simp [DMat.zero]
  have := teamCost_le (r := r) (d := d) (E := E) (X := only i V) hb fun m hm => by
    refine ⟨key _ _ fun c => ?_, key _ _ fun c => ?_⟩
    · exact h m hm _ (by unfold ownIndices; rw [if_pos c]; simp)
    · exact h m hm _ (by unfold ownIndices; rw [if_pos c]; simp)
  rw [Real.sq_sqrt (normSq_nonneg V)] at this
  exact this

/-! ### One event -/

section
variable {o : AgentOracles} {p : AgentParams} {E : List (Meas ℝ)} {sh : Nat → Nat} {N : Nat} {s t t' : Net}
  {ops : List NetOp} {op : NetOp}

/-- Estimates stay on the manifold. -/
theorem Member.stays {i k : Nat} {a a' : Agent} (hp : p.acceleration = false) (hm : p.localOpt.method = .RTR)
    (hs : ∀ c, StaysOnManifold (o.opt c)) (h : Member o p E sh i k a) (hfe : Orthonormal p.r p.d (sh i) a.X) {b w : Bool}
    (e : a.iterate o b = ok (w, a')) : Orthonormal p.r p.d (sh i) a'.X := by
  rw [← h.size] at hfe ⊢
  exact iterate_feasible_plain ⟨fun _ => hs, fun c => by rw [hm] at c; cases c⟩ (agReach_inv h.reach) h.state
    (by rw [hp]; decide) hfe e

theorem NetInv.feasible (hd : 0 < p.d) (hp : p.acceleration = false) (hl : p.robust.costType = .L2)
    (hm : p.localOpt.method = .RTR) (hs : ∀ c, StaysOnManifold (o.opt c)) (h : NetInv o p E sh N s ops t)
    (hfe : ∀ i < N, Orthonormal p.r p.d (sh i) (t.agents i).X) (hso : Sound N (Clock.after ops) op)
    (e : netStep o t op = ok t') : ∀ i < N, Orthonormal p.r p.d (sh i) (t'.agents i).X := by
  have ho : p.acceleration = true → AccelOk p := fun c => by rw [hp] at c; cases c
  obtain ⟨t'', e', hi⟩ := h.step hd hl ho hso
  rw [e] at e'
  cases e'
  intro j hj
  by_cases c : op = .iterate j true
  · subst c
    obtain ⟨k, hk⟩ := h.member j hj
    obtain ⟨b, a', ea, -, -, -⟩ := hk.iterate hd hl ho true
    have es : netStep o t (.iterate j true) = ok ⟨Function.update t.agents j a', t.mail⟩ := by
      unfold netStep
      simp only [ea, ok_bind]
    rw [e] at es
    cases es
    show Orthonormal p.r p.d (sh j) (Function.update t.agents j a' j).X
    rw [Function.update_self]
    exact hk.stays hp hm hs (hfe j hj) ea
  · have := hi.still hp j (t.agents j).X
      ⟨ops, t, List.prefix_append _ _, h.run, by rw [Clock.after_snoc, Clock.moves_tick, if_neg c], rfl⟩
    rw [← this]
    exact hfe j hj

theorem NetInv.stays (hd : 0 < p.d) (hp : p.acceleration = false) (hl : p.robust.costType = .L2)
    (hm : p.localOpt.method = .RTR) (hs : ∀ c, StaysOnManifold (o.opt c)) (h : ∀ i < N, OnDuty o p E i (s.agents i))
    (hfe : ∀ i < N, Orthonormal p.r p.d (s.agents i).graph.n (s.agents i).X) (hmail : s.mail = [])
    (hso : Always (Sound N) ops) (ht : NetInv o p E (fun i => (s.agents i).graph.n) N s ops t) :
    ∀ i < N, Orthonormal p.r p.d (s.agents i).graph.n (t.agents i).X := by
  have ho : p.acceleration = true → AccelOk p := fun c => by rw [hp] at c; cases c
  induction ops using List.reverseRecOn generalizing t with
  | nil =>
    have := ht.run
    cases this
    exact hfe
  | append_singleton l op ih =>
    obtain ⟨s1, s2⟩ := hso.init
    obtain ⟨u, hu⟩ := NetInv.all hd hl ho h hmail s1
    obtain ⟨u', h1, h2⟩ := netRun_snoc.1 ht.run
    rw [hu.run] at h1
    cases h1
    exact hu.feasible hd hp hl hm hs (ih s1 hu) s2 h2

theorem NetInv.progress (hd : 0 < p.d) (hp : p.acceleration = false) (hl : p.robust.costType = .L2)
    (hm : p.localOpt.method = .RTR) (hit : p.localOpt.RTRIterations ≠ 1) {π : PoseProj}
    (hπ : ∀ c, ActsPosewise π (o.opt c)) {L M cc ε : ℝ} (hdec : ∀ c, Decreasing p.localOpt L M cc (o.opt c)) (hL0 : 0 < L)
    (hc0 : 0 ≤ cc) (hε : 0 ≤ ε) (htol : p.localOpt.gradnormTol ≤ ε) (hpos : ∀ Y, 0 ≤ teamCost p.r p.d E Y)
    (h : NetInv o p E sh N s ops t) (hfe : ∀ i < N, Orthonormal p.r p.d (sh i) (t.agents i).X) (hM : 2 * L * teamCost p.r p.d E t.estimate ≤ M)
    (hE : ∀ m ∈ E, m.r1 < N ∧ m.r2 < N) {i : Nat} (hL : SmoothFor p.r p.d (sh i) E i L) (hs : i < N)
    (ht : Timely E (Clock.after ops) (.iterate i true)) {Gr : DMat ℝ}
    (hG : IsBlockGradient p.r p.d (sh i) E t.estimate i Gr)
    (hst : ε ≤ Real.sqrt (slopeSq π p.r p.d (sh i) (t.estimate i) Gr))
    (e : netStep o t (.iterate i true) = ok t') :
    teamCost p.r p.d E t'.estimate + cc * ε ^ 2 ≤ teamCost p.r p.d E t.estimate := by
  have ho : p.acceleration = true → AccelOk p := fun c => by rw [hp] at c; cases c
  obtain ⟨k, hk⟩ := h.member i hs
  obtain ⟨b, a', ea, -, -, -⟩ := hk.iterate hd hl ho true
  have es : netStep o t (.iterate i true) = ok ⟨Function.update t.agents i a', t.mail⟩ := by
    unfold netStep
    simp only [ea, ok_bind]
  rw [e] at es
  cases es
  obtain ⟨Gr', hG', hdesc⟩ := hk.progress hd hp hl hm hit hπ hdec hL0 hpos hM hL rfl (hfe i hs) (h.upToDate hp hE hs ht hk) ea
  rw [slopeSq_congr (X := t.estimate i) (X' := t.estimate i) (B := Gr) (fun _ _ _ _ => rfl)
    (fun ρ hρ j hj => blockGradient_unique hG' hG hρ hj), estimate_update] at hdesc
  refine le_trans ?_ (hdesc (htol.trans hst))
  have : ε ^ 2 ≤ slopeSq π p.r p.d (sh i) (t.estimate i) Gr := by
    have := pow_le_pow_left₀ hε hst 2
    rwa [Real.sq_sqrt (slopeSq_nonneg ..)] at this
  gcongr

end

end Dpgo
