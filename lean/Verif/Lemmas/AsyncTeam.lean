import Verif.Lemmas.AsyncStep
import Verif.Lemmas.ScheduleStale

/-! # Convergence with stale messages -/

namespace Dpgo

open Res Spec PoseGraph Finset

noncomputable section

/-! ### Sums over the recent past -/

/-- Each entry counted once for every later moment at which it is among the last `B`. -/
def pot (B : Nat) (h : List ℝ) : ℝ := ∑ m ∈ range (B + 1), (h.take m).sum

theorem pot_cons (B : Nat) (x : ℝ) (h : List ℝ) : pot B (x :: h) = B * x + pot B h - (h.take B).sum := by
  unfold pot
  rw [sum_range_succ' (fun m => ((x :: h).take m).sum), sum_range_succ (fun m => (h.take m).sum)]
  simp only [List.take_succ_cons, List.sum_cons, sum_add_distrib, sum_const, card_range, nsmul_eq_mul, List.take_zero,
    List.sum_nil]
  ring

theorem pot_nil (B : Nat) : pot B [] = 0 := by simp [pot]

theorem sum_nonneg_of {l : List ℝ} (h : ∀ x ∈ l, 0 ≤ x) : 0 ≤ l.sum := List.sum_nonneg h

theorem pot_nonneg {B : Nat} {h : List ℝ} (hh : ∀ x ∈ h, 0 ≤ x) : 0 ≤ pot B h :=
  sum_nonneg fun _ _ => List.sum_nonneg fun x hx => hh x (List.mem_of_mem_take hx)

/-- Arithmetic-geometric mean, summed. -/
theorem mul_sum_le (v : ℝ) (l : List ℝ) : 2 * (v * l.sum) ≤ l.length * v ^ 2 + (l.map (· ^ 2)).sum := by
  induction l with
  | nil => simp
  | cons x l ih =>
    simp only [List.sum_cons, List.length_cons, List.map_cons, Nat.cast_add, Nat.cast_one]
    nlinarith [sq_nonneg (v - x)]

/-- Cauchy-Schwarz for a short list. -/
theorem sum_sq_le_length (l : List ℝ) : l.sum ^ 2 ≤ l.length * (l.map (· ^ 2)).sum := by
  induction l with
  | nil => simp
  | cons x l ih =>
    simp only [List.sum_cons, List.length_cons, List.map_cons, Nat.cast_add, Nat.cast_one]
    have := mul_sum_le x l
    nlinarith [sq_nonneg x]

/-- What one robot has done is part of what all have done. -/
theorem take_filter_le {H : List (Nat × ℝ)} (h0 : ∀ x ∈ H, 0 ≤ x.2) {j c B : Nat}
    (hc : c ≤ ((H.map Prod.fst).take B).count j) :
    (((H.filter (·.1 == j)).map Prod.snd).take c).sum ≤ (((H.take B).filter (·.1 == j)).map Prod.snd).sum := by
  have h1 : ((H.take B).filter (·.1 == j)) <+: (H.filter (·.1 == j)) := by
    conv_rhs => rw [← List.take_append_drop B H, List.filter_append]
    exact List.prefix_append _ _
  have h2 : c ≤ ((H.take B).filter (·.1 == j)).length := by
    refine hc.trans (le_of_eq ?_)
    rw [← List.map_take, List.count, List.countP_map, List.countP_eq_length_filter]
    rfl
  obtain ⟨tl, ht⟩ := h1
  rw [← ht, List.map_append, List.take_append_of_le_length (by rw [List.length_map]; exact h2)]
  generalize hl : ((H.take B).filter (·.1 == j)).map Prod.snd = l
  have hl0 : ∀ x ∈ l, 0 ≤ x := by
    intro x hx
    rw [← hl, List.mem_map] at hx
    obtain ⟨y, hy, rfl⟩ := hx
    exact h0 y (List.mem_of_mem_take (List.mem_filter.1 hy).1)
  conv_rhs => rw [← List.take_append_drop c l, List.sum_append]
  have : 0 ≤ (l.drop c).sum := List.sum_nonneg fun x hx => hl0 x (List.mem_of_mem_drop hx)
  linarith

/-- All robots together. -/
theorem sum_filter_le {H : List (Nat × ℝ)} (h0 : ∀ x ∈ H, 0 ≤ x.2) (N : Nat) :
    ∑ j ∈ range N, ((H.filter (·.1 == j)).map Prod.snd).sum ≤ (H.map Prod.snd).sum := by
  induction H with
  | nil => simp
  | cons x H ih =>
    have ih := ih fun y hy => h0 y (List.mem_cons_of_mem _ hy)
    have hx := h0 x (by simp)
    have e : ∀ j ∈ range N, (((x :: H).filter (·.1 == j)).map Prod.snd).sum =
        (if j = x.1 then x.2 else 0) + ((H.filter (·.1 == j)).map Prod.snd).sum := by
      intro j _
      by_cases c : x.1 = j
      · rw [List.filter_cons_of_pos (by simp [c]), if_pos c.symm]
        simp
      · rw [List.filter_cons_of_neg (by simp [c]), if_neg (Ne.symm c)]
        simp
    rw [sum_congr rfl e, sum_add_distrib, List.map_cons, List.sum_cons]
    refine add_le_add ?_ ih
    rw [sum_ite_eq']
    split <;> linarith

theorem optimisers_snoc (ops : List NetOp) (op : NetOp) :
    optimisers (ops ++ [op]) = match op with
      | .iterate i true => i :: optimisers ops
      | _ => optimisers ops := by
  induction ops with
  | nil =>
    rcases op with _ | _ | ⟨i, _ | _⟩ <;> rfl
  | cons x ops ih =>
    rcases op with ⟨j, dst⟩ | ⟨a, b⟩ | ⟨i, _ | _⟩ <;> rcases x with ⟨j', dst'⟩ | ⟨a', b'⟩ | ⟨i', _ | _⟩ <;>
      simp only [List.cons_append, optimisers, ih]

theorem Spec.Throughout.init {P : List NetOp → NetOp → Prop} {ops : List NetOp} {op : NetOp}
    (h : Throughout P (ops ++ [op])) : Throughout P ops ∧ P ops op :=
  ⟨fun b o a e => h b o (a ++ [op]) (by rw [e]; simp), h ops op [] rfl⟩

theorem Spec.Throughout.nil (P : List NetOp → NetOp → Prop) : Throughout P [] := by
  intro b o a e
  simp at e

theorem Spec.Throughout.snoc {P : List NetOp → NetOp → Prop} {ops : List NetOp} {op : NetOp} (h : Throughout P ops)
    (h' : P ops op) : Throughout P (ops ++ [op]) := by
  intro b o a e
  rcases List.eq_nil_or_concat a with rfl | ⟨a', x, rfl⟩
  · obtain ⟨e1, e2⟩ := List.append_inj' e rfl
    subst e1
    rw [List.cons.injEq] at e2
    rw [← e2.1]
    exact h'
  · rw [List.concat_eq_append, ← List.cons_append, ← List.append_assoc] at e
    obtain ⟨e, -⟩ := List.append_inj' e rfl
    exact h b o a' e

/-! ### The invariant -/

/-- What the induction uses. -/
structure AsyncHyp (o : AgentOracles) (p : AgentParams) (E : List (Meas ℝ)) (N : Nat) (sh : Nat → Nat) (π : PoseProj)
    (L α β μ ν f₀ : ℝ) (B : Nat) : Prop where
  hd : 0 < p.d
  hp : p.acceleration = false
  hl : p.robust.costType = .L2
  pos : ∀ Y, 0 ≤ teamCost p.r p.d E Y
  hE : ∀ m ∈ E, m.r1 < N ∧ m.r2 < N
  L0 : 0 < L
  smooth : ∀ i < N, SmoothFor p.r p.d (sh i) E i L
  α0 : 0 ≤ α
  β0 : 0 ≤ β
  μ0 : 0 < μ
  ν0 : 0 ≤ ν
  γ0 : 0 < p.localOpt.RGDStepsize
  small : p.localOpt.RGDStepsize * (β * Real.sqrt (2 * L * f₀) + α ^ 2 * L / 2 + L * α * B) ≤ μ / 2
  feas : FeasibleSolver o p
  step : ∀ {i k : Nat} {a a' : Agent} {X : Joint ℝ} {w : Bool}, i < N → Member o p E sh i k a → X i = a.X.X →
    Orthonormal p.r p.d (sh i) a.X → upToDate p.r p.d X a.graph a.neighborPoses → a.iterate o true = ok (w, a') →
    ∃ V Gr, GradStep p.r p.d (sh i) E π α β μ ν p.localOpt.RGDStepsize X i a.X.X a'.X.X V Gr

/-- Squares of the lengths of the steps so far, latest first. -/
def squares (H : List (Nat × ℝ)) : List ℝ := H.map fun x => x.2 ^ 2

/-- State of the team after some events; `H` lists who has optimised and how long the direction was, latest first. -/
structure AsyncInv (o : AgentOracles) (p : AgentParams) (E : List (Meas ℝ)) (N : Nat) (sh : Nat → Nat) (π : PoseProj)
    (L α μ ν f₀ ε : ℝ) (B : Nat) (s : Net) (ops : List NetOp) (t : Net) (H : List (Nat × ℝ)) : Prop where
  names : H.map Prod.fst = optimisers ops
  nonneg : ∀ x ∈ H, 0 ≤ x.2
  drift : ∀ j < N, ∀ v C, Was o s ops j v C → DMat.Fits p.r ((p.d + 1) * sh j) C.X ∧
    PArr.norm ((t.agents j).X.X.sub C.X) ≤ α * p.localOpt.RGDStepsize *
      (((H.filter (·.1 == j)).map Prod.snd).take ((Clock.after ops).moves j - v)).sum
  stiefel : ∀ j < N, Orthonormal p.r p.d (sh j) (t.agents j).X
  energy : teamCost p.r p.d E t.estimate + L / 2 * α * p.localOpt.RGDStepsize ^ 2 * pot B (squares H) +
    p.localOpt.RGDStepsize * μ / 2 * (squares H).sum ≤ f₀
  steep : ∀ K : Finset Nat, (∀ k ∈ K, Steep o p E π ε s ops k) →
    K.card * ε ^ 2 + 2 * (L ^ 2 * α ^ 2 * p.localOpt.RGDStepsize ^ 2 * B) * pot B (squares H) ≤
      (2 * ν ^ 2 + 2 * (L ^ 2 * α ^ 2 * p.localOpt.RGDStepsize ^ 2 * B) * B) * (squares H).sum

section
variable {o : AgentOracles} {p : AgentParams} {E : List (Meas ℝ)} {N : Nat} {sh : Nat → Nat} {π : PoseProj}
  {L α β μ ν f₀ ε : ℝ} {B : Nat} {s t t' : Net} {ops : List NetOp} {op : NetOp} {H : List (Nat × ℝ)}

theorem squares_nonneg (H : List (Nat × ℝ)) : ∀ x ∈ squares H, 0 ≤ x := by
  intro x hx
  obtain ⟨y, -, rfl⟩ := List.mem_map.1 hx
  exact sq_nonneg _

/-- The event before the last ones. -/
theorem Spec.Steep.init {k : Nat} (h : Steep o p E π ε s (ops ++ [op]) k) (hk : k ≠ ops.length) :
    Steep o p E π ε s ops k := by
  obtain ⟨i, t, Gr, h1, h2, h3⟩ := h
  have hlt : k < ops.length := by
    have := (List.getElem?_eq_some_iff.1 h1).1
    simp at this
    omega
  rw [List.getElem?_append_left hlt] at h1
  rw [List.take_append_of_le_length hlt.le] at h2
  exact ⟨i, t, Gr, h1, h2, h3⟩

theorem norm_self_sub (A : DMat ℝ) : PArr.norm (A.sub A) = 0 := by
  unfold PArr.norm DMat.normSq DMat.sub
  simp

/-- Events that move no robot. -/
theorem AsyncInv.idle (hy : AsyncHyp o p E N sh π L α β μ ν f₀ B) (h : AsyncInv o p E N sh π L α μ ν f₀ ε B s ops t H)
    (hu : NetInv o p E sh N s ops t) (hu' : NetInv o p E sh N s (ops ++ [op]) t') (hop : ∀ i, op ≠ .iterate i true) :
    AsyncInv o p E N sh π L α μ ν f₀ ε B s (ops ++ [op]) t' H := by
  have same : ∀ j, (t'.agents j).X = (t.agents j).X := fun j =>
    (hu'.still hy.hp j (t.agents j).X ⟨ops, t, List.prefix_append _ _, hu.run, by
      rw [Clock.after_snoc, Clock.moves_tick, if_neg (hop j)], rfl⟩).symm
  have est : t'.estimate = t.estimate := by
    funext j
    unfold Net.estimate
    rw [same]
  refine ⟨?_, h.nonneg, ?_, fun j hj => by rw [same]; exact h.stiefel j hj, by rw [est]; exact h.energy, ?_⟩
  · rw [optimisers_snoc, h.names]
    rcases op with _ | _ | ⟨i, _ | _⟩
    · rfl
    · rfl
    · rfl
    · exact absurd rfl (hop i)
  · intro j hj v C hC
    have hm : (Clock.after (ops ++ [op])).moves j = (Clock.after ops).moves j := by
      rw [Clock.after_snoc, Clock.moves_tick, if_neg (hop j)]
    rw [same, hm]
    obtain ⟨b, u, h1, h2, h3, rfl⟩ := hC
    rcases prefix_snoc h1 with rfl | h1
    · rw [hu'.run] at h2
      cases h2
      obtain ⟨k, hk⟩ := hu'.member j hj
      refine ⟨⟨hk.arr.2.2.2.1, hk.arr.2.2.2.2⟩, ?_⟩
      rw [← hm, h3, Nat.sub_self, List.take_zero, same, norm_self_sub]
      simp
    · exact h.drift j hj v _ ⟨b, u, h1, h2, h3, rfl⟩
  · intro K hK
    refine h.steep K fun k hk => ?_
    refine (hK k hk).init ?_
    rintro rfl
    obtain ⟨i, t, Gr, h1, -⟩ := hK _ hk
    rw [List.getElem?_append_right le_rfl, Nat.sub_self] at h1
    simp only [List.getElem?_cons_zero, Option.some.injEq] at h1
    exact hop i h1

/-- What robot `i` knows of the others is not far from the truth. -/
theorem AsyncInv.gap (hy : AsyncHyp o p E N sh π L α β μ ν f₀ B) (h : AsyncInv o p E N sh π L α μ ν f₀ ε B s ops t H)
    (hu : NetInv o p E sh N s ops t) {i k : Nat} (hi : i < N) (hr : Recent E B ops (.iterate i true))
    (hk : Member o p E sh i k (t.agents i)) :
    ∃ X' D : Joint ℝ, X' i = t.estimate i ∧ upToDate p.r p.d X' (t.agents i).graph (t.agents i).neighborPoses ∧
      (∀ j ρ c, (t.estimate j).v ρ c = (X' j).v ρ c + (D j).v ρ c) ∧
      costNorm p.r p.d E D ≤ Real.sqrt L * (α * p.localOpt.RGDStepsize * ((H.take B).map Prod.snd).sum) := by
  classical
  have hex : ∀ j, ∃ C : PArr ℝ, Partners E i j → (∃ v, Was o s ops j v C ∧
      (Clock.after ops).moves j - v ≤ ((optimisers ops).take B).count j) ∧
      ∀ q ∈ (t.agents i).graph.nbrShared, q.robot = j →
        ∃ P, OMap.find? ltPoseID q (t.agents i).neighborPoses = some P ∧ Copies p.r p.d C q.frame P := by
    intro j
    by_cases hj : Partners E i j
    · obtain ⟨v, hv, hc⟩ := hr j hj
      obtain ⟨C, hC, hq⟩ := hu.seen i hi j v hv
      exact ⟨C, fun _ => ⟨⟨v, hC, by omega⟩, hq⟩⟩
    · exact ⟨(t.agents j).X, fun c => absurd c hj⟩
  choose C hC using hex
  have hN : ∀ j, Partners E i j → j < N := by
    rintro j ⟨-, m, hm, hc⟩
    have := hy.hE m hm
    rcases hc with ⟨-, rfl⟩ | ⟨rfl, -⟩
    · exact this.2
    · exact this.1
  let W : Nat → DMat ℝ := fun j => if Partners E i j then (t.estimate j).sub (C j).X else DMat.zero p.r ((p.d + 1) * sh j)
  refine ⟨fun j => if Partners E i j then (C j).X else t.estimate j,
    fun j => if j < N then W j else DMat.zero 0 0, ?_, ?_, ?_, ?_⟩
  · simp only
    rw [if_neg fun c => c.1 rfl]
  · intro q hq
    have hlink : Partners E i q.robot := by
      refine ⟨(hk.team.robots hy.hE hq).2.symm, ?_⟩
      obtain ⟨m, hm, rfl⟩ := ((Props.C05_public_ids i p.r p.d _ hk.team.reach).2.1 q).1 hq
      rw [hk.team.lists.2.2, List.mem_filter] at hm
      obtain ⟨hm, hs⟩ := hm
      refine ⟨m, Example.mem_firstWins hm, ?_⟩
      simp only [isShared, Bool.or_eq_true, Bool.and_eq_true, beq_iff_eq, bne_iff_ne] at hs
      unfold foreignPose
      by_cases h1 : m.r1 = i
      · rw [if_pos h1]
        exact Or.inl ⟨h1, rfl⟩
      · rw [if_neg h1]
        exact Or.inr ⟨rfl, by omega⟩
    obtain ⟨P, hP, hc⟩ := (hC _ hlink).2 q hq rfl
    refine ⟨P, hP, fun ρ c hρ hc' => ?_⟩
    simp only
    rw [copies_value hc hρ hc', if_pos hlink]
  · intro j ρ c
    by_cases hj : Partners E i j
    · simp only [W, hj, if_true, hN j hj]
      simp [DMat.sub]
    · simp only [W, hj, if_false]
      split <;> simp [DMat.zero]
  · refine (costNorm_sum_le hy.pos N W).trans ?_
    have key : ∀ j ∈ range N, costNorm p.r p.d E (only j (W j)) ≤
        Real.sqrt L * (α * p.localOpt.RGDStepsize * (((H.take B).filter (·.1 == j)).map Prod.snd).sum) := by
      intro j hj
      rw [mem_range] at hj
      have hs0 : 0 ≤ (((H.take B).filter (·.1 == j)).map Prod.snd).sum := by
        refine List.sum_nonneg fun x hx => ?_
        obtain ⟨y, hy, rfl⟩ := List.mem_map.1 hx
        exact h.nonneg y (List.mem_of_mem_take (List.mem_filter.1 hy).1)
      have hαγ := mul_nonneg hy.α0 hy.γ0.le
      have hfit : DMat.Fits p.r ((p.d + 1) * sh j) (W j) := by
        obtain ⟨k', hk'⟩ := hu.member j hj
        by_cases c : Partners E i j
        · simp only [W, c, if_true]
          exact ⟨hk'.arr.2.2.2.1, hk'.arr.2.2.2.2⟩
        · simp only [W, c, if_false]
          exact ⟨rfl, rfl⟩
      refine (costNorm_only (hy.smooth j hj) hy.L0.le hfit).trans (mul_le_mul_of_nonneg_left ?_ (Real.sqrt_nonneg _))
      by_cases c : Partners E i j
      · simp only [W, c, if_true]
        obtain ⟨⟨v, hW, hv⟩, -⟩ := hC j c
        refine ((h.drift j hj v _ hW).2).trans (mul_le_mul_of_nonneg_left ?_ hαγ)
        exact take_filter_le h.nonneg (by rw [h.names]; exact hv)
      · simp only [W, c, if_false]
        have : PArr.norm (DMat.zero p.r ((p.d + 1) * sh j) : DMat ℝ) = 0 := by
          unfold PArr.norm DMat.normSq DMat.zero
          simp
        rw [this]
        exact mul_nonneg hαγ hs0
    refine (sum_le_sum key).trans ?_
    rw [← mul_sum, ← mul_sum]
    refine mul_le_mul_of_nonneg_left (mul_le_mul_of_nonneg_left ?_ (mul_nonneg hy.α0 hy.γ0.le)) (Real.sqrt_nonneg _)
    exact sum_filter_le (fun x hx => h.nonneg x (List.mem_of_mem_take hx)) N

/-- A robot optimises. -/
theorem AsyncInv.moves (hy : AsyncHyp o p E N sh π L α β μ ν f₀ B) (hsh : ∀ i < N, (s.agents i).graph.n = sh i) (hε : 0 ≤ ε)
    (h : AsyncInv o p E N sh π L α μ ν f₀ ε B s ops t H) (hu : NetInv o p E sh N s ops t) {i : Nat}
    (hu' : NetInv o p E sh N s (ops ++ [.iterate i true]) t') (hi : i < N) (hr : Recent E B ops (.iterate i true)) :
    ∃ v, AsyncInv o p E N sh π L α μ ν f₀ ε B s (ops ++ [.iterate i true]) t' ((i, v) :: H) := by
  have ho : p.acceleration = true → AccelOk p := fun c => by rw [hy.hp] at c; cases c
  obtain ⟨k, hk⟩ := hu.member i hi
  obtain ⟨w, a', ea, -, -, -⟩ := hk.iterate hy.hd hy.hl ho true
  have es : netStep o t (.iterate i true) = ok ⟨Function.update t.agents i a', t.mail⟩ := by
    unfold netStep
    simp only [ea, ok_bind]
  have et : t' = ⟨Function.update t.agents i a', t.mail⟩ := by
    have := netRun_snoc.2 ⟨t, hu.run, es⟩
    rw [hu'.run] at this
    cases this
    rfl
  obtain ⟨X', D, x1, x2, x3, x4⟩ := h.gap hy hu hi hr hk
  obtain ⟨V, Gr, hst⟩ := hy.step hi hk x1 (h.stiefel i hi) x2 ea
  have hself : (t'.agents i) = a' := by rw [et]; exact Function.update_self ..
  have hother : ∀ j, j ≠ i → t'.agents j = t.agents j := fun j hj => by rw [et]; exact Function.update_of_ne hj ..
  have hest : t'.estimate = Function.update t.estimate i a'.X.X := by rw [et, estimate_update]
  have hv0 := DMat.norm_nonneg V
  have hS0 : 0 ≤ ((H.take B).map Prod.snd).sum := by
    refine List.sum_nonneg fun x hx => ?_
    obtain ⟨y, hy, rfl⟩ := List.mem_map.1 hx
    exact h.nonneg y (List.mem_of_mem_take hy)
  have hαγ := mul_nonneg hy.α0 hy.γ0.le
  have hpot := pot_nonneg (B := B) (squares_nonneg H)
  have hsq := List.sum_nonneg (squares_nonneg H)
  have hf : teamCost p.r p.d E t.estimate ≤ f₀ := by
    have h1 : 0 ≤ L / 2 * α * p.localOpt.RGDStepsize ^ 2 * pot B (squares H) :=
      mul_nonneg (mul_nonneg (mul_nonneg (by have := hy.L0; linarith) hy.α0) (sq_nonneg _)) hpot
    have h2 : 0 ≤ p.localOpt.RGDStepsize * μ / 2 * (squares H).sum :=
      mul_nonneg (by have := mul_pos hy.γ0 hy.μ0; linarith) hsq
    linarith [h.energy]
  have hlen : ((H.take B).length : ℝ) ≤ B := by
    exact_mod_cast (List.length_take_le B H)
  have htk : ((H.take B).map Prod.snd).map (· ^ 2) = (squares H).take B := by
    unfold squares
    rw [List.map_map, List.map_take]
    rfl
  have hcost := step_cost hy.pos hy.L0.le hy.γ0.le (hy.smooth i hi) x3 x4 hst.grad hst.fits
    ⟨hk.arr.2.2.2.1, hk.arr.2.2.2.2⟩ hst.new hst.down hst.near hst.second hf
  have hslope : ∀ U, IsBlockGradient p.r p.d (sh i) E t.estimate i U →
      Real.sqrt (slopeSq π p.r p.d (sh i) (t.estimate i) U) ≤
        ν * PArr.norm V + L * (α * p.localOpt.RGDStepsize * ((H.take B).map Prod.snd).sum) := by
    intro U hU
    obtain ⟨W, w1, w2, w3, w4⟩ := hst.slope U ⟨hU.1, hU.2.1⟩
    have := step_slope hy.pos hy.L0.le (mul_nonneg hy.ν0 hv0) (hy.smooth i hi) x3 x4 hU hst.grad w1 w3 w4
    unfold PArr.norm at this
    rw [w2] at this
    exact this
  clear x1 x2 x3 x4
  generalize hS : ((H.take B).map Prod.snd).sum = S at *
  have hamgm := mul_sum_le (PArr.norm V) ((H.take B).map Prod.snd)
  have hcs := sum_sq_le_length ((H.take B).map Prod.snd)
  rw [hS, htk, List.length_map] at hamgm hcs
  have hS2 : 0 ≤ ((squares H).take B).sum :=
    List.sum_nonneg fun x hx => squares_nonneg H x (List.mem_of_mem_take hx)
  have hcons : squares ((i, PArr.norm V) :: H) = V.normSq :: squares H := by
    unfold squares
    rw [List.map_cons, DMat.norm_sq]
  refine ⟨PArr.norm V, ?_, ?_, ?_, ?_, ?_, ?_⟩
  · rw [optimisers_snoc, List.map_cons, h.names]
  · intro x hx
    rcases List.mem_cons.1 hx with rfl | hx
    · exact hv0
    · exact h.nonneg x hx
  · intro j hj v C hC
    obtain ⟨b, u, h1, h2, h3, rfl⟩ := hC
    rcases prefix_snoc h1 with rfl | h1
    · rw [hu'.run] at h2
      cases h2
      obtain ⟨k', hk'⟩ := hu'.member j hj
      refine ⟨⟨hk'.arr.2.2.2.1, hk'.arr.2.2.2.2⟩, ?_⟩
      rw [h3, Nat.sub_self, List.take_zero, norm_self_sub]
      simp
    · obtain ⟨d1, d2⟩ := h.drift j hj v _ ⟨b, u, h1, h2, h3, rfl⟩
      refine ⟨d1, ?_⟩
      have hmono := Clock.moves_mono h1 j
      by_cases c : j = i
      · subst c
        have hm : (Clock.after (ops ++ [.iterate j true])).moves j = (Clock.after ops).moves j + 1 := by
          rw [Clock.after_snoc, Clock.moves_tick, if_pos rfl]
        rw [hm, List.filter_cons_of_pos (by simp), List.map_cons,
          show (Clock.after ops).moves j + 1 - v = ((Clock.after ops).moves j - v) + 1 by omega, List.take_succ_cons,
          List.sum_cons, mul_add, hself]
        have tri := DMat.norm_sub_le (A := a'.X.X) (B := (t.agents j).X.X) (C := (u.agents j).X.X) hst.new
          ⟨hk.arr.2.2.2.1, hk.arr.2.2.2.2⟩
        have := hst.near
        rw [← mul_assoc] at this
        linarith
      · have hm : (Clock.after (ops ++ [.iterate i true])).moves j = (Clock.after ops).moves j := by
          rw [Clock.after_snoc, Clock.moves_tick, if_neg (by simp only [NetOp.iterate.injEq]; exact fun e => c e.1.symm)]
        rw [hm, List.filter_cons_of_neg (by simp [Ne.symm c]), hother j c]
        exact d2
  · intro j hj
    by_cases c : j = i
    · subst c
      rw [hself]
      have := h.stiefel j hj
      rw [← hk.size] at this ⊢
      exact iterate_feasible_plain hy.feas (agReach_inv hk.reach) hk.state (by rw [hy.hp]; decide) this ea
    · rw [hother j c]
      exact h.stiefel j hj
  · rw [hest, hcons, pot_cons, List.sum_cons]
    have hen := h.energy
    have hsm := hy.small
    have hvv := normSq_nonneg V
    have hn2 := DMat.norm_sq V
    generalize PArr.norm V = v at *
    generalize V.normSq = vv at *
    have hγ := hy.γ0
    generalize p.localOpt.RGDStepsize = γ at *
    have hL := hy.L0
    have hα := hy.α0
    have k0 : 2 * (v * S) ≤ B * vv + ((squares H).take B).sum := by
      rw [← hn2]
      have := mul_le_mul_of_nonneg_right hlen (sq_nonneg v)
      linarith
    have k1 : L / 2 * α * γ ^ 2 * (2 * (v * S)) ≤ L / 2 * α * γ ^ 2 * (B * vv + ((squares H).take B).sum) :=
      mul_le_mul_of_nonneg_left k0 (by positivity)
    have k2 := mul_le_mul_of_nonneg_left hsm (mul_nonneg hγ.le hvv)
    have k3 : L / 2 * (α * (γ * v)) ^ 2 = L / 2 * α ^ 2 * γ ^ 2 * vv := by rw [← hn2]; ring
    rw [k3] at hcost
    linarith
  · intro K hK
    have hc0 : 0 ≤ L ^ 2 * α ^ 2 * p.localOpt.RGDStepsize ^ 2 * B := by positivity
    rw [hcons, pot_cons, List.sum_cons]
    have hlast := h.steep (K.erase ops.length) fun k hk => (hK k (mem_of_mem_erase hk)).init (ne_of_mem_erase hk)
    have hvv := normSq_nonneg V
    by_cases hmem : ops.length ∈ K
    · obtain ⟨i', t₁, U, g1, g2, g3, g4⟩ := hK _ hmem
      rw [List.getElem?_append_right le_rfl, Nat.sub_self] at g1
      simp only [List.getElem?_cons_zero, Option.some.injEq, NetOp.iterate.injEq, and_true] at g1
      subst g1
      rw [List.take_append_of_le_length le_rfl, List.take_length, hu.run] at g2
      cases g2
      have hsz : (s.agents i).graph.n = sh i := hsh i hi
      rw [hsz] at g3 g4
      have hle := g4.trans (hslope U g3)
      have hsq2 := pow_le_pow_left₀ hε hle 2
      rw [card_erase_of_mem hmem, Nat.cast_sub (card_pos.2 ⟨_, hmem⟩), Nat.cast_one] at hlast
      have hn2 := DMat.norm_sq V
      generalize PArr.norm V = v at *
      generalize V.normSq = vv at *
      generalize p.localOpt.RGDStepsize = γ at *
      have k1 : S ^ 2 ≤ B * ((squares H).take B).sum := hcs.trans (mul_le_mul_of_nonneg_right hlen hS2)
      have k2 := mul_le_mul_of_nonneg_left k1 (show 0 ≤ 2 * (L ^ 2 * α ^ 2 * γ ^ 2) by positivity)
      have k3 : (ν * v + L * (α * γ * S)) ^ 2 ≤ 2 * ν ^ 2 * vv + 2 * (L ^ 2 * α ^ 2 * γ ^ 2) * S ^ 2 := by
        rw [← hn2]
        linarith [sq_nonneg (ν * v - L * (α * γ * S))]
      linarith
    · rw [erase_eq_of_notMem hmem] at hlast
      have k1 := mul_nonneg hc0 hS2
      have k2 := mul_nonneg (sq_nonneg ν) hvv
      linarith

/-- All events of the schedule. -/
theorem AsyncInv.all (hy : AsyncHyp o p E N (fun i => (s.agents i).graph.n) π L α β μ ν f₀ B) (hε : 0 ≤ ε)
    (hf : f₀ = teamCost p.r p.d E s.estimate) (h : ∀ i < N, OnDuty o p E i (s.agents i)) (hm : s.mail = [])
    (hfe : ∀ i < N, Orthonormal p.r p.d (s.agents i).graph.n (s.agents i).X) (hs : Always (Sound N) ops)
    (hr : Throughout (Recent E B) ops) (e : netRun o s ops = ok t) :
    ∃ H, AsyncInv o p E N (fun i => (s.agents i).graph.n) π L α μ ν f₀ ε B s ops t H := by
  have ho : p.acceleration = true → AccelOk p := fun c => by rw [hy.hp] at c; cases c
  induction ops using List.reverseRecOn generalizing t with
  | nil =>
    cases e
    refine ⟨[], rfl, by simp, ?_, hfe, ?_, ?_⟩
    · rintro j hj v C ⟨b, u, h1, h2, -, rfl⟩
      rw [List.prefix_nil] at h1
      subst h1
      cases h2
      have := (h j hj).member (sh := fun i => (s.agents i).graph.n) rfl
      refine ⟨⟨this.arr.2.2.2.1, this.arr.2.2.2.2⟩, ?_⟩
      rw [norm_self_sub]
      simp
    · simp [squares, pot_nil, hf]
    · intro K hK
      have : K = ∅ := by
        refine eq_empty_of_forall_notMem fun k hk => ?_
        obtain ⟨i, t, Gr, h1, -⟩ := hK k hk
        simp at h1
      rw [this]
      simp [squares, pot_nil]
  | append_singleton l op ih =>
    obtain ⟨s1, s2⟩ := hs.init
    obtain ⟨r1, r2⟩ := hr.init
    obtain ⟨u, hu⟩ := NetInv.all hy.hd hy.hl ho h hm s1
    obtain ⟨u', hu'⟩ := NetInv.all hy.hd hy.hl ho h hm hs
    have : u' = t := by
      have := hu'.run
      rw [e] at this
      cases this
      rfl
    subst this
    obtain ⟨H, hH⟩ := ih s1 r1 hu.run
    by_cases c : ∃ i, op = .iterate i true
    · obtain ⟨i, rfl⟩ := c
      obtain ⟨v, hv⟩ := hH.moves hy (fun _ _ => rfl) hε hu hu' s2 r2
      exact ⟨_, hv⟩
    · exact ⟨H, hH.idle hy hu hu' fun i e => c ⟨i, e⟩⟩

/-- The budget. -/
theorem AsyncInv.budget (hy : AsyncHyp o p E N sh π L α β μ ν f₀ B)
    (h : AsyncInv o p E N sh π L α μ ν f₀ ε B s ops t H) (K : Finset Nat)
    (hK : ∀ k ∈ K, Steep o p E π ε s ops k) :
    teamCost p.r p.d E t.estimate + K.card * (p.localOpt.RGDStepsize * μ / (4 * ν ^ 2 + μ ^ 2) * ε ^ 2) ≤ f₀ := by
  have h1 := h.steep K hK
  have h2 := h.energy
  have hpot := pot_nonneg (B := B) (squares_nonneg H)
  have hsq := List.sum_nonneg (squares_nonneg H)
  have hsm := hy.small
  have hL := hy.L0
  have hα := hy.α0
  have hμ := hy.μ0
  have hγ := hy.γ0
  have hβ0 := hy.β0
  generalize p.localOpt.RGDStepsize = γ at *
  generalize pot B (squares H) = P at *
  generalize (squares H).sum = q at *
  have hk : γ * (L * α * B) ≤ μ / 2 := by
    refine le_trans (mul_le_mul_of_nonneg_left ?_ hγ.le) hsm
    have : 0 ≤ β * Real.sqrt (2 * L * f₀) := mul_nonneg hβ0 (Real.sqrt_nonneg _)
    have : 0 ≤ α ^ 2 * L / 2 := by positivity
    linarith
  have hk2 : L ^ 2 * α ^ 2 * γ ^ 2 * B * B ≤ μ ^ 2 / 4 := by
    have := pow_le_pow_left₀ (by positivity) hk 2
    calc L ^ 2 * α ^ 2 * γ ^ 2 * B * B = (γ * (L * α * B)) ^ 2 := by ring
      _ ≤ (μ / 2) ^ 2 := this
      _ = _ := by ring
  have h3 : K.card * ε ^ 2 ≤ (2 * ν ^ 2 + μ ^ 2 / 2) * q := by
    have a1 : 0 ≤ 2 * (L ^ 2 * α ^ 2 * γ ^ 2 * B) * P := by positivity
    have a2 := mul_le_mul_of_nonneg_right hk2 hsq
    linarith
  have h4 : 0 ≤ L / 2 * α * γ ^ 2 * P := by positivity
  have h5 : K.card * (γ * μ / (4 * ν ^ 2 + μ ^ 2) * ε ^ 2) ≤ γ * μ / 2 * q := by
    have hden : 0 < 4 * ν ^ 2 + μ ^ 2 := by positivity
    calc K.card * (γ * μ / (4 * ν ^ 2 + μ ^ 2) * ε ^ 2) = γ * μ / (4 * ν ^ 2 + μ ^ 2) * (K.card * ε ^ 2) := by ring
      _ ≤ γ * μ / (4 * ν ^ 2 + μ ^ 2) * ((2 * ν ^ 2 + μ ^ 2 / 2) * q) := mul_le_mul_of_nonneg_left h3 (by positivity)
      _ = γ * μ / 2 * q := by field_simp; ring
  linarith

/-- Steep optimisations come to an end. -/
theorem AsyncHyp.settles (hy : AsyncHyp o p E N (fun i => (s.agents i).graph.n) π L α β μ ν f₀ B) (hε : 0 < ε)
    (hf : f₀ = teamCost p.r p.d E s.estimate) (h : ∀ i < N, OnDuty o p E i (s.agents i)) (hm : s.mail = [])
    (hfe : ∀ i < N, Orthonormal p.r p.d (s.agents i).graph.n (s.agents i).X) (sched : Nat → NetOp)
    (hs : ∀ k, Sound N (Clock.after ((List.range k).map sched)) (sched k))
    (hr : ∀ k, Recent E B ((List.range k).map sched) (sched k)) :
    ∃ k₀, ∀ k ≥ k₀, ∀ i t Gr, sched k = .iterate i true → netRun o s ((List.range k).map sched) = ok t →
      IsBlockGradient p.r p.d (s.agents i).graph.n E t.estimate i Gr →
      Real.sqrt (slopeSq π p.r p.d (s.agents i).graph.n (t.estimate i) Gr) < ε := by
  by_contra hno
  push Not at hno
  have ho : p.acceleration = true → AccelOk p := fun c => by rw [hy.hp] at c; cases c
  have always : ∀ k, Always (Sound N) ((List.range k).map sched) ∧
      Throughout (Recent E B) ((List.range k).map sched) := by
    intro k
    induction k with
    | zero => exact ⟨Always.nil _, Throughout.nil _⟩
    | succ k ih =>
      rw [List.range_succ, List.map_append, List.map_cons, List.map_nil]
      exact ⟨Always.snoc ih.1 (hs k), Throughout.snoc ih.2 (hr k)⟩
  let S : Set Nat := {k | ∃ i t Gr, sched k = .iterate i true ∧ netRun o s ((List.range k).map sched) = ok t ∧
      IsBlockGradient p.r p.d (s.agents i).graph.n E t.estimate i Gr ∧
      ε ≤ Real.sqrt (slopeSq π p.r p.d (s.agents i).graph.n (t.estimate i) Gr)}
  have hinf : S.Infinite := by
    rw [Set.infinite_iff_exists_gt]
    intro a
    obtain ⟨k, hk, i, t, Gr, h1, h2, h3, h4⟩ := hno (a + 1)
    exact ⟨k, ⟨i, t, Gr, h1, h2, h3, h4⟩, hk⟩
  have hμ := hy.μ0
  have hγ := hy.γ0
  have hc0 : 0 < p.localOpt.RGDStepsize * μ / (4 * ν ^ 2 + μ ^ 2) := by positivity
  obtain ⟨m, hm'⟩ := exists_nat_gt (f₀ / (p.localOpt.RGDStepsize * μ / (4 * ν ^ 2 + μ ^ 2) * ε ^ 2))
  obtain ⟨K, hKS, hKm⟩ := hinf.exists_subset_card_eq m
  obtain ⟨b, hb⟩ : ∃ b, ∀ k ∈ K, k < b := ⟨K.sup _root_.id + 1, fun k hk => Nat.lt_succ_of_le (le_sup (f := _root_.id) hk)⟩
  obtain ⟨t, ht⟩ := NetInv.all hy.hd hy.hl ho h hm (always b).1
  obtain ⟨H, hH⟩ := AsyncInv.all (ε := ε) hy hε.le hf h hm hfe (always b).1 (always b).2 ht.run
  have := hH.budget hy K fun k hk => by
      obtain ⟨i, t, Gr, h1, h2, h3, h4⟩ := hKS hk
      refine ⟨i, t, Gr, ?_, ?_, h3, h4⟩
      · rw [List.getElem?_map, List.getElem?_range (hb k hk), Option.map_some, h1]
      · rw [← List.map_take, List.take_range, min_eq_left (hb k hk).le]
        exact h2
  have hpos := hy.pos t.estimate
  rw [div_lt_iff₀ (by positivity)] at hm'
  rw [hKm] at this
  linarith

end

end

end Dpgo
