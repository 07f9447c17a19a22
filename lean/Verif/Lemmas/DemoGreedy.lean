import Verif.Lemmas.DemoRun
import Verif.Props.Objective

/-! # The greedy choice of the demo -/

namespace Dpgo.Example

open Res Spec PoseGraph

/-! ### Norms of blocks -/

theorem sum_mul_range (f : Nat → ℝ) (m e : Nat) :
    ∑ j ∈ Finset.range (m * e), f j = ∑ k ∈ Finset.range m, ∑ c ∈ Finset.range e, f (k * e + c) := by
  induction m with
  | zero => simp
  | succ m ih => rw [Nat.succ_mul, Finset.sum_range_add, ih, Finset.sum_range_succ]

/-- The block of a robot contains the columns of its poses. -/
theorem block_normSq {r d N n : Nat} (hN : 0 < N) (hNn : N ≤ n) (hn : n * (d + 1) < 2 ^ 32) {X B : DMat ℝ}
    (hX : X.rows = r ∧ X.cols = n * (d + 1)) {a : Nat} (ha : a < N)
    (hB : localBlock r d (startIdx (n / N) a) (endIdx N n (n / N) a) X = ok B) :
    B.normSq = robotNormSq r d N n X a := by
  obtain ⟨B', e, h1, h2, h3⟩ := localBlock_ok hn hX ha
  rw [hB] at e
  cases e
  unfold DMat.normSq robotNormSq
  rw [h1, h2]
  simp only [h3]
  have hs := (share_one hN hNn ha).2
  have hset : (Finset.range n).filter (fun i => owner N n i = a) =
      (Finset.range (share N n a)).image (fun k => a * (n / N) + k) := by
    ext i
    simp only [Finset.mem_filter, Finset.mem_range, Finset.mem_image]
    constructor
    · rintro ⟨hi, h⟩
      obtain ⟨-, q, q'⟩ := (place_iff_share hN hNn i a (place N (n / N) i).frame hi).1 (by rw [← h]; rfl)
      exact ⟨_, q', q.symm⟩
    · rintro ⟨k, hk, rfl⟩
      refine ⟨by omega, ?_⟩
      exact congrArg PoseID.robot ((place_iff_share hN hNn (a * (n / N) + k) a k (by omega)).2 ⟨ha, rfl, hk⟩)
  rw [hset, Finset.sum_image (by intro x _ y _ h; simpa using h), Finset.sum_comm (t := Finset.range r)]
  refine Finset.sum_congr rfl fun ρ _ => ?_
  rw [sum_mul_range]
  refine Finset.sum_congr rfl fun k _ => Finset.sum_congr rfl fun c _ => ?_
  rw [show a * (n / N) * (d + 1) + (k * (d + 1) + c) = (a * (n / N) + k) * (d + 1) + c by ring]
  ring

/-! ### The gradient -/

theorem teamCost_neg (r d : Nat) (E : List (Meas ℝ)) (V : DMat ℝ) :
    teamCost r d E (fun _ => V.neg) = teamCost r d E (fun _ => V) := by
  unfold teamCost
  congr 2
  refine List.map_congr_left fun m _ => ?_
  unfold edgeCost rotRes traRes rot tra DMat.neg
  simp only [neg_mul, Finset.sum_neg_distrib]
  congr 3
  · refine Finset.sum_congr rfl fun ρ _ => Finset.sum_congr rfl fun c _ => ?_
    ring
  · refine Finset.sum_congr rfl fun ρ _ => ?_
    ring

/-- The matrix `X Q + G` of the code is the gradient of the cost. -/
theorem Central.gradient {r d n : Nat} {D : List (Meas ℝ)} {g g' : PoseGraph ℝ} (hD : OneRobot 0 d n D)
    (h : Central r d n D g) {X : DMat ℝ} {f : ℝ} {Q G : DMat ℝ} (x1 : X.rows = r) (x2 : X.cols = n * (d + 1))
    (e : Dpgo.problemF g X = ok (f, g')) (hQ : g'.Q = some Q) (hG : g'.G = some G) :
    IsGradient r d n D X (eucGrad Q G X) := by
  obtain ⟨Q', G', hg', -, h1, h2, h3, h4, h5, h6, -⟩ := problemF_full e
  have hQ' : Q' = Q := by
    rw [hg'] at hQ
    exact Option.some.inj hQ
  have hG' : G' = G := by
    rw [hg'] at hG
    exact Option.some.inj hG
  subst hQ' hG'
  have h' := h.problemF e
  have val : ∀ Y : DMat ℝ, Y.rows = r → Y.cols = n * (d + 1) →
      Dpgo.problemF g' Y = ok (objective Q' G' Y, g') ∧ objective Q' G' Y = teamCost r d D (fun _ => Y) := by
    intro Y y1 y2
    have e' : Dpgo.problemF g' Y = ok (objective Q' G' Y, g') := by
      refine problemF_cached hQ hG ?_ ?_ ?_ ?_ ?_ ?_
      · rw [y1, h'.team.r_eq]
      · rw [y2, h'.team.d_eq, h'.n_eq, Nat.mul_comm]
      · rw [h3, x2, y2]
      · rw [h4, x2, y2]
      · rw [h5, x1, y1]
      · rw [h6, x2, y2]
    exact ⟨e', h'.cost hD e'⟩
  have eQ : g'.quadraticMatrix = ok (Q', g') := by
    unfold quadraticMatrix
    split
    · rename_i q hq; rw [hQ] at hq; cases hq; rfl
    · rename_i hq; rw [hQ] at hq; cases hq
  have eG : g'.linearMatrix = ok (G', g') := by
    unfold linearMatrix
    split
    · rename_i q hq; rw [hG] at hq; cases hq; rfl
    · rename_i hq; rw [hG] at hq; cases hq
  refine ⟨?_, ?_, fun V v1 v2 => ?_⟩
  · exact x1
  · show Q'.cols = _
    rw [h4, x2]
  obtain ⟨eX, cX⟩ := val X x1 x2
  obtain ⟨eXV, cXV⟩ := val (X.add V) x1 x2
  obtain ⟨-, cV⟩ := val V v1 v2
  obtain ⟨-, cN⟩ := val V.neg v1 v2
  have hx := Props.C12_expansion two_ne_zero 0 r d g' g' g' g' g' h'.team.reach X V Q' G' _ _
    (by rw [v1, x1]) (by rw [v2, x2]) eQ eG eX eXV
  rw [← cXV, ← cX, ← cV, hx]
  have hz : V.dot G' = 0 := by
    have : objective Q' G' V = objective Q' G' V.neg := by rw [cV, cN, teamCost_neg]
    unfold objective at this
    unfold DMat.dot DMat.mul DMat.neg at this
    simp only [neg_mul, mul_neg, Finset.sum_neg_distrib, neg_neg] at this
    unfold DMat.dot
    linarith
  have : objective Q' G' V = 1 / 2 * (eucHess Q' V).dot V + V.dot G' := rfl
  rw [this]
  rw [hz]
  ring

/-! ### The last iteration -/

theorem loop_succ (o : AgentOracles) (oc : OptOracles) (q : Options) (junk : Nat → Nat → ℝ) (N : Int) (n k : Nat)
    (D : List (Meas ℝ)) :
    demoLoop o oc { q with numIters := k + 1 } junk N n D =
      (demoLoop o oc { q with numIters := k } junk N n D >>= fun s =>
        demoIter o oc q (dimensionOf D) N.toNat n (perRobot N.toNat n) s k) := by
  have h1 : demoStart o { q with numIters := k + 1 } junk N n D = demoStart o q junk N n D := rfl
  have h2 : demoStart o { q with numIters := k } junk N n D = demoStart o q junk N n D := rfl
  unfold demoLoop
  rw [h1, h2]
  cases demoStart o q junk N n D with
  | ok s =>
    rw [ok_bind, ok_bind]
    show Res.foldl (demoIter o oc q (dimensionOf D) N.toNat n (perRobot N.toNat n)) s (List.range (k + 1)) =
      (Res.foldl (demoIter o oc q (dimensionOf D) N.toNat n (perRobot N.toNat n)) s (List.range k) >>= _)
    rw [List.range_succ, Res.foldl_append]
    cases Res.foldl (demoIter o oc q (dimensionOf D) N.toNat n (perRobot N.toNat n)) s (List.range k) with
    | ok s' =>
      rw [ok_bind]
      show (demoIter o oc q (dimensionOf D) N.toNat n (perRobot N.toNat n) s' k).bind _ = _
      cases demoIter o oc q (dimensionOf D) N.toNat n (perRobot N.toNat n) s' k <;> rfl
    | _ => rfl
  | _ => rfl

theorem proj_cast (oc : OptOracles) {r r' d d' n n' : Nat} (h1 : r = r') (h2 : d = d') (h3 : n = n') (X G : DMat ℝ) :
    DMat.ofMat (oc.proj r d n (X.toMat _ _) (G.toMat _ _)) =
      DMat.ofMat (oc.proj r' d' n' (X.toMat _ _) (G.toMat _ _)) := by
  subst h1 h2 h3
  rfl

section
variable {o : AgentOracles} {oc : OptOracles} {q : Options} {d N n : Nat} {D : List (Meas ℝ)}
  (hN : 0 < N) (hNn : 2 * N ≤ n) (hn : n * (d + 1) < 2 ^ 32) (hD : Dataset d n D) (hrd : d ≤ q.r)
  (hacc : q.acceleration = true → u32 (2 * N) ≠ 0) (ho : LawfulLsq o.qr)
include hN hNn hn hD hrd hacc ho

/-- The state before the last iteration. -/
theorem loop_prev {k : Nat} (hk : k + 1 < 2 ^ 32) {junk : Nat → Nat → ℝ} {s : LoopState}
    (e : demoLoop o oc { q with numIters := k + 1 } junk (N : Int) n D = ok s) :
    ∃ c₀ s₀, demoLoop o oc { q with numIters := k } junk (N : Int) n D = ok s₀ ∧ LoopInv o q d N n D c₀ k s₀ ∧
      demoIter o oc q d N n (n / N) s₀ k = ok s := by
  have hn' : n < 2 ^ 32 := lt_of_le_of_lt (Nat.le_mul_of_pos_right n (by omega)) hn
  obtain ⟨T, X, s₀, -, -, e₀, h⟩ := loop_total (oc := oc) (q := { q with numIters := k }) hN hNn hn hD hrd hacc ho
    (show k < 2 ^ 32 by omega) junk
  refine ⟨_, s₀, e₀, ⟨h.crew, h.sel, h.size, h.central, h.count, h.iters, h.robots, h.joins, h.last, h.early,
    h.stopped, h.mono⟩, ?_⟩
  rw [loop_succ, e₀, ok_bind, dimension_eq hD, Int.toNat_natCast, perRobot_eq hn'] at e
  exact e

/-- Printed lines are never taken back. -/
theorem lines_step {k : Nat} (hk : k + 1 < 2 ^ 32) {junk : Nat → Nat → ℝ} {s : LoopState}
    (e : demoLoop o oc { q with numIters := k + 1 } junk (N : Int) n D = ok s) :
    ∃ s₀, demoLoop o oc { q with numIters := k } junk (N : Int) n D = ok s₀ ∧ s₀.lines = s.lines.take k ∧
      (s₀.done = true → s = s₀) ∧ (s₀.done = false → ∃ l, s.lines = s₀.lines ++ [l] ∧ l.robot = s₀.selected) := by
  obtain ⟨c₀, s₀, e₀, h, e'⟩ := loop_prev hN hNn hn hD hrd hacc ho hk e
  by_cases hdone : s₀.done = true
  · have : s = s₀ := by
      unfold demoIter at e'
      rw [if_pos hdone] at e'
      cases e'
      rfl
    refine ⟨s₀, e₀, ?_, fun _ => this, fun c => by rw [hdone] at c; cases c⟩
    rw [this, List.take_of_length_le h.count.1]
  · have hd' : s₀.done = false := by simpa using hdone
    obtain ⟨agents, X, R, c, f, c', a, e1, -, -, -, ha, -, -, hl, -⟩ := demoIter_form hd' e'
    refine ⟨s₀, e₀, ?_, fun c => absurd c hdone, fun _ => ⟨_, hl, ?_⟩⟩
    · rw [hl, List.take_append_of_le_length (h.count.2 hd').ge, List.take_of_length_le h.count.1]
    · obtain ⟨kk, hcrew, hkk⟩ := h.crew
      have hE : ∀ m ∈ D.map (relabel (place N (n / N))), m.r1 < N ∧ m.r2 < N := by
        intro m hm
        obtain ⟨x, -, rfl⟩ := List.mem_map.1 hm
        exact ⟨place_robot_lt hN _, place_robot_lt hN _⟩
      obtain ⟨agents', e1', hcrew', -⟩ := round_total (q := q) (p := agentParams q d N) rfl
        (show 0 < d by rcases hD.dim with rfl | rfl <;> decide) rfl
        (fun c => ⟨hacc c, show (30 : Nat) ≠ 0 by decide⟩) h.sel hE hcrew
      rw [hkk hd', e1] at e1'
      cases e1'
      exact (hcrew'.mem _ a ha).id

theorem lines_prefix {j k : Nat} (hjk : j ≤ k) (hk : k < 2 ^ 32) {junk : Nat → Nat → ℝ} {s : LoopState}
    (e : demoLoop o oc { q with numIters := k } junk (N : Int) n D = ok s) :
    ∃ s₀, demoLoop o oc { q with numIters := j } junk (N : Int) n D = ok s₀ ∧ s₀.lines = s.lines.take j := by
  induction k generalizing s with
  | zero =>
    obtain rfl : j = 0 := by omega
    obtain ⟨T, X, s', -, -, e', h⟩ := loop_total (oc := oc) (q := { q with numIters := 0 }) hN hNn hn hD hrd hacc ho
      (show 0 < 2 ^ 32 by omega) junk
    rw [e] at e'
    cases e'
    refine ⟨s, e, ?_⟩
    have := h.count.1
    rw [List.take_zero]
    exact List.length_eq_zero_iff.1 (by simpa using this)
  | succ k ih =>
    rcases Nat.lt_or_ge k j with h | h
    · obtain rfl : j = k + 1 := by omega
      obtain ⟨T, X, s', -, -, e', h⟩ := loop_total (oc := oc) (q := { q with numIters := k + 1 }) hN hNn hn hD hrd hacc ho
        (show k + 1 < 2 ^ 32 by omega) junk
      rw [e] at e'
      cases e'
      exact ⟨s, e, (List.take_of_length_le h.count.1).symm⟩
    · obtain ⟨s₁, e₁, h₁, -⟩ := lines_step hN hNn hn hD hrd hacc ho (by omega) e
      obtain ⟨s₀, e₀, h₀⟩ := ih h (by omega) e₁
      refine ⟨s₀, e₀, ?_⟩
      rw [h₀, h₁, List.take_take, Nat.min_eq_left h]

omit hN ho hrd in
theorem greedy_step (hN : 2 ≤ N) {k : Nat} {c₀ : ℝ} {s₀ s : LoopState} (h : LoopInv o q d N n D c₀ k s₀)
    (hd' : s₀.done = false) (e' : demoIter o oc q d N n (n / N) s₀ k = ok s) :
    ∃ Gr R, IsGradient q.r d n D s.Xopt Gr ∧
      R = DMat.ofMat (oc.proj q.r d n (s.Xopt.toMat _ _) (Gr.toMat _ _)) ∧
      (∀ l, s.lines.getLast? = some l → l.gradnorm = PArr.norm R) ∧ (s.done = false →
        (∀ b < N, robotNormSq q.r d N n R b ≤
          robotNormSq q.r d N n R s.selected) ∧
        (∀ b < s.selected, robotNormSq q.r d N n R b <
          robotNormSq q.r d N n R s.selected) ∧
        R.normSq ≤ N * robotNormSq q.r d N n R s.selected) := by
  have h0 : 0 < N := by omega
  have hNn' : N ≤ n := by omega
  obtain ⟨agents, X, R, c, f, c', a, e1, e2, e3, e4, ha, hX, -, hl, hcase⟩ := demoIter_form hd' e'
  obtain ⟨kk, hcrew, hkk⟩ := h.crew
  have hE : ∀ m ∈ D.map (relabel (place N (n / N))), m.r1 < N ∧ m.r2 < N := by
    intro m hm
    obtain ⟨x, -, rfl⟩ := List.mem_map.1 hm
    exact ⟨place_robot_lt h0 _, place_robot_lt h0 _⟩
  obtain ⟨agents', e1', hcrew', -⟩ := round_total (q := q) (p := agentParams q d N) rfl
    (show 0 < d by rcases hD.dim with rfl | rfl <;> decide) rfl
    (fun c => ⟨hacc c, show (30 : Nat) ≠ 0 by decide⟩) h.sel hE hcrew
  rw [hkk hd', e1] at e1'
  cases e1'
  have hm := hcrew'.mem _ a ha
  obtain ⟨X', e2', x1, x2, -⟩ := assemble_ok (r := q.r) h0 hNn' hn (X := estimates agents) (fun a ha => by
    obtain ⟨b, hb, hm⟩ := hcrew'.get ha
    have hA := hm.arr
    rw [estimates_at hb]
    exact ⟨hA.2.2.2.1, by rw [hA.2.2.2.2, Nat.mul_comm]; rfl⟩) h.size
  rw [e2] at e2'
  cases e2'
  obtain ⟨f', g', e5⟩ := h.central.total X x1 (by rw [x2, Nat.mul_comm])
  obtain ⟨Q, G, hg, -, e6, -⟩ := grad_total oc e5
  have hc := h.central.problemF e5
  rw [e3] at e6
  cases e6
  have hR : DMat.ofMat (rieGrad oc c Q G X) =
      DMat.ofMat (oc.proj q.r d n (X.toMat _ _) ((eucGrad Q G X).toMat _ _)) :=
    proj_cast oc hc.team.r_eq hc.team.d_eq hc.n_eq X (eucGrad Q G X)
  rw [hX]
  refine ⟨eucGrad Q G X, DMat.ofMat (rieGrad oc c Q G X),
    h.central.gradient hD.toOneRobot x1 x2 e5 (by rw [hg]) (by rw [hg]), hR, ?_, ?_⟩
  · intro l hl'
    rw [hl, List.getLast?_append] at hl'
    simp only [List.getLast?_singleton, Option.some_or, Option.some.injEq] at hl'
    rw [← hl']
  intro hdone
  rcases hcase with ⟨-, c1, -⟩ | ⟨-, -, hsel, -⟩
  · rw [hdone] at c1; cases c1
  have hRs : (DMat.ofMat (rieGrad oc c Q G X)).rows = q.r ∧
      (DMat.ofMat (rieGrad oc c Q G X)).cols = n * (d + 1) := by
    rw [hR]
    exact ⟨rfl, Nat.mul_comm _ _⟩
  generalize DMat.ofMat (rieGrad oc c Q G X) = R at hsel hRs
  have hne := neighbors_ne hN hNn hD h.sel hm.team
  unfold selectNext at hsel
  rw [if_neg (by simpa [Agent.getNeighbors] using hne)] at hsel
  obtain ⟨v, ev, hv, hB⟩ := norms_total (q := q) (N := N) hn hRs
  rw [ev, ok_bind] at hsel
  have hsel : maxElement v = s.selected := Res.ok.inj hsel
  obtain ⟨m1, m2, m3⟩ := maxElement_spec (v := v) (by intro c; rw [c] at hv; simp at hv; omega)
  rw [hsel, hv] at m1
  rw [hsel] at m2 m3
  rw [hv] at m2
  have hval : ∀ b < N, v.getD b 0 = Real.sqrt (robotNormSq q.r d N n R b) := by
    intro b hb
    obtain ⟨B, eB, hb'⟩ := hB b hb
    rw [hb', PArr.norm, block_normSq h0 hNn' hn hRs hb eB]
  have hnn : ∀ b, 0 ≤ robotNormSq q.r d N n R b := fun b =>
    Finset.sum_nonneg fun _ _ => Finset.sum_nonneg fun _ _ => Finset.sum_nonneg fun _ _ => sq_nonneg _
  have hle : ∀ b < N, robotNormSq q.r d N n R b ≤
      robotNormSq q.r d N n R s.selected := by
    intro b hb
    have := m2 b hb
    rw [hval b hb, hval _ m1] at this
    exact (Real.sqrt_le_sqrt_iff (hnn _)).1 this
  refine ⟨hle, ?_, ?_⟩
  · intro b hb
    have := m3 b hb
    rw [hval b (by omega), hval _ m1] at this
    exact (Real.sqrt_lt_sqrt_iff (hnn _)).1 this
  · have : Nonempty (DMat ℝ) := ⟨R⟩
    choose! B eB hB' using hB
    rw [normSq_blocks h0 hn hRs eB]
    have : ∀ b ∈ Finset.range N, (B b).normSq ≤ robotNormSq q.r d N n R s.selected := by
      intro b hb
      rw [Finset.mem_range] at hb
      rw [block_normSq h0 hNn' hn hRs hb (eB b hb)]
      exact hle b hb
    refine (Finset.sum_le_card_nsmul _ _ _ this).trans_eq ?_
    rw [Finset.card_range, nsmul_eq_mul]

omit hN in
/-- The choice made in an iteration after which the loop goes on. -/
theorem greedy (hN : 2 ≤ N) {k : Nat} (hk : k + 1 < 2 ^ 32) {junk : Nat → Nat → ℝ} {s : LoopState}
    (e : demoLoop o oc { q with numIters := k + 1 } junk (N : Int) n D = ok s) :
    ∃ Gr R, IsGradient q.r d n D s.Xopt Gr ∧
      R = DMat.ofMat (oc.proj q.r d n (s.Xopt.toMat _ _) (Gr.toMat _ _)) ∧
      (∀ l, s.lines.getLast? = some l → l.gradnorm = PArr.norm R) ∧ (s.done = false →
        (∀ b < N, robotNormSq q.r d N n R b ≤
          robotNormSq q.r d N n R s.selected) ∧
        (∀ b < s.selected, robotNormSq q.r d N n R b <
          robotNormSq q.r d N n R s.selected) ∧
        R.normSq ≤ N * robotNormSq q.r d N n R s.selected) := by
  have h0 : 0 < N := by omega
  have hNn' : N ≤ n := by omega
  induction k generalizing s with
  | zero =>
    obtain ⟨c₀, s₀, e₀, h, e'⟩ := loop_prev h0 hNn hn hD hrd hacc ho hk e
    by_cases hdone : s₀.done = true
    · exact absurd (List.length_eq_zero_iff.1 (Nat.le_zero.1 h.count.1)) (h.stopped hdone)
    · exact greedy_step hNn hn hD hacc hN h (by simpa using hdone) e'
  | succ k ih =>
    obtain ⟨c₀, s₀, e₀, h, e'⟩ := loop_prev h0 hNn hn hD hrd hacc ho hk e
    by_cases hdone : s₀.done = true
    · have : s = s₀ := by
        unfold demoIter at e'
        rw [if_pos hdone] at e'
        cases e'
        rfl
      rw [this]
      exact ih (by omega) e₀
    · exact greedy_step hNn hn hD hacc hN h (by simpa using hdone) e'

end

end Dpgo.Example
