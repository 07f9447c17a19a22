import Verif.Lemmas.ConvergenceTeam

/-! # Progress of the demo -/

namespace Dpgo.Example

open Res Spec PoseGraph

/-! ### Blocks of the gradient -/

/-- The poses of one robot, in their place among all poses. -/
def embed (r d N n a : Nat) (V : DMat ℝ) : DMat ℝ :=
  ⟨r, n * (d + 1), fun ρ j => if a * (n / N) * (d + 1) ≤ j ∧ j < a * (n / N) * (d + 1) + (d + 1) * share N n a then
    V.v ρ (j - a * (n / N) * (d + 1)) else 0⟩

/-- The columns of one robot. -/
def extract (r d N n a : Nat) (X : DMat ℝ) : DMat ℝ :=
  ⟨r, (d + 1) * share N n a, fun ρ j => X.v ρ (a * (n / N) * (d + 1) + j)⟩

theorem embed_at {r d N n a : Nat} (hN : 0 < N) (hNn : N ≤ n) (V : DMat ℝ) {i ρ c : Nat} (hi : i < n)
    (hc : c < d + 1) (ha : a < N) :
    (embed r d N n a V).v ρ (i * (d + 1) + c) =
      if (place N (n / N) i).robot = a then V.v ρ ((place N (n / N) i).frame * (d + 1) + c) else 0 := by
  unfold embed
  simp only
  by_cases h : (place N (n / N) i).robot = a
  · obtain ⟨-, q, q'⟩ := (place_iff_share hN hNn i a (place N (n / N) i).frame hi).1 (by rw [← h])
    rw [if_pos h]
    generalize (place N (n / N) i).frame = k at q q'
    have e : i * (d + 1) + c = a * (n / N) * (d + 1) + (k * (d + 1) + c) := by rw [q]; ring
    have hk : (k + 1) * (d + 1) ≤ share N n a * (d + 1) := Nat.mul_le_mul_right _ q'
    rw [if_pos ⟨by rw [e]; exact Nat.le_add_right _ _, by rw [e, Nat.mul_comm (d + 1)]; lia⟩, e, Nat.add_sub_cancel_left]
  · rw [if_neg h, if_neg]
    rintro ⟨h1, h2⟩
    have b1 : a * (n / N) ≤ i := by
      by_contra hlt
      have : (i + 1) * (d + 1) ≤ a * (n / N) * (d + 1) := Nat.mul_le_mul_right _ (by omega)
      lia
    have b2 : i < a * (n / N) + share N n a := by
      by_contra hlt
      have : (a * (n / N) + share N n a) * (d + 1) ≤ i * (d + 1) := Nat.mul_le_mul_right _ (by omega)
      lia
    refine h (congrArg PoseID.robot ((place_iff_share hN hNn i a (i - a * (n / N)) hi).2 ⟨ha, ?_, ?_⟩))
    · omega
    · omega

theorem sum_embed {N n d a : Nat} (hN : 0 < N) (hNn : N ≤ n) (ha : a < N) (f g : Nat → ℝ) :
    ∑ j ∈ Finset.range (n * (d + 1)), (if a * (n / N) * (d + 1) ≤ j ∧
        j < a * (n / N) * (d + 1) + (d + 1) * share N n a then f j * g (j - a * (n / N) * (d + 1)) else 0) =
      ∑ j ∈ Finset.range ((d + 1) * share N n a), f (a * (n / N) * (d + 1) + j) * g j := by
  have hs := (share_one hN hNn ha).2
  obtain ⟨rest, hrest⟩ : ∃ rest, n * (d + 1) = a * (n / N) * (d + 1) + (d + 1) * share N n a + rest := by
    have : (a * (n / N) + share N n a) * (d + 1) ≤ n * (d + 1) := Nat.mul_le_mul_right _ hs
    exact ⟨n * (d + 1) - (a * (n / N) * (d + 1) + (d + 1) * share N n a), by lia⟩
  rw [hrest, Finset.sum_range_add, Finset.sum_range_add]
  have z1 : ∀ j ∈ Finset.range (a * (n / N) * (d + 1)), (if a * (n / N) * (d + 1) ≤ j ∧
        j < a * (n / N) * (d + 1) + (d + 1) * share N n a then f j * g (j - a * (n / N) * (d + 1)) else 0) = 0 := by
    intro j hj
    rw [Finset.mem_range] at hj
    rw [if_neg (by omega)]
  rw [Finset.sum_eq_zero z1, zero_add]
  have z2 : ∀ j ∈ Finset.range rest, (if a * (n / N) * (d + 1) ≤ a * (n / N) * (d + 1) + (d + 1) * share N n a + j ∧
        a * (n / N) * (d + 1) + (d + 1) * share N n a + j < a * (n / N) * (d + 1) + (d + 1) * share N n a then
        f (a * (n / N) * (d + 1) + (d + 1) * share N n a + j) *
          g (a * (n / N) * (d + 1) + (d + 1) * share N n a + j - a * (n / N) * (d + 1)) else 0) = 0 := by
    intro j _
    rw [if_neg (by omega)]
  rw [Finset.sum_eq_zero z2, add_zero]
  refine Finset.sum_congr rfl fun j hj => ?_
  rw [Finset.mem_range] at hj
  rw [if_pos ⟨by omega, by omega⟩, Nat.add_sub_cancel_left]

theorem dot_embed {r d N n a : Nat} (hN : 0 < N) (hNn : N ≤ n) (ha : a < N) {G V : DMat ℝ} (h1 : G.rows = r)
    (h2 : G.cols = n * (d + 1)) : G.dot (embed r d N n a V) = (extract r d N n a G).dot V := by
  unfold DMat.dot extract embed
  rw [h1, h2]
  refine Finset.sum_congr rfl fun ρ _ => ?_
  rw [← sum_embed hN hNn ha]
  refine Finset.sum_congr rfl fun j _ => ?_
  rw [mul_ite, mul_zero]

theorem normSq_embed {r d N n a : Nat} (hN : 0 < N) (hNn : N ≤ n) (ha : a < N) {V : DMat ℝ} (h1 : V.rows = r)
    (h2 : V.cols = (d + 1) * share N n a) : (embed r d N n a V).normSq = V.normSq := by
  have : (embed r d N n a V).normSq = (embed r d N n a V).dot (embed r d N n a V) := rfl
  rw [this, dot_embed (r := r) (d := d) (G := embed r d N n a V) hN hNn ha rfl rfl]
  unfold DMat.dot DMat.normSq extract embed
  rw [h1, h2]
  refine Finset.sum_congr rfl fun ρ _ => Finset.sum_congr rfl fun j hj => ?_
  rw [Finset.mem_range] at hj
  simp only
  rw [if_pos ⟨by omega, by omega⟩, Nat.add_sub_cancel_left]

section
variable {r d N n a : Nat} {D : List (Meas ℝ)} (hN : 0 < N) (hNn : N ≤ n) (hD : Dataset d n D) (ha : a < N)
include hN hNn hD ha

theorem only_embed (V : DMat ℝ) :
    teamCost r d (D.map (relabel (place N (n / N)))) (only a V) = teamCost r d D (fun _ => embed r d N n a V) := by
  refine teamCost_relabel (fun i j hi hj => place_inj hN hNn hi hj) (fun m hm => ends_below hD hm) hD.unit ?_
  intro i hi ρ c _ hc
  rw [embed_at hN hNn V hi hc ha]
  by_cases h : (place N (n / N) i).robot = a
  · rw [if_pos h, h, only, Function.update_self]
  · rw [if_neg h, only, Function.update_of_ne h]
    rfl

theorem smooth_block {L : ℝ} (hL : ∀ V : DMat ℝ, V.rows = r → V.cols = n * (d + 1) →
      2 * teamCost r d D (fun _ => V) ≤ L * V.normSq) :
    SmoothFor r d (share N n a) (D.map (relabel (place N (n / N)))) a L := by
  intro V v1 v2
  rw [only_embed hN hNn hD ha, ← normSq_embed hN hNn ha v1 v2]
  exact hL _ rfl rfl

theorem gradient_block {X : Joint ℝ} {Y G : DMat ℝ} (hj : Joins r d n (place N (n / N)) X Y)
    (h : IsGradient r d n D Y G) :
    IsBlockGradient r d (share N n a) (D.map (relabel (place N (n / N)))) X a (extract r d N n a G) := by
  obtain ⟨g1, g2, g3⟩ := h
  refine ⟨rfl, rfl, fun V v1 v2 => ?_⟩
  rw [only_embed hN hNn hD ha, teamCost_relabel (fun i j hi hj => place_inj hN hNn hi hj)
      (fun m hm => ends_below hD hm) hD.unit hj, ← dot_embed hN hNn ha g1 g2, ← g3 (embed r d N n a V) rfl rfl]
  refine teamCost_relabel (fun i j hi hj => place_inj hN hNn hi hj) (fun m hm => ends_below hD hm) hD.unit ?_
  intro i hi ρ c hρ hc
  show Y.v ρ (i * (d + 1) + c) + (embed r d N n a V).v ρ (i * (d + 1) + c) = _
  rw [embed_at hN hNn V hi hc ha, hj i hi ρ c hρ hc]
  by_cases h : (place N (n / N) i).robot = a
  · rw [if_pos h, h, Function.update_self]
    rfl
  · rw [if_neg h, Function.update_of_ne h, add_zero]

omit hD in
theorem owner_image : (Finset.range n).filter (fun i => owner N n i = a) =
    (Finset.range (share N n a)).image (fun k => a * (n / N) + k) := by
  have hs := (share_one hN hNn ha).2
  ext i
  simp only [Finset.mem_filter, Finset.mem_range, Finset.mem_image]
  constructor
  · rintro ⟨hi, h⟩
    obtain ⟨-, q, q'⟩ := (place_iff_share hN hNn i a (place N (n / N) i).frame hi).1 (by rw [← h]; rfl)
    exact ⟨_, q', q.symm⟩
  · rintro ⟨k, hk, rfl⟩
    refine ⟨by omega, ?_⟩
    exact congrArg PoseID.robot ((place_iff_share hN hNn (a * (n / N) + k) a k (by omega)).2 ⟨ha, rfl, hk⟩)

omit hD in
theorem slope_block {π : PoseProj} {oc : OptOracles} (hπ : ActsPosewise π oc) {X : Joint ℝ} {Y G : DMat ℝ}
    (hj : Joins r d n (place N (n / N)) X Y) :
    robotNormSq r d N n (DMat.ofMat (oc.proj r d n (Y.toMat _ _) (G.toMat _ _))) a =
      slopeSq π r d (share N n a) (X a) (extract r d N n a G) := by
  have hs := (share_one hN hNn ha).2
  unfold robotNormSq slopeSq
  rw [owner_image hN hNn ha, Finset.sum_image (by intro x _ y _ h; simpa using h)]
  refine Finset.sum_congr rfl fun k hk => ?_
  rw [Finset.mem_range] at hk
  have hi : a * (n / N) + k < n := by omega
  have hpl := (place_iff_share hN hNn (a * (n / N) + k) a k hi).2 ⟨ha, rfl, hk⟩
  have hpose : ∀ A : DMat ℝ, poseOf r d (DMat.ofMat (A.toMat r ((d + 1) * n))) (a * (n / N) + k) =
      poseOf r d A (a * (n / N) + k) := by
    intro A
    ext ρ c
    have hlt : (a * (n / N) + k) * (d + 1) + c < (d + 1) * n := by
      have : (a * (n / N) + k + 1) * (d + 1) ≤ n * (d + 1) := Nat.mul_le_mul_right _ hi
      rw [Nat.mul_comm (d + 1) n]
      have := c.2
      lia
    simp only [poseOf, Matrix.of_apply, DMat.ofMat, DMat.toMat_apply]
    rw [dif_pos ⟨ρ.2, hlt⟩]
  have h := hπ r d n (Y.toMat _ _) (G.toMat _ _) _ hi
  rw [hpose Y, hpose G] at h
  have eY : poseOf r d Y (a * (n / N) + k) = poseOf r d (X a) k := by
    ext ρ c
    simp only [poseOf, Matrix.of_apply]
    rw [hj _ hi ρ c ρ.2 c.2, hpl]
  have eG : poseOf r d G (a * (n / N) + k) = poseOf r d (extract r d N n a G) k := by
    ext ρ c
    simp only [poseOf, Matrix.of_apply, extract]
    congr 1
    ring
  rw [eY, eG] at h
  rw [← h, Finset.sum_range]
  refine Finset.sum_congr rfl fun ρ _ => ?_
  rw [Finset.sum_range]
  rfl

end

/-! ### One round -/

section
variable {o : AgentOracles} {p : AgentParams} {E : List (Meas ℝ)} {sh : Nat → Nat} {N : Nat} {agents : List Agent}

theorem round_progress {q : Options} (hq : q.acceleration = p.acceleration) (hd : 0 < p.d)
    (hp : p.acceleration = false) (hl : p.robust.costType = .L2) (hm : p.localOpt.method = .RTR)
    (hit : p.localOpt.RTRIterations ≠ 1) {π : PoseProj} (hπ : ∀ c, ActsPosewise π (o.opt c)) {L M cc : ℝ}
    (hdec : ∀ c, Decreasing p.localOpt L M cc (o.opt c)) (hL0 : 0 < L) (hpos : ∀ Y, 0 ≤ teamCost p.r p.d E Y)
    (hM : 2 * L * teamCost p.r p.d E (estimates agents) ≤ M) {sel k : Nat} (hsel : sel < N)
    (hL : SmoothFor p.r p.d (sh sel) E sel L) (hE : ∀ m ∈ E, m.r1 < N ∧ m.r2 < N)
    (h : Crew o p E sh N (fun _ => k) agents)
    (hfe : Orthonormal p.r p.d (sh sel) ⟨p.r, p.d, sh sel, estimates agents sel⟩) {agents' : List Agent} (e : teamRound o q N sel k agents = ok agents') :
    ∃ Gr, IsBlockGradient p.r p.d (sh sel) E (estimates agents) sel Gr ∧
      (p.localOpt.gradnormTol ≤ Real.sqrt (slopeSq π p.r p.d (sh sel) (estimates agents sel) Gr) →
        teamCost p.r p.d E (estimates agents') + cc * slopeSq π p.r p.d (sh sel) (estimates agents sel) Gr ≤
          teamCost p.r p.d E (estimates agents)) := by
  have ho : p.acceleration = true → AccelOk p := fun c => by rw [hp] at c; cases c
  obtain ⟨c1, e1, h1, x1⟩ := idle_loop (sel := sel) hd hl ho h
  obtain ⟨c2, e2, h2, x2, hu⟩ := send_loop hsel hE h1
  unfold teamRound at e
  rw [e1, ok_bind, e2, ok_bind, hq, if_neg (by rw [hp]; decide), ok_bind] at e
  obtain ⟨a, ha, hm'⟩ := h2.get hsel
  simp only [if_true] at hm'
  obtain ⟨s, a', ei, -, -, -⟩ := hm'.iterate hd hl ho true
  have e5 : onAgent (fun a => do let (_, a) ← a.iterate o true; ok a) c2 sel = ok (c2.set sel a') :=
    onAgent_ok ha (by simp only [ei, ok_bind])
  have e' : onAgent (fun a => do let (_, a) ← a.iterate o true; ok a) c2 sel = ok agents' := e
  rw [e5] at e'
  cases e'
  have hx : estimates c2 = estimates agents := by rw [x2, x1 hp]
  obtain ⟨Gr, hG, hdesc⟩ := hm'.progress hd hp hl hm hit hπ hdec hL0 hpos (X := estimates c2) (by rw [hx]; exact hM) hL
    (estimates_at ha) (by rw [hx]; exact hfe) (hu a ha) ei
  rw [hx] at hG hdesc
  rw [estimates_set (List.getElem?_eq_some_iff.1 ha).1, hx]
  exact ⟨Gr, hG, hdesc⟩

/-- Estimates stay on the manifold in a round. -/
theorem round_stays {q : Options} (hq : q.acceleration = p.acceleration) (hd : 0 < p.d)
    (hp : p.acceleration = false) (hl : p.robust.costType = .L2) (hm : p.localOpt.method = .RTR)
    (hs : ∀ c, StaysOnManifold (o.opt c)) {sel k : Nat} (hsel : sel < N) (hE : ∀ m ∈ E, m.r1 < N ∧ m.r2 < N)
    (h : Crew o p E sh N (fun _ => k) agents)
    (hfe : ∀ j < N, Orthonormal p.r p.d (sh j) ⟨p.r, p.d, sh j, estimates agents j⟩) {agents' : List Agent}
    (e : teamRound o q N sel k agents = ok agents') :
    ∀ j < N, Orthonormal p.r p.d (sh j) ⟨p.r, p.d, sh j, estimates agents' j⟩ := by
  have ho : p.acceleration = true → AccelOk p := fun c => by rw [hp] at c; cases c
  obtain ⟨c1, e1, h1, x1⟩ := idle_loop (sel := sel) hd hl ho h
  obtain ⟨c2, e2, h2, x2, hu⟩ := send_loop hsel hE h1
  unfold teamRound at e
  rw [e1, ok_bind, e2, ok_bind, hq, if_neg (by rw [hp]; decide), ok_bind] at e
  obtain ⟨a, ha, hm'⟩ := h2.get hsel
  simp only [if_true] at hm'
  obtain ⟨s, a', ei, -, -, -⟩ := hm'.iterate hd hl ho true
  have e5 : onAgent (fun a => do let (_, a) ← a.iterate o true; ok a) c2 sel = ok (c2.set sel a') :=
    onAgent_ok ha (by simp only [ei, ok_bind])
  have e' : onAgent (fun a => do let (_, a) ← a.iterate o true; ok a) c2 sel = ok agents' := e
  rw [e5] at e'
  cases e'
  have hx : estimates c2 = estimates agents := by rw [x2, x1 hp]
  intro j hj
  rw [estimates_set (List.getElem?_eq_some_iff.1 ha).1, hx]
  by_cases c : j = sel
  · subst c
    rw [Function.update_self]
    have := hfe j hj
    rw [← hx, estimates_at ha] at this
    exact hm'.stays hp hm hs this ei
  · rw [Function.update_of_ne c]
    exact hfe j hj

end

/-! ### Runs -/

section
variable {o : AgentOracles} {oc : OptOracles} {q : Options} {d N n : Nat} {D : List (Meas ℝ)}

/-- The estimates of the demo are on the manifold. -/
theorem demo_stays (h0 : 0 < N) (hNn : 2 * N ≤ n) (hn : n * (d + 1) < 2 ^ 32) (hD : Dataset d n D) (hrd : d ≤ q.r)
    (hacc : q.acceleration = false) (ho : LawfulLsq o.qr) (hsvd : LawfulSvd o.svd)
    (hY : OrthoCols (o.stiefel d q.r)) (hs : ∀ c, StaysOnManifold (o.opt c)) {k : Nat} (hk : k < 2 ^ 32)
    {junk : Nat → Nat → ℝ} {s : LoopState} (e : demoLoop o oc { q with numIters := k } junk (N : Int) n D = ok s) :
    ∀ j < N, Orthonormal q.r d (share N n j) ⟨q.r, d, share N n j, estimates s.agents j⟩ := by
  have hNn' : N ≤ n := by omega
  have hd : 0 < d := by rcases hD.dim with rfl | rfl <;> omega
  have hac : q.acceleration = true → u32 (2 * N) ≠ 0 := fun c => by rw [hacc] at c; cases c
  induction k generalizing s with
  | zero =>
    obtain ⟨T, X, s', e1, hX, e2, hj, -⟩ := start_total (q := { q with numIters := 0 }) h0 hNn hn hD hrd ho junk
    unfold demoLoop at e
    rw [e2] at e
    have e : (ok s' : Res LoopState) = ok s := e
    cases e
    obtain ⟨T', X', e1', hT, -⟩ := guess_total (o := o) (p := agentParams q d N) hD (q := q) rfl ho
    rw [e1] at e1'
    cases e1'
    have hT' := (chordal_feasible hsvd e1).2
    rw [hT.2.1, hT.2.2.1] at hT'
    intro a ha ℓ hℓ
    obtain ⟨hi, hpl⟩ : a * (n / N) + ℓ < n ∧ place N (n / N) (a * (n / N) + ℓ) = ⟨a, ℓ⟩ := by
      have hlt : a * (n / N) + ℓ < n := by
        have := (share_one h0 hNn' ha).2
        omega
      exact ⟨hlt, (place_iff_share h0 hNn' _ a ℓ hlt).2 ⟨ha, rfl, hℓ⟩⟩
    have hrot : rotM q.r d ⟨q.r, d, share N n a, estimates s.agents a⟩ ℓ =
        o.stiefel d q.r * rotM d d T (a * (n / N) + ℓ) := by
      ext ρ c
      have := hj _ hi ρ c ρ.2 (by have := c.2; omega)
      rw [hpl] at this
      show (estimates s.agents a).v ρ (ℓ * (d + 1) + c) = _
      rw [← this, hX]
      simp only [rotM, DMat.mul, Matrix.of_apply, Matrix.mul_apply]
      rw [show (DMat.ofMat (o.stiefel d q.r)).cols = d from rfl, Finset.sum_range]
      refine Finset.sum_congr rfl fun x _ => ?_
      rw [show (DMat.ofMat (o.stiefel d q.r)).v ρ x = o.stiefel d q.r ρ x from dif_pos ⟨ρ.2, x.2⟩]
    rw [hrot]
    exact ortho_mul hY (hT' _ hi)
  | succ k ih =>
    obtain ⟨c₀, s₀, e₀, h, e'⟩ := loop_prev h0 hNn hn hD hrd hac ho hk e
    have hi := ih (by omega) e₀
    by_cases hdone : s₀.done = true
    · have : s = s₀ := by
        unfold demoIter at e'
        rw [if_pos hdone] at e'
        cases e'
        rfl
      rw [this]
      exact hi
    · have hdone : s₀.done = false := by simpa using hdone
      obtain ⟨agents, X, R', c, f, c', a, e1, -, -, -, -, -, -, -, hcase⟩ := demoIter_form hdone e'
      obtain ⟨kk, hcrew, hkk⟩ := h.crew
      have hkk := hkk hdone
      subst hkk
      have hE : ∀ m ∈ D.map (relabel (place N (n / N))), m.r1 < N ∧ m.r2 < N := by
        intro m hm
        obtain ⟨x, -, rfl⟩ := List.mem_map.1 hm
        exact ⟨place_robot_lt h0 _, place_robot_lt h0 _⟩
      obtain ⟨agents', e1', hcrew', -⟩ := round_total (q := q) (p := agentParams q d N) rfl hd rfl
        (fun c => by rw [show (agentParams q d N).acceleration = q.acceleration from rfl, hacc] at c; cases c) h.sel hE
        hcrew
      rw [e1] at e1'
      cases e1'
      have hest : estimates s.agents = estimates agents := by
        rcases hcase with ⟨-, -, hh, -⟩ | ⟨-, -, -, hh⟩
        · rw [hh]
        · obtain ⟨ag, ea, -, hes⟩ := anchor_loop h0 hcrew'
          rw [hh] at ea
          cases ea
          exact hes
      rw [hest]
      exact round_stays (q := q) (p := agentParams q d N) (sh := share N n) rfl hd hacc rfl rfl hs h.sel hE hcrew hi e1

end

section
variable {o : AgentOracles} {oc : OptOracles} {q : Options} {d N n : Nat} {D : List (Meas ℝ)}
  (hN : 2 ≤ N) (hN' : N ≤ 100) (hNn : 2 * N ≤ n) (hn : n * (d + 1) < 2 ^ 32) (hD : Dataset d n D) (hrd : d ≤ q.r)
  (hacc : q.acceleration = false) (ho : LawfulLsq o.qr)
  (hsvd : LawfulSvd o.svd) (hY : OrthoCols (o.stiefel d q.r)) (hst : ∀ c, StaysOnManifold (o.opt c))
  {π : PoseProj} (hπ : ∀ c, ActsPosewise π (o.opt c)) (hπc : ActsPosewise π oc) {L cc c₀ : ℝ}
  (hdec : ∀ c, Decreasing OptParams.default L (2 * L * c₀) cc (o.opt c)) (hL0 : 0 < L) (hc0 : 0 ≤ cc)
  (hL : ∀ V : DMat ℝ, V.rows = q.r → V.cols = n * (d + 1) → 2 * teamCost q.r d D (fun _ => V) ≤ L * V.normSq)
include hN hN' hNn hn hD hacc hπ hπc hdec hL0 hc0 hL

theorem iter_progress {k : Nat} {s s' : LoopState} (h : LoopInv o q d N n D c₀ k s) (hlaw : ∀ c, LawfulRtr (o.opt c))
    (hdone : s.done = false)
    (hfe : Orthonormal q.r d (share N n s.selected) ⟨q.r, d, share N n s.selected, estimates s.agents s.selected⟩) {Gr R : DMat ℝ} (hG : IsGradient q.r d n D s.Xopt Gr)
    (hR : R = DMat.ofMat (oc.proj q.r d n (s.Xopt.toMat _ _) (Gr.toMat _ _)))
    (hlast : ∀ l, s.lines.getLast? = some l → l.gradnorm = PArr.norm R)
    (hsel : R.normSq ≤ N * robotNormSq q.r d N n R s.selected) (hne : s.lines ≠ [])
    (e : demoIter o oc q d N n (n / N) s k = ok s') :
    teamCost q.r d (D.map (relabel (place N (n / N)))) (estimates s'.agents) + cc / (100 * N) ≤
      teamCost q.r d (D.map (relabel (place N (n / N)))) (estimates s.agents) := by
  have h0 : 0 < N := by omega
  have hNn' : N ≤ n := by omega
  have hd : 0 < d := by rcases hD.dim with rfl | rfl <;> omega
  obtain ⟨agents, X, R', c, f, c', a, e1, -, -, -, -, -, -, -, hcase⟩ := demoIter_form hdone e
  obtain ⟨kk, hcrew, hkk⟩ := h.crew
  have hkk := hkk hdone
  subst hkk
  have hE : ∀ m ∈ D.map (relabel (place N (n / N))), m.r1 < N ∧ m.r2 < N := by
    intro m hm
    obtain ⟨x, -, rfl⟩ := List.mem_map.1 hm
    exact ⟨place_robot_lt h0 _, place_robot_lt h0 _⟩
  have hpos : ∀ Y, 0 ≤ teamCost q.r d (D.map (relabel (place N (n / N)))) Y := by
    refine teamCost_nonneg ?_ ?_
    · intro m hm
      obtain ⟨x, hx, rfl⟩ := List.mem_map.1 hm
      exact hD.precise x hx
    · intro m hm
      obtain ⟨x, -, rfl⟩ := List.mem_map.1 hm
      exact zero_le_one
  obtain ⟨agents', e1', hcrew', -⟩ := round_total (q := q) (p := agentParams q d N) rfl hd rfl
    (fun c => by rw [show (agentParams q d N).acceleration = q.acceleration from rfl, hacc] at c; cases c) h.sel hE hcrew
  rw [e1] at e1'
  cases e1'
  have hest : estimates s'.agents = estimates agents := by
    rcases hcase with ⟨-, -, hh, -⟩ | ⟨-, -, -, hh⟩
    · rw [hh]
    · obtain ⟨ag, ea, -, hes⟩ := anchor_loop h0 hcrew'
      rw [hh] at ea
      cases ea
      exact hes
  have hj := h.joins hne
  obtain ⟨Gr', hG', hdesc⟩ := round_progress (q := q) (p := agentParams q d N) (sh := share N n) rfl hd hacc rfl rfl
    (show (3 : Int) ≠ 1 by decide) hπ hdec hL0 hpos (by
      have := (h.mono ⟨hacc, hlaw⟩).2.2
      change 2 * L * teamCost q.r d _ _ ≤ _
      gcongr) h.sel (smooth_block h0 hNn' hD h.sel hL) hE hcrew hfe e1
  change IsBlockGradient q.r d _ _ _ _ _ at hG'
  change 1 / 100 ≤ Real.sqrt (slopeSq π q.r d _ _ _) →
    teamCost q.r d _ _ + cc * slopeSq π q.r d _ _ _ ≤ teamCost q.r d _ _ at hdesc
  rw [hest]
  have hs := slope_block h0 hNn' h.sel hπc (r := q.r) (G := Gr) hj
  rw [← hR] at hs
  rw [slopeSq_congr (X' := estimates s.agents s.selected) (B := extract q.r d N n s.selected Gr) (fun _ _ _ _ => rfl)
    (fun ρ hρ j hj' => blockGradient_unique hG' (gradient_block h0 hNn' hD h.sel hj hG) hρ hj'), ← hs] at hdesc
  have hnorm : (1 : ℝ) / 10 ≤ PArr.norm R := by
    have hl := List.getLast?_eq_getLast_of_ne_nil hne
    have h1 := (h.last _ hl).2
    rw [hlast _ hl, hdone] at h1
    by_contra c
    exact absurd (h1.2 (not_le.1 c)) (by decide)
  have hR2 : (1 : ℝ) / 100 ≤ R.normSq := by
    have := pow_le_pow_left₀ (by norm_num) hnorm 2
    unfold PArr.norm at this
    rw [Real.sq_sqrt (normSq_nonneg R)] at this
    norm_num at this ⊢
    exact this
  have hNr : (0 : ℝ) < N := by exact_mod_cast h0
  have hN100 : (N : ℝ) ≤ 100 := by exact_mod_cast hN'
  have hrob : 1 / (100 * (N : ℝ)) ≤ robotNormSq q.r d N n R s.selected := by
    rw [div_le_iff₀ (by positivity)]
    nlinarith
  have hbig : (1 : ℝ) / 100 ≤ Real.sqrt (robotNormSq q.r d N n R s.selected) := by
    refine Real.le_sqrt_of_sq_le (le_trans ?_ hrob)
    rw [div_pow, one_pow]
    refine one_div_le_one_div_of_le (by positivity) ?_
    nlinarith
  refine le_trans ?_ (hdesc hbig)
  have : cc / (100 * N) = cc * (1 / (100 * (N : ℝ))) := by ring
  rw [this]
  gcongr

include hrd ho hsvd hY hst in
/-- Every line but the first costs a share of the initial cost. -/
theorem lines_budget (hlaw : ∀ c, LawfulRtr (o.opt c)) {k : Nat} (hk : k < 2 ^ 32) {junk : Nat → Nat → ℝ}
    {T : PArr ℝ} (hT : chordalInitialization o.svd o.qr D = ok T)
    (hc : c₀ = teamCost q.r d D (fun _ => (DMat.ofMat (o.stiefel d q.r)).mul T.X)) {s : LoopState}
    (e : demoLoop o oc { q with numIters := k } junk (N : Int) n D = ok s) (hne : s.lines ≠ []) :
    teamCost q.r d (D.map (relabel (place N (n / N)))) (estimates s.agents) +
      ((s.lines.length : ℝ) - 1) * (cc / (100 * N)) ≤ c₀ := by
  have h0 : 0 < N := by omega
  have hac : q.acceleration = true → u32 (2 * N) ≠ 0 := fun c => by rw [hacc] at c; cases c
  have hinv : ∀ k < 2 ^ 32, ∀ s, demoLoop o oc { q with numIters := k } junk (N : Int) n D = ok s →
      LoopInv o q d N n D c₀ k s := by
    intro k hk s e
    obtain ⟨T', X, s₀, eT, hX, e₀, h⟩ := loop_total (oc := oc) (q := { q with numIters := k }) h0 hNn hn hD hrd hac ho
      hk junk
    rw [hT] at eT
    cases eT
    rw [e] at e₀
    cases e₀
    rw [hc]
    change LoopInv o { q with numIters := k } d N n D (teamCost q.r d D fun _ => X) k s at h
    rw [hX] at h
    exact ⟨h.crew, h.sel, h.size, h.central, h.count, h.iters, h.robots, h.joins, h.last, h.early,
      h.stopped, h.mono⟩
  induction k generalizing s with
  | zero =>
    have := (hinv 0 hk s e).count.1
    exact absurd (List.length_eq_zero_iff.1 (Nat.le_zero.1 this)) hne
  | succ k ih =>
    obtain ⟨-, s₀, e₀, -, e'⟩ := loop_prev h0 hNn hn hD hrd hac ho hk e
    have h := hinv k (by omega) s₀ e₀
    by_cases hdone : s₀.done = true
    · have : s = s₀ := by
        unfold demoIter at e'
        rw [if_pos hdone] at e'
        cases e'
        rfl
      rw [this] at hne ⊢
      exact ih (by omega) e₀ hne
    · have hdone : s₀.done = false := by simpa using hdone
      obtain ⟨_, _, _, _, _, _, a, -, -, -, -, -, -, -, hl, -⟩ := demoIter_form hdone e'
      by_cases hne₀ : s₀.lines = []
      · have hm := ((hinv (k + 1) hk s e).mono ⟨hacc, hlaw⟩).2.2
        rw [hl, hne₀]
        simpa using hm
      · obtain ⟨j, rfl⟩ : ∃ j, k = j + 1 := by
          refine ⟨k - 1, ?_⟩
          have := h.count.1
          have := List.length_pos_of_ne_nil hne₀
          omega
        obtain ⟨Gr, R, hG, hR, hlast, hsel⟩ := greedy hNn hn hD hrd hac ho hN (by omega) e₀
        have hp := iter_progress hN hN' hNn hn hD hacc hπ hπc hdec hL0 hc0 hL h hlaw hdone
          (demo_stays h0 hNn hn hD hrd hacc ho hsvd hY hst (by omega) e₀ _ h.sel) hG hR hlast
          (hsel hdone).2.2 hne₀ e'
        have hi := ih (by omega) e₀ hne₀
        rw [hl]
        simp only [List.length_append, List.length_cons, List.length_nil, Nat.cast_add, Nat.cast_one, Nat.zero_add]
        linarith

end

end Dpgo.Example
