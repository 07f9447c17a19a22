import Verif.Lemmas.Incidence
import Verif.Lemmas.Measurements

/-! # Quadratic and linear forms of the data matrices of a pose graph -/

namespace Dpgo

open Finset Res Spec

variable {K : Type} [Field K]

/-- Diagonal of the weight matrix. -/
def om (d : Nat) (wk wt : K) (s : Nat) : K := if s < d then wk else wt

/-- Diagonal of the weight matrix of a measurement. -/
def omM (d : Nat) (m : Meas K) (s : Nat) : K := om d (m.weight * m.kappa) (m.weight * m.tau) s

/-- Residual entry `s` of a measurement between homogeneous rows `xi` and `xj`. -/
def edgeH (d : Nat) (m : Meas K) (xi xj : Nat → K) (s : Nat) : K :=
  if s < d then xj s - ∑ r ∈ range d, xi r * m.R.v r s
  else xj d - xi d - ∑ r ∈ range d, xi r * m.t.v r 0

/-- Weighted squared residual for one row. -/
def edgeSqH (d : Nat) (m : Meas K) (xi xj : Nat → K) : K :=
  ∑ s ∈ range (d + 1), omM d m s * (edgeH d m xi xj s) ^ 2

/-- Entries of a block of a row vector. -/
def blk (d : Nat) (x : Nat → K) (i c : Nat) : K := x (i * (d + 1) + c)

theorem edgeSq_eq (d : Nat) (m : Meas K) (x : Nat → K) :
    edgeSq d m x = edgeSqH d m (blk d x m.p1) (blk d x m.p2) := rfl

theorem edgeCost_eq (r d : Nat) (m : Meas K) (A : DMat K) (i : Nat) (B : DMat K) (j : Nat) :
    edgeCost r d m A i B j =
      ∑ ρ ∈ range r, edgeSqH d m (blk d (A.v ρ) i) (blk d (B.v ρ) j) := by
  unfold edgeCost rotRes traRes edgeSqH
  rw [mul_add, Finset.mul_sum, Finset.mul_sum, Finset.mul_sum, Finset.mul_sum,
    ← Finset.sum_add_distrib]
  refine Finset.sum_congr rfl fun ρ _ => ?_
  rw [Finset.sum_range_succ, Finset.mul_sum, Finset.mul_sum]
  congr 1
  · refine Finset.sum_congr rfl fun s hs => ?_
    rw [Finset.mem_range] at hs
    simp only [omM, om, edgeH, if_pos hs]
    unfold blk rot
    ring
  · simp only [omM, om, edgeH, Nat.lt_irrefl, if_false]
    unfold blk tra rot
    ring

theorem measT_v (d : Nat) (m : Meas K) (r s : Nat) (hr : r < d + 1) (hs : s < d + 1) :
    (measT d m).v r s = if r < d then (if s < d then m.R.v r s else m.t.v r 0)
      else (if s < d then 0 else 1) := by
  unfold measT DMat.setBlock DMat.block DMat.zero DMat.one
  simp only [Nat.zero_le, true_and, Nat.zero_add, Nat.sub_zero]
  by_cases h1 : r < d <;> by_cases h2 : s < d
  · rw [if_neg (by omega), if_neg (by omega), if_pos (by omega), if_pos h1, if_pos h2]
  · have : s = d := by omega
    subst this
    rw [if_neg (by omega), if_pos (by omega), if_pos h1, if_neg h2, Nat.sub_self]
  · rw [if_neg (by omega), if_neg (by omega), if_neg (by omega), if_neg h1, if_pos h2]
  · have h3 : s = d := by omega
    have h4 : r = d := by omega
    subst h3 h4
    rw [if_pos (by omega), if_neg h1, if_neg h2, if_pos (by omega)]

theorem measT_rows (d : Nat) (m : Meas K) : (measT d m).rows = d + 1 ∧ (measT d m).cols = d + 1 :=
  ⟨rfl, rfl⟩

/-- `xj − xi T` in coordinates. -/
theorem edgeH_eq (d : Nat) (m : Meas K) (xi xj : Nat → K) (s : Nat) (hs : s < d + 1) :
    edgeH d m xi xj s = xj s - ∑ r ∈ range (d + 1), xi r * (measT d m).v r s := by
  unfold edgeH
  rw [Finset.sum_range_succ, measT_v d m d s (by omega) hs, if_neg (Nat.lt_irrefl d)]
  have e : ∀ r ∈ range d, xi r * (measT d m).v r s =
      xi r * (if s < d then m.R.v r s else m.t.v r 0) := by
    intro r hr
    rw [Finset.mem_range] at hr
    rw [measT_v d m r s (by omega) hs, if_pos hr]
  rw [Finset.sum_congr rfl e]
  by_cases h : s < d
  · simp [h]
  · have : s = d := by omega
    subst this
    simp only [Nat.lt_irrefl, if_false, mul_one]
    ring

theorem mul_omega_v (A : DMat K) (d : Nat) (wk wt : K) (hA : A.cols = d + 1) (i s : Nat)
    (hs : s < d + 1) : (A.mul (omegaMat d wk wt)).v i s = A.v i s * om d wk wt s := by
  unfold DMat.mul omegaMat
  simp only [hA, mul_ite, mul_zero]
  rw [sum_range_ite_eq (d + 1) s (fun k => if k < d then A.v i k * wk else A.v i k * wt) hs]
  unfold om
  split <;> rfl

/-- `A Ω Bᵀ` in coordinates. -/
theorem mul_omega_tr_v (A B : DMat K) (d : Nat) (wk wt : K) (hA : A.cols = d + 1)
    (i j : Nat) : ((A.mul (omegaMat d wk wt)).mul B.tr).v i j =
      ∑ s ∈ range (d + 1), A.v i s * om d wk wt s * B.v j s := by
  change ∑ s ∈ range (omegaMat d wk wt).cols, (A.mul (omegaMat d wk wt)).v i s * B.v j s = _
  refine Finset.sum_congr rfl fun s hs => ?_
  rw [mul_omega_v A d wk wt hA i s (Finset.mem_range.1 hs)]

theorem addColBlock_ok {d idx : Nat} {D B D' : DMat K} (e : addColBlock d idx D B = ok D') :
    D'.rows = D.rows ∧ D'.cols = D.cols ∧ B.rows ≤ D.rows ∧ idx * (d + 1) + B.cols ≤ D.cols ∧
    ∀ i j, D'.v i j = D.v i j +
      if i < B.rows ∧ idx * (d + 1) ≤ j ∧ j < idx * (d + 1) + B.cols
      then B.v i (j - idx * (d + 1)) else 0 := by
  unfold addColBlock at e
  rw [bind_eq_ok] at e
  obtain ⟨_, h, e⟩ := e
  rw [require_eq_ok] at h
  unfold DMat.inRange at h
  simp only [Nat.zero_add, Bool.and_eq_true, decide_eq_true_eq] at h
  cases e
  refine ⟨rfl, rfl, h.1, h.2, ?_⟩
  intro i j
  unfold DMat.addBlock
  simp only [Nat.zero_le, true_and, Nat.zero_add, Nat.sub_zero]
  by_cases c : i < B.rows ∧ idx * (d + 1) ≤ j ∧ j < idx * (d + 1) + B.cols
  · rw [if_pos c, if_pos c]
  · rw [if_neg c, if_neg c, add_zero]

/-- Entry of an updated block in block coordinates. -/
theorem addColBlock_blk {d idx : Nat} {D B D' : DMat K} (e : addColBlock d idx D B = ok D')
    (hB : B.cols = d + 1) (r i c : Nat) (hr : r < B.rows) (hc : c < d + 1) :
    D'.v r (i * (d + 1) + c) = D.v r (i * (d + 1) + c) + if i = idx then B.v r c else 0 := by
  obtain ⟨-, -, -, -, h⟩ := addColBlock_ok e
  rw [h, hB]
  congr 1
  by_cases hi : i = idx
  · subst hi
    rw [if_pos rfl, if_pos ⟨hr, by omega, by omega⟩, Nat.add_sub_cancel_left]
  · rw [if_neg hi, if_neg]
    rintro ⟨-, h1, h2⟩
    apply hi
    rcases Nat.lt_trichotomy i idx with hl | hl | hl
    · have : (i + 1) * (d + 1) ≤ idx * (d + 1) := Nat.mul_le_mul_right _ hl
      rw [Nat.succ_mul] at this
      omega
    · exact hl
    · have : (idx + 1) * (d + 1) ≤ i * (d + 1) := Nat.mul_le_mul_right _ hl
      rw [Nat.succ_mul] at this
      omega

theorem addColBlock_idx {d idx n : Nat} {D B D' : DMat K} (e : addColBlock d idx D B = ok D')
    (hB : B.cols = d + 1) (hD : D.cols = (d + 1) * n) : idx < n := by
  obtain ⟨-, -, -, h, -⟩ := addColBlock_ok e
  rw [hB, hD] at h
  by_contra hc
  have : n * (d + 1) ≤ idx * (d + 1) := Nat.mul_le_mul_right _ (by omega)
  rw [Nat.mul_comm (d + 1) n] at h
  omega

/-- Quadratic form of the block-diagonal matrix stored in a block row. -/
def dform (d n : Nat) (D : DMat K) (x : Nat → K) : K :=
  ∑ i ∈ range n, ∑ r ∈ range (d + 1), ∑ c ∈ range (d + 1),
    blk d x i r * D.v r (i * (d + 1) + c) * blk d x i c

/-- Quadratic form of one block. -/
def bform (d : Nat) (B : DMat K) (y : Nat → K) : K :=
  ∑ r ∈ range (d + 1), ∑ c ∈ range (d + 1), y r * B.v r c * y c

theorem dform_addColBlock {d idx n : Nat} {D B D' : DMat K} (e : addColBlock d idx D B = ok D')
    (hB : B.cols = d + 1) (hB' : B.rows = d + 1) (hD : D.cols = (d + 1) * n) (x : Nat → K) :
    dform d n D' x = dform d n D x + bform d B (blk d x idx) := by
  have hidx := addColBlock_idx e hB hD
  unfold dform
  have h1 : ∀ i ∈ range n, ∑ r ∈ range (d + 1), ∑ c ∈ range (d + 1),
      blk d x i r * D'.v r (i * (d + 1) + c) * blk d x i c =
      (∑ r ∈ range (d + 1), ∑ c ∈ range (d + 1),
        blk d x i r * D.v r (i * (d + 1) + c) * blk d x i c) +
      if i = idx then bform d B (blk d x i) else 0 := by
    intro i _
    have h2 : ∀ r ∈ range (d + 1), ∀ c ∈ range (d + 1),
        blk d x i r * D'.v r (i * (d + 1) + c) * blk d x i c =
        blk d x i r * D.v r (i * (d + 1) + c) * blk d x i c +
        (if i = idx then blk d x i r * B.v r c * blk d x i c else 0) := by
      intro r hr c hc
      rw [Finset.mem_range] at hr hc
      rw [addColBlock_blk e hB r i c (by omega) hc]
      split <;> ring
    rw [Finset.sum_congr rfl fun r hr => Finset.sum_congr rfl (h2 r hr)]
    simp only [Finset.sum_add_distrib]
    congr 1
    by_cases hi : i = idx
    · simp only [hi, if_true]; rfl
    · simp [hi]
  rw [Finset.sum_congr rfl h1, Finset.sum_add_distrib,
    sum_range_ite_eq n idx (fun i => bform d B (blk d x i)) hidx]

theorem bform_out (d : Nat) (T : DMat K) (wk wt : K) (hT : T.cols = d + 1) (y : Nat → K) :
    bform d ((T.mul (omegaMat d wk wt)).mul T.tr) y =
      ∑ s ∈ range (d + 1), om d wk wt s * (∑ r ∈ range (d + 1), y r * T.v r s) ^ 2 := by
  unfold bform
  simp only [mul_omega_tr_v T T d wk wt hT]
  have := qform_factor (d + 1) (d + 1) T.v (om d wk wt) y
  unfold qform at this
  exact this

theorem bform_inc (d : Nat) (wk wt : K) (y : Nat → K) :
    bform d (omegaMat d wk wt) y = ∑ s ∈ range (d + 1), om d wk wt s * (y s) ^ 2 := by
  unfold bform omegaMat
  refine Finset.sum_congr rfl fun s hs => ?_
  rw [Finset.mem_range] at hs
  simp only [mul_ite, mul_zero, ite_mul, zero_mul]
  rw [sum_range_ite_eq' (d + 1) s
    (fun i => if s < d then y s * wk * y i else y s * wt * y i) hs]
  unfold om
  split <;> ring

/-- Block symmetry of a block row. -/
def BSymm (d n : Nat) (D : DMat K) : Prop :=
  ∀ i r c, i < n → r < d + 1 → c < d + 1 → D.v r (i * (d + 1) + c) = D.v c (i * (d + 1) + r)

theorem bsymm_addColBlock {d idx n : Nat} {D B D' : DMat K} (e : addColBlock d idx D B = ok D')
    (hB : B.cols = d + 1) (hB' : B.rows = d + 1) (hs : ∀ r c, B.v r c = B.v c r)
    (hD : BSymm d n D) : BSymm d n D' := by
  intro i r c hi hr hc
  rw [addColBlock_blk e hB r i c (by omega) hc, addColBlock_blk e hB c i r (by omega) hr,
    hD i r c hi hr hc, hs r c]

theorem omega_symm (d : Nat) (wk wt : K) (r c : Nat) :
    (omegaMat d wk wt).v r c = (omegaMat d wk wt).v c r := by
  unfold omegaMat
  simp only
  by_cases h : r = c
  · subst h; rfl
  · rw [if_neg h, if_neg (fun e => h e.symm)]

theorem outBlock_symm (d : Nat) (T : DMat K) (wk wt : K) (hT : T.cols = d + 1) (r c : Nat) :
    ((T.mul (omegaMat d wk wt)).mul T.tr).v r c = ((T.mul (omegaMat d wk wt)).mul T.tr).v c r := by
  rw [mul_omega_tr_v T T d wk wt hT, mul_omega_tr_v T T d wk wt hT]
  exact Finset.sum_congr rfl fun s _ => by ring

/-- Linear form of a block row. -/
theorem lin_addColBlock {d idx n : Nat} {D B D' : DMat K} (e : addColBlock d idx D B = ok D')
    (hB : B.cols = d + 1) (hD : D.cols = (d + 1) * n) (x : Nat → K) (ρ : Nat) (hρ : ρ < B.rows) :
    ∑ j ∈ range ((d + 1) * n), x j * D'.v ρ j =
      ∑ j ∈ range ((d + 1) * n), x j * D.v ρ j + ∑ c ∈ range (d + 1), blk d x idx c * B.v ρ c := by
  have hidx := addColBlock_idx e hB hD
  rw [sum_range_blocks, sum_range_blocks]
  have h1 : ∀ i ∈ range n, ∑ c ∈ range (d + 1), x (i * (d + 1) + c) * D'.v ρ (i * (d + 1) + c) =
      ∑ c ∈ range (d + 1), x (i * (d + 1) + c) * D.v ρ (i * (d + 1) + c) +
      if i = idx then ∑ c ∈ range (d + 1), blk d x i c * B.v ρ c else 0 := by
    intro i _
    have h2 : ∀ c ∈ range (d + 1), x (i * (d + 1) + c) * D'.v ρ (i * (d + 1) + c) =
        x (i * (d + 1) + c) * D.v ρ (i * (d + 1) + c) +
        (if i = idx then blk d x i c * B.v ρ c else 0) := by
      intro c hc
      rw [Finset.mem_range] at hc
      rw [addColBlock_blk e hB ρ i c hρ hc]
      unfold blk
      split <;> ring
    rw [Finset.sum_congr rfl h2, Finset.sum_add_distrib]
    congr 1
    by_cases hi : i = idx
    · simp only [hi, if_true]
    · simp [hi]
  rw [Finset.sum_congr rfl h1, Finset.sum_add_distrib,
    sum_range_ite_eq n idx (fun i => ∑ c ∈ range (d + 1), blk d x i c * B.v ρ c) hidx]

namespace PoseGraph

omit [Field K] in
/-- Outcome of `classify` on a stored shared measurement. -/
theorem Inv.classify_eq {g : PoseGraph K} {log : List (Meas K)} (h : Inv g log) (m : Meas K)
    (hm : m ∈ g.sharedLcs) :
    g.classify m =
      if g.flag (foreignID g.id m).robot = true ∧
          OMap.find? ltPoseID (foreignID g.id m) g.neighborPoses = none then ok .missing
      else match usedPose g m with
        | none => ok .skip
        | some P => if m.r1 = g.id then ok (.out m.p1 P) else ok (.inc m.p2 P) := by
  rw [h.shared, List.mem_filter] at hm
  obtain ⟨hm, hs⟩ := hm
  have hwf := h.wf m hm
  unfold MeasWF at hwf
  rw [isShared_iff] at hs
  have hact : (g.isNeighborActive (foreignID g.id m).robot = ok true) ↔
      g.flag (foreignID g.id m).robot = true := by
    rw [h.isNeighborActive_eq]; simp
  unfold usedPose
  simp only [hact]
  unfold classify foreignID
  by_cases c : m.r1 = g.id
  · have c2 : m.r2 ≠ g.id := by omega
    have b2 : (m.r2 != g.id) = true := by simp [c2]
    have u1 : PoseID.make m.r2 m.p2 = ⟨m.r2, m.p2⟩ := by
      unfold PoseID.make; rw [u32_of_lt (by omega), u32_of_lt (by omega)]
    rw [if_pos c]
    simp only [c, b2, beq_self_eq_true, if_true, check_true, ok_bind, u1, h.isNeighborActive_eq,
      u32_of_lt (show m.r2 < 2 ^ 32 by omega)]
    cases g.flag m.r2 <;> cases OMap.find? ltPoseID (⟨m.r2, m.p2⟩ : PoseID) g.neighborPoses <;>
      cases g.useInactive <;> simp
  · have c2 : m.r2 = g.id := by omega
    have b1 : (m.r1 == g.id) = false := by simp [c]
    have u1 : PoseID.make m.r1 m.p1 = ⟨m.r1, m.p1⟩ := by
      unfold PoseID.make; rw [u32_of_lt (by omega), u32_of_lt (by omega)]
    rw [if_neg c]
    simp only [b1, c, c2, beq_self_eq_true, Bool.false_eq_true, if_false, check_true, ok_bind, u1,
      h.isNeighborActive_eq, u32_of_lt (show m.r1 < 2 ^ 32 by omega)]
    cases g.flag m.r1 <;> cases OMap.find? ltPoseID (⟨m.r1, m.p1⟩ : PoseID) g.neighborPoses <;>
      cases g.useInactive <;> simp

/-- Quadratic contribution of a shared measurement for one row. -/
def shQ (g : PoseGraph K) (m : Meas K) (x : Nat → K) : K :=
  match usedPose g m with
  | none => 0
  | some _ => if m.r1 = g.id then
      ∑ s ∈ range (g.d + 1), omM g.d m s *
        (∑ r ∈ range (g.d + 1), blk g.d x m.p1 r * (measT g.d m).v r s) ^ 2
    else ∑ s ∈ range (g.d + 1), omM g.d m s * (blk g.d x m.p2 s) ^ 2

/-- Quadratic contribution of a prior for one row. -/
def prQ (d : Nat) (p : Nat × PArr K) (x : Nat → K) : K :=
  ∑ s ∈ range (d + 1), om d priorKappa priorTau s * (blk d x p.1 s) ^ 2

/-- Linear contribution of a shared measurement for row `ρ`. -/
def shG (g : PoseGraph K) (ρ : Nat) (m : Meas K) (x : Nat → K) : K :=
  match usedPose g m with
  | none => 0
  | some P => if m.r1 = g.id then
      - ∑ s ∈ range (g.d + 1), omM g.d m s * P.X.v ρ s *
        (∑ r ∈ range (g.d + 1), blk g.d x m.p1 r * (measT g.d m).v r s)
    else - ∑ s ∈ range (g.d + 1), omM g.d m s * blk g.d x m.p2 s *
        (∑ q ∈ range (g.d + 1), P.X.v ρ q * (measT g.d m).v q s)

/-- Linear contribution of a prior for row `ρ`. -/
def prG (d ρ : Nat) (p : Nat × PArr K) (x : Nat → K) : K :=
  - ∑ s ∈ range (d + 1), om d priorKappa priorTau s * p.2.X.v ρ s * blk d x p.1 s

theorem Inv.qShared_ok {g : PoseGraph K} {log : List (Meas K)} (h : Inv g log) (l : List (Meas K))
    (hl : ∀ m ∈ l, m ∈ g.sharedLcs) (D D' : DMat K) (e : g.qShared l D = ok (some D'))
    (hr : D.rows = g.d + 1) (hc : D.cols = (g.d + 1) * g.n) :
    D'.rows = g.d + 1 ∧ D'.cols = (g.d + 1) * g.n ∧
    (BSymm g.d g.n D → BSymm g.d g.n D') ∧
    ∀ x, dform g.d g.n D' x = dform g.d g.n D x + (l.map fun m => g.shQ m x).sum := by
  induction l generalizing D with
  | nil =>
    simp only [qShared] at e
    cases e
    exact ⟨hr, hc, fun h => h, by simp⟩
  | cons m l ih =>
    have hm := hl m (by simp)
    have hl' := fun x hx => hl x (List.mem_cons_of_mem m hx)
    simp only [qShared, h.classify_eq m hm] at e
    split at e
    · cases e
    · cases hu : usedPose g m with
      | none =>
        simp only [hu, ok_bind] at e
        obtain ⟨h1, h2, h3, h4⟩ := ih hl' D e hr hc
        refine ⟨h1, h2, h3, fun x => ?_⟩
        rw [h4, List.map_cons, List.sum_cons]
        simp only [shQ, hu, zero_add]
      | some P =>
        simp only [hu] at e
        by_cases c : m.r1 = g.id
        · simp only [c, if_true, ok_bind, bind_eq_ok] at e
          obtain ⟨D1, hD1, e⟩ := e
          obtain ⟨a1, a2, -, -, -⟩ := addColBlock_ok hD1
          obtain ⟨h1, h2, h3, h4⟩ := ih hl' D1 e (a1.trans hr) (a2.trans hc)
          refine ⟨h1, h2, ?_, fun x => ?_⟩
          · intro hs
            apply h3
            exact bsymm_addColBlock hD1 rfl rfl (outBlock_symm _ _ _ _ rfl) hs
          · rw [h4, List.map_cons, List.sum_cons,
              dform_addColBlock (B := ((measT g.d m).mul
                (omegaMat g.d (m.weight * m.kappa) (m.weight * m.tau))).mul (measT g.d m).tr)
                hD1 rfl rfl hc x, bform_out _ _ _ _ rfl]
            simp only [shQ, hu, c, if_true, omM]
            ring
        · simp only [c, if_false, ok_bind, bind_eq_ok] at e
          obtain ⟨D1, hD1, e⟩ := e
          obtain ⟨a1, a2, -, -, -⟩ := addColBlock_ok hD1
          obtain ⟨h1, h2, h3, h4⟩ := ih hl' D1 e (a1.trans hr) (a2.trans hc)
          refine ⟨h1, h2, ?_, fun x => ?_⟩
          · intro hs
            apply h3
            exact bsymm_addColBlock hD1 rfl rfl (omega_symm _ _ _) hs
          · rw [h4, List.map_cons, List.sum_cons,
              dform_addColBlock (B := omegaMat g.d (m.weight * m.kappa) (m.weight * m.tau))
                hD1 rfl rfl hc x, bform_inc]
            simp only [shQ, hu, c, if_false, omM]
            ring

theorem qPriors_ok {d n : Nat} (l : OMap Nat (PArr K)) (D D' : DMat K) (e : qPriors d l D = ok D')
    (hr : D.rows = d + 1) (hc : D.cols = (d + 1) * n) :
    D'.rows = d + 1 ∧ D'.cols = (d + 1) * n ∧ (BSymm d n D → BSymm d n D') ∧
    ∀ x, dform d n D' x = dform d n D x + (l.map fun p => prQ d p x).sum := by
  induction l generalizing D with
  | nil =>
    simp only [qPriors] at e
    cases e
    exact ⟨hr, hc, fun h => h, by simp⟩
  | cons p l ih =>
    obtain ⟨i, P⟩ := p
    simp only [qPriors, bind_eq_ok] at e
    obtain ⟨D1, hD1, e⟩ := e
    obtain ⟨a1, a2, -, -, -⟩ := addColBlock_ok hD1
    obtain ⟨h1, h2, h3, h4⟩ := ih D1 e (a1.trans hr) (a2.trans hc)
    refine ⟨h1, h2, ?_, fun x => ?_⟩
    · intro hs
      apply h3
      exact bsymm_addColBlock hD1 rfl rfl (omega_symm _ _ _) hs
    · rw [h4, List.map_cons, List.sum_cons,
        dform_addColBlock (B := omegaMat d priorKappa priorTau) hD1 rfl rfl hc x, bform_inc]
      simp only [prQ]
      ring

theorem coeff_diagTriplets (d n : Nat) (D : DMat K) (R C a b : Nat) :
    SpMat.coeff ⟨R, C, diagTriplets d n D⟩ a b =
      ∑ i ∈ range n, ∑ r ∈ range (d + 1), ∑ c ∈ range (d + 1),
        if i * (d + 1) + r = a ∧ i * (d + 1) + c = b then D.v r (i * (d + 1) + c) else 0 := by
  unfold SpMat.coeff diagTriplets
  simp only [list_sum_flatMap, list_range_sum, List.map_map]
  rfl

theorem sum_diagTriplets (d n : Nat) (D : DMat K) (F : Nat → Nat → K) :
    ((diagTriplets d n D).map fun t => F t.1 t.2.1 * t.2.2).sum =
      ∑ i ∈ range n, ∑ r ∈ range (d + 1), ∑ c ∈ range (d + 1),
        F (i * (d + 1) + r) (i * (d + 1) + c) * D.v r (i * (d + 1) + c) := by
  unfold diagTriplets
  simp only [list_sum_flatMap, list_range_sum, List.map_map]
  rfl

theorem qform_add (N : Nat) (A B : Nat → Nat → K) (x : Nat → K) :
    qform N (fun a b => A a b + B a b) x = qform N A x + qform N B x := by
  unfold qform
  simp only [mul_add, add_mul, Finset.sum_add_distrib]

omit [Field K] in
theorem Inv.measDim_eq {g : PoseGraph K} {log : List (Meas K)} (h : Inv g log)
    (hne : g.localMeasurements ≠ []) : measDim g.localMeasurements = g.d := by
  unfold measDim
  cases hm : g.localMeasurements with
  | nil => exact absurd hm hne
  | cons m l =>
    have : m ∈ g.measurements := by
      have : m ∈ g.localMeasurements := by rw [hm]; simp
      unfold PoseGraph.localMeasurements at this
      unfold PoseGraph.measurements
      exact List.mem_append_left _ this
    obtain ⟨-, -, h3, h4⟩ := h.dims m ((h.mem_measurements m).1 this)
    simp only [h3, h4, Nat.mul_one]

/-- **Quadratic form of the assembled matrix.** -/
theorem Inv.constructQ_ok {g : PoseGraph K} {log : List (Meas K)} (h : Inv g log) {Q : DMat K}
    (e : g.constructQ = ok (some Q)) :
    Q.cols = Q.rows ∧ (∀ a b, Q.v a b = Q.v b a) ∧
    (∀ x, qform Q.rows Q.v x =
      (g.localMeasurements.map fun m => edgeSq g.d m x).sum +
      (g.sharedLcs.map fun m => g.shQ m x).sum + (g.priors.map fun p => prQ g.d p x).sum) := by
  simp only [constructQ, bind_eq_ok] at e
  obtain ⟨QL, hQL, S, hS, e⟩ := e
  cases S with
  | none => cases e
  | some D =>
    simp only [bind_eq_ok] at e
    obtain ⟨D1, hD1, QD, hQD, e⟩ := e
    obtain ⟨a1, a2, a3, a4⟩ := h.qShared_ok g.sharedLcs (fun _ h => h) _ _ hS rfl rfl
    obtain ⟨b1, b2, b3, b4⟩ := qPriors_ok _ _ _ hD1 a1 a2
    have hsym : BSymm g.d g.n D1 := b3 (a3 (fun _ _ _ _ _ _ => rfl))
    have hdf : ∀ x, dform g.d g.n D1 x = (g.sharedLcs.map fun m => g.shQ m x).sum +
        (g.priors.map fun p => prQ g.d p x).sum := by
      intro x
      rw [b4, a4]
      have : dform g.d g.n (DMat.zero (g.d + 1) ((g.d + 1) * g.n)) x = 0 := by
        unfold dform DMat.zero
        simp
      rw [this]; ring
    obtain ⟨c1, c2, c3, -⟩ := connectionLaplacian_qform _ _ hQL (fun _ => 0)
    unfold SpMat.ofTriplets at hQD
    split at hQD
    · rename_i hall
      cases hQD
      cases e
      refine ⟨c2, ?_, ?_⟩
      · intro a b
        change QL.v a b + SpMat.coeff _ a b = QL.v b a + SpMat.coeff _ b a
        rw [c3 a b, coeff_diagTriplets, coeff_diagTriplets]
        congr 1
        refine Finset.sum_congr rfl fun i hi => ?_
        rw [Finset.sum_comm]
        refine Finset.sum_congr rfl fun r hr => Finset.sum_congr rfl fun c hc => ?_
        rw [Finset.mem_range] at hi hr hc
        rw [hsym i c r hi hc hr]
        congr 1
        rw [and_comm]
      · intro x
        change qform QL.rows (fun a b => QL.v a b +
          SpMat.coeff ⟨QL.rows, QL.cols, diagTriplets g.d g.n D1⟩ a b) x = _
        rw [qform_add, (connectionLaplacian_qform _ _ hQL x).2.2.2]
        have hq : qform QL.rows (SpMat.coeff ⟨QL.rows, QL.cols, diagTriplets g.d g.n D1⟩) x =
            dform g.d g.n D1 x := by
          unfold qform
          have : ∀ a ∈ range QL.rows, ∀ b ∈ range QL.rows,
              x a * SpMat.coeff ⟨QL.rows, QL.cols, diagTriplets g.d g.n D1⟩ a b * x b =
              (x a * x b) * SpMat.coeff ⟨QL.rows, QL.cols, diagTriplets g.d g.n D1⟩ a b := by
            intro a _ b _; ring
          rw [Finset.sum_congr rfl fun a ha => Finset.sum_congr rfl (this a ha),
            SpMat.sum_sum_coeff QL.rows (fun a b => x a * x b),
            sum_diagTriplets g.d g.n D1 (fun a b => x a * x b)]
          · unfold dform blk
            refine Finset.sum_congr rfl fun i _ => Finset.sum_congr rfl fun r _ =>
              Finset.sum_congr rfl fun c _ => ?_
            ring
          · intro t ht
            have := List.all_eq_true.1 hall t ht
            simp only [Bool.and_eq_true, decide_eq_true_eq] at this
            exact ⟨this.1, c2 ▸ this.2⟩
        rw [hq, hdf, ← add_assoc]
        congr 2
        by_cases hne : g.localMeasurements = []
        · rw [hne]; rfl
        · rw [h.measDim_eq hne]
    · cases hQD

theorem Inv.gShared_ok {g : PoseGraph K} {log : List (Meas K)} (h : Inv g log) (l : List (Meas K))
    (hl : ∀ m ∈ l, m ∈ g.sharedLcs) (D D' : DMat K) (e : g.gShared l D = ok (some D'))
    (hr : D.rows = g.r) (hc : D.cols = (g.d + 1) * g.n) :
    D'.rows = g.r ∧ D'.cols = (g.d + 1) * g.n ∧
    ∀ (x : Nat → K) ρ, ρ < g.r → ∑ j ∈ range ((g.d + 1) * g.n), x j * D'.v ρ j =
      ∑ j ∈ range ((g.d + 1) * g.n), x j * D.v ρ j + (l.map fun m => g.shG ρ m x).sum := by
  induction l generalizing D with
  | nil =>
    simp only [gShared] at e
    cases e
    exact ⟨hr, hc, by simp⟩
  | cons m l ih =>
    have hm := hl m (by simp)
    have hl' := fun x hx => hl x (List.mem_cons_of_mem m hx)
    simp only [gShared, h.classify_eq m hm] at e
    split at e
    · cases e
    · cases hu : usedPose g m with
      | none =>
        simp only [hu, ok_bind] at e
        obtain ⟨h1, h2, h4⟩ := ih hl' D e hr hc
        refine ⟨h1, h2, fun x ρ hρ => ?_⟩
        rw [h4 x ρ hρ, List.map_cons, List.sum_cons]
        simp only [shG, hu, zero_add]
      | some P =>
        simp only [hu] at e
        by_cases c : m.r1 = g.id
        · simp only [c, if_true, ok_bind, bind_eq_ok] at e
          obtain ⟨_, hP, D1, hD1, e⟩ := e
          rw [require_eq_ok] at hP
          simp only [nbrDims, Bool.and_eq_true, beq_iff_eq] at hP
          obtain ⟨a1, a2, -, -, -⟩ := addColBlock_ok hD1
          obtain ⟨h1, h2, h4⟩ := ih hl' D1 e (a1.trans hr) (a2.trans hc)
          refine ⟨h1, h2, fun x ρ hρ => ?_⟩
          rw [h4 x ρ hρ, List.map_cons, List.sum_cons,
              lin_addColBlock hD1 rfl hc x ρ (by rw [← hP.1] at hρ; exact hρ)]
          have hv : ∀ cc, ((P.X.neg.mul (omegaMat g.d (m.weight * m.kappa) (m.weight * m.tau))).mul
              (measT g.d m).tr).v ρ cc = ∑ s ∈ range (g.d + 1), P.X.neg.v ρ s * omM g.d m s *
              (measT g.d m).v cc s := fun cc => mul_omega_tr_v P.X.neg _ _ _ _ hP.2 _ _
          simp only [hv, shG, hu, c, if_true]
          have : ∑ cc ∈ range (g.d + 1), blk g.d x m.p1 cc * ∑ s ∈ range (g.d + 1),
              P.X.neg.v ρ s * omM g.d m s * (measT g.d m).v cc s =
              - ∑ s ∈ range (g.d + 1), omM g.d m s * P.X.v ρ s *
                ∑ r ∈ range (g.d + 1), blk g.d x m.p1 r * (measT g.d m).v r s := by
            simp only [Finset.mul_sum, ← Finset.sum_neg_distrib]
            rw [Finset.sum_comm]
            refine Finset.sum_congr rfl fun s _ => Finset.sum_congr rfl fun r _ => ?_
            simp only [DMat.neg]
            ring
          rw [this]
          ring
        · simp only [c, if_false, ok_bind, bind_eq_ok] at e
          obtain ⟨_, hP, D1, hD1, e⟩ := e
          rw [require_eq_ok] at hP
          simp only [nbrDims, Bool.and_eq_true, beq_iff_eq] at hP
          obtain ⟨a1, a2, -, -, -⟩ := addColBlock_ok hD1
          obtain ⟨h1, h2, h4⟩ := ih hl' D1 e (a1.trans hr) (a2.trans hc)
          refine ⟨h1, h2, fun x ρ hρ => ?_⟩
          rw [h4 x ρ hρ, List.map_cons, List.sum_cons,
              lin_addColBlock hD1 rfl hc x ρ (by rw [← hP.1] at hρ; exact hρ)]
          have hv : ∀ cc ∈ range (g.d + 1), blk g.d x m.p2 cc *
              ((P.X.neg.mul (measT g.d m)).mul
                (omegaMat g.d (m.weight * m.kappa) (m.weight * m.tau))).v ρ cc =
              - (omM g.d m cc * blk g.d x m.p2 cc *
                ∑ q ∈ range (g.d + 1), P.X.v ρ q * (measT g.d m).v q cc) := by
            intro cc hcc
            rw [mul_omega_v _ _ _ _ rfl ρ cc (Finset.mem_range.1 hcc)]
            have : (P.X.neg.mul (measT g.d m)).v ρ cc =
                - ∑ q ∈ range (g.d + 1), P.X.v ρ q * (measT g.d m).v q cc := by
              change ∑ q ∈ range P.X.cols, - P.X.v ρ q * (measT g.d m).v q cc = _
              rw [hP.2, ← Finset.sum_neg_distrib]
              exact Finset.sum_congr rfl fun q _ => by ring
            rw [this]
            unfold omM
            ring
          rw [Finset.sum_congr rfl hv, Finset.sum_neg_distrib]
          simp only [shG, hu, c, if_false]
          ring

theorem gPriors_ok {g : PoseGraph K} (l : OMap Nat (PArr K)) (D D' : DMat K)
    (e : g.gPriors l D = ok D') (hr : D.rows = g.r) (hc : D.cols = (g.d + 1) * g.n) :
    D'.rows = g.r ∧ D'.cols = (g.d + 1) * g.n ∧
    ∀ (x : Nat → K) ρ, ρ < g.r → ∑ j ∈ range ((g.d + 1) * g.n), x j * D'.v ρ j =
      ∑ j ∈ range ((g.d + 1) * g.n), x j * D.v ρ j + (l.map fun p => prG g.d ρ p x).sum := by
  induction l generalizing D with
  | nil =>
    simp only [gPriors] at e
    cases e
    exact ⟨hr, hc, by simp⟩
  | cons p l ih =>
    obtain ⟨i, P⟩ := p
    simp only [gPriors, bind_eq_ok] at e
    obtain ⟨_, hP, D1, hD1, e⟩ := e
    rw [require_eq_ok] at hP
    simp only [nbrDims, Bool.and_eq_true, beq_iff_eq] at hP
    obtain ⟨a1, a2, -, -, -⟩ := addColBlock_ok hD1
    obtain ⟨h1, h2, h4⟩ := ih D1 e (a1.trans hr) (a2.trans hc)
    refine ⟨h1, h2, fun x ρ hρ => ?_⟩
    rw [h4 x ρ hρ, List.map_cons, List.sum_cons,
      lin_addColBlock hD1 rfl hc x ρ (by rw [← hP.1] at hρ; exact hρ)]
    have hv : ∀ cc ∈ range (g.d + 1), blk g.d x i cc *
        (P.X.neg.mul (omegaMat g.d priorKappa priorTau)).v ρ cc =
        - (om g.d priorKappa priorTau cc * P.X.v ρ cc * blk g.d x i cc) := by
      intro cc hcc
      rw [mul_omega_v P.X.neg _ _ _ hP.2 ρ cc (Finset.mem_range.1 hcc)]
      simp only [DMat.neg]
      ring
    rw [Finset.sum_congr rfl hv, Finset.sum_neg_distrib]
    simp only [prG]
    ring

/-- **Linear form of the assembled matrix.** -/
theorem Inv.constructG_ok {g : PoseGraph K} {log : List (Meas K)} (h : Inv g log) {G : DMat K}
    (e : g.constructG = ok (some G)) :
    G.rows = g.r ∧ G.cols = (g.d + 1) * g.n ∧
    ∀ (x : Nat → K) ρ, ρ < g.r → ∑ j ∈ range ((g.d + 1) * g.n), x j * G.v ρ j =
      (g.sharedLcs.map fun m => g.shG ρ m x).sum + (g.priors.map fun p => prG g.d ρ p x).sum := by
  simp only [constructG, bind_eq_ok] at e
  obtain ⟨S, hS, e⟩ := e
  cases S with
  | none => cases e
  | some D =>
    simp only [bind_eq_ok] at e
    obtain ⟨D1, hD1, e⟩ := e
    cases e
    obtain ⟨a1, a2, a4⟩ := h.gShared_ok g.sharedLcs (fun _ h => h) _ _ hS rfl rfl
    obtain ⟨b1, b2, b4⟩ := gPriors_ok _ _ _ hD1 a1 a2
    refine ⟨b1, b2, fun x ρ hρ => ?_⟩
    rw [b4 x ρ hρ, a4 x ρ hρ]
    have : ∑ j ∈ range ((g.d + 1) * g.n), x j *
        (DMat.zero g.r ((g.d + 1) * g.n) : DMat K).v ρ j = 0 := by
      apply Finset.sum_eq_zero
      intro j _
      simp [DMat.zero]
    rw [this, zero_add]

end PoseGraph
end Dpgo
