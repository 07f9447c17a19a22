import Verif.Lemmas.DemoCentral

/-! # The optimisation loop of the demo -/

namespace Dpgo.Example

open Res Spec PoseGraph

/-! ### Choice of the next robot -/

theorem maxElement_aux (v : List ℝ) (hv : v ≠ []) (k : Nat) (hk : k ≤ v.length) (m : Nat)
    (hm : m = open Classical in
      (List.range k).foldl (fun best i => if v.getD best 0 < v.getD i 0 then i else best) 0) :
    m < v.length ∧ (∀ i < k, v.getD i 0 ≤ v.getD m 0) ∧ ∀ i < m, v.getD i 0 < v.getD m 0 := by
  induction k generalizing m with
  | zero =>
    subst hm
    exact ⟨List.length_pos_iff.2 hv, fun i c => absurd c (by omega), fun i c => absurd c (by simp)⟩
  | succ k ih =>
    rw [List.range_succ, List.foldl_append] at hm
    obtain ⟨h1, h2, h3⟩ := ih (by omega) _ rfl
    simp only [List.foldl_cons, List.foldl_nil] at hm
    generalize (open Classical in
      (List.range k).foldl (fun best i => if v.getD best 0 < v.getD i 0 then i else best) 0) = b at hm h1 h2 h3
    by_cases c : v.getD b 0 < v.getD k 0
    · rw [if_pos c] at hm
      subst hm
      refine ⟨by omega, fun i hi => ?_, fun i hi => (h2 i hi).trans_lt c⟩
      rcases Nat.lt_succ_iff_lt_or_eq.1 hi with hi | rfl
      · exact ((h2 i hi).trans_lt c).le
      · exact le_rfl
    · rw [if_neg c] at hm
      subst hm
      refine ⟨h1, fun i hi => ?_, h3⟩
      rcases Nat.lt_succ_iff_lt_or_eq.1 hi with hi | rfl
      · exact h2 i hi
      · exact not_lt.1 c

theorem maxElement_spec {v : List ℝ} (hv : v ≠ []) :
    maxElement v < v.length ∧ (∀ i < v.length, v.getD i 0 ≤ v.getD (maxElement v) 0) ∧
      ∀ i < maxElement v, v.getD i 0 < v.getD (maxElement v) 0 :=
  maxElement_aux v hv v.length le_rfl _ rfl

/-- The norms of the blocks of the robots. -/
theorem norms_total {q : Options} {d N n : Nat} (hn : n * (d + 1) < 2 ^ 32) {X : DMat ℝ}
    (hX : X.rows = q.r ∧ X.cols = n * (d + 1)) :
    ∃ v, blockNorms q d N n (n / N) X = ok v ∧ v.length = N ∧
      ∀ a < N, ∃ B, localBlock q.r d (startIdx (n / N) a) (endIdx N n (n / N) a) X = ok B ∧
        v.getD a 0 = PArr.norm B := by
  obtain ⟨v, e, h1, h2⟩ := foldl_range_total (n := N) (b := ([] : List ℝ)) (f := fun v robot => do
      let B ← localBlock q.r d (startIdx (n / N) robot) (endIdx N n (n / N) robot) X
      ok (v ++ [PArr.norm B]))
    (P := fun j v => v.length = j ∧ ∀ a < j, ∃ B,
      localBlock q.r d (startIdx (n / N) a) (endIdx N n (n / N) a) X = ok B ∧ v.getD a 0 = PArr.norm B)
    ⟨rfl, fun a c => absurd c (by omega)⟩ (by
      rintro j hj v ⟨h1, h2⟩
      obtain ⟨B, e, -⟩ := localBlock_ok hn hX hj
      refine ⟨v ++ [PArr.norm B], by simp only [e, ok_bind], by rw [List.length_append, h1]; rfl, ?_⟩
      intro a ha
      by_cases c : a < j
      · obtain ⟨B', e', h'⟩ := h2 a c
        refine ⟨B', e', ?_⟩
        rw [List.getD_eq_getElem?_getD, List.getElem?_append_left (by omega), ← List.getD_eq_getElem?_getD]
        exact h'
      · have : a = j := by omega
        subst this
        refine ⟨B, e, ?_⟩
        rw [List.getD_eq_getElem?_getD, List.getElem?_append_right (by omega), h1]
        simp)
  exact ⟨v, e, h1, h2⟩

theorem sum_cut (f : Nat → ℝ) (a b : Nat) :
    ∑ j ∈ Finset.range a, f j + ∑ j ∈ Finset.range b, f (a + j) = ∑ j ∈ Finset.range (a + b), f j :=
  (Finset.sum_range_add f a b).symm

theorem sum_shares {N n e : Nat} (hN : 0 < N) (f : Nat → ℝ) :
    ∑ a ∈ Finset.range N, ∑ j ∈ Finset.range (share N n a * e), f (a * (n / N) * e + j) =
      ∑ j ∈ Finset.range (n * e), f j := by
  obtain ⟨M, rfl⟩ : ∃ M, N = M + 1 := ⟨N - 1, by omega⟩
  have h : ∀ k ≤ M, ∑ a ∈ Finset.range k, ∑ j ∈ Finset.range (share (M + 1) n a * e),
      f (a * (n / (M + 1)) * e + j) = ∑ j ∈ Finset.range (k * (n / (M + 1)) * e), f j := by
    intro k
    induction k with
    | zero => intro _; simp
    | succ k ih =>
      intro hk
      rw [Finset.sum_range_succ, ih (by omega), sum_cut]
      congr 2
      unfold share
      rw [if_neg (by omega), Nat.succ_mul, Nat.add_mul]
  rw [Finset.sum_range_succ, h M le_rfl, sum_cut]
  congr 2
  unfold share
  rw [if_pos (by omega), ← Nat.add_mul]
  congr 1
  have := mul_per_le (n := n) (N := M + 1) (a := M) (by omega)
  have e : (M + 1 - 1) = M := by omega
  simp only [e]
  omega

/-- The squared norm of the whole is the sum of those of the blocks. -/
theorem normSq_blocks {r d N n : Nat} (hN : 0 < N) (hn : n * (d + 1) < 2 ^ 32) {X : DMat ℝ}
    (hX : X.rows = r ∧ X.cols = n * (d + 1)) {B : Nat → DMat ℝ}
    (hB : ∀ a < N, localBlock r d (startIdx (n / N) a) (endIdx N n (n / N) a) X = ok (B a)) :
    X.normSq = ∑ a ∈ Finset.range N, (B a).normSq := by
  unfold DMat.normSq
  have h : ∀ a ∈ Finset.range N, (∑ i ∈ Finset.range (B a).rows, ∑ j ∈ Finset.range (B a).cols,
      (B a).v i j * (B a).v i j) = ∑ i ∈ Finset.range r, ∑ j ∈ Finset.range (share N n a * (d + 1)),
        X.v i (a * (n / N) * (d + 1) + j) * X.v i (a * (n / N) * (d + 1) + j) := by
    intro a ha
    obtain ⟨B', e, h1, h2, h3⟩ := localBlock_ok hn hX (Finset.mem_range.1 ha)
    rw [hB a (Finset.mem_range.1 ha)] at e
    cases e
    rw [h1, h2]
    simp only [h3]
  refine Eq.trans ?_ (Finset.sum_congr rfl h).symm
  rw [Finset.sum_comm (s := Finset.range N), hX.1, hX.2]
  refine Finset.sum_congr rfl fun i _ => ?_
  exact (sum_shares hN (fun j => X.v i j * X.v i j)).symm

/-! ### Sharing of the anchor -/

section
variable {o : AgentOracles} {p : AgentParams} {E : List (Meas ℝ)} {sh : Nat → Nat} {N k : Nat} {K : Nat → Nat}
  {agents : List Agent}

theorem Member.anchored {i : Nat} {a : Agent} (h : Member o p E sh i k a) {M : DMat ℝ} (h1 : M.rows = p.r)
    (h2 : M.cols = p.d + 1) :
    ∃ a', a.setGlobalAnchor M = ok a' ∧ Member o p E sh i k a' ∧ a'.X = a.X := by
  have hi := agReach_inv h.reach
  obtain ⟨-, hr, hd, hrd⟩ := hi.dims
  obtain ⟨P, hP, hok, -⟩ := PArr.make_ok (K := ℝ) (n := 1) hrd
  obtain ⟨Xa, e⟩ : ∃ Xa, a.setGlobalAnchor M = ok { a with globalAnchor := some Xa } := by
    unfold Agent.setGlobalAnchor Agent.relaxationRank Agent.dimension
    rw [hr, hd, h1, h2, hi.r, hi.d, hP]
    simp only [beq_self_eq_true, check_true, ok_bind, PArr.setPose_ok hok zero_lt_one ⟨h1, h2⟩]
    exact ⟨_, rfl⟩
  exact ⟨_, e, ⟨agReach_snoc (op := .setGlobalAnchor M) h.reach trivial e, h.team, h.state, h.inst, h.iter,
    h.lift, h.noSelf, h.covered, h.size⟩, rfl⟩

theorem anchor_loop (hN : 0 < N) (h : Crew o p E sh N K agents) :
    ∃ agents', shareAnchor N agents = ok agents' ∧ Crew o p E sh N K agents' ∧
      estimates agents' = estimates agents := by
  obtain ⟨a0, ha0, h0⟩ := h.get hN
  have hpos : 0 < a0.graph.n := (Props.C36_sizes h0.reach h0.state).2.2.2.1
  obtain ⟨M, hM, m1, m2, -⟩ := (Props.C36_queries h0.reach h0.state 0).1 hpos
  obtain ⟨c, e, hc, hX⟩ := foldl_range_total (n := N) (b := agents)
    (f := onAgent fun a => a.setGlobalAnchor ((some M).getD ⟨0, 0, fun _ _ => 0⟩))
    (P := fun _ c => Crew o p E sh N K c ∧ estimates c = estimates agents) ⟨h, rfl⟩ (by
      rintro j hj c ⟨hc, hX⟩
      obtain ⟨a, ha, hm⟩ := hc.get hj
      obtain ⟨a', e, hm', hx⟩ := Member.anchored hm m1 m2
      refine ⟨c.set j a', onAgent_ok ha e, hc.set hm' (fun _ => rfl) (fun _ _ _ => rfl), ?_⟩
      rw [estimates_keep ha hx, hX])
  refine ⟨c, ?_, hc, hX⟩
  unfold shareAnchor at!
  rw [ha0]
  simp only [ok_bind, hM]
  exact e

end

end Dpgo.Example
