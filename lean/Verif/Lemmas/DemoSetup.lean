import Verif.Lemmas.DemoTeam
import Verif.Lemmas.PartitionAgent
import Verif.Lemmas.AgentStart
import Verif.Spec.Demo

/-! # Setting up the team of the demo -/

namespace Dpgo.Example

open Res Spec PoseGraph

/-! ### The odometry of a robot -/

theorem filter_range (s t m : Nat) :
    (List.range m).filter (fun x => decide (s ≤ x ∧ x < t)) = List.range' s (min m t - s) := by
  induction m with
  | zero => simp
  | succ m ih =>
    rw [List.range_succ, List.filter_append, ih]
    by_cases c : s ≤ m ∧ m < t
    · rw [List.filter_cons_of_pos (by simpa using c), List.filter_nil,
        show min (m + 1) t - s = (min m t - s) + 1 by omega, List.range'_concat]
      congr 2
      omega
    · rw [List.filter_cons_of_neg (by simpa using c), List.filter_nil, List.append_nil]
      congr 1
      omega

section
variable {N n d : Nat} {D : List (Meas ℝ)} (hN : 0 < N) (hNn : N ≤ n) (hD : Dataset d n D)
include hN hNn hD

omit hN hNn in
theorem ends_below {m : Meas ℝ} (hm : m ∈ D) : EndsBelow n m ∧ m.r1 = 0 ∧ m.r2 = 0 :=
  ⟨hD.num.1 m hm, hD.ids m hm⟩

omit hD in
theorem share_one {a : Nat} (ha : a < N) : 1 ≤ share N n a ∧ a * (n / N) + share N n a ≤ n := by
  have h2 : 1 ≤ n / N := per_pos hN hNn
  have h3 := mul_per_le (n := n) (N := N) (show a + 1 ≤ N by omega)
  rw [Nat.succ_mul] at h3
  unfold share
  split
  · rename_i c
    have h4 := mul_per_le (n := n) (N := N) (show N - 1 + 1 ≤ N by omega)
    rw [Nat.succ_mul] at h4
    rw [c]
    omega
  · omega

omit hD in
theorem odo_iff {a : Nat} (ha : a < N) {m : Meas ℝ} (hm : EndsBelow n m) :
    isOdo a (relabel (place N (n / N)) m) = true ↔
      m.p1 + 1 = m.p2 ∧ a * (n / N) ≤ m.p1 ∧ m.p1 < a * (n / N) + (share N n a - 1) := by
  obtain ⟨h1, h2⟩ := hm
  have i1 := fun ℓ => place_iff_share hN hNn m.p1 a ℓ h1
  have i2 := fun ℓ => place_iff_share hN hNn m.p2 a ℓ h2
  have hs := share_one hN hNn ha
  simp only [isOdo, Bool.and_eq_true, beq_iff_eq, relabel]
  constructor
  · rintro ⟨⟨e1, e2⟩, e3⟩
    obtain ⟨-, j1, j2⟩ := (i1 (place N (n / N) m.p1).frame).1 (by rw [← e1])
    obtain ⟨-, k1, k2⟩ := (i2 (place N (n / N) m.p2).frame).1 (by rw [← e2])
    omega
  · rintro ⟨e1, e2, e3⟩
    rw [(i1 (m.p1 - a * (n / N))).2 ⟨ha, by omega, by omega⟩,
      (i2 (m.p2 - a * (n / N))).2 ⟨ha, by omega, by omega⟩]
    exact ⟨⟨rfl, rfl⟩, by simp only; omega⟩

theorem odo_list {a : Nat} (ha : a < N) :
    ((firstWins (D.map (relabel (place N (n / N))))).filter (isOdo a)).map (fun m => m.p1) =
      List.range (share N n a - 1) := by
  have hs := share_one hN hNn ha
  rw [firstWins_relabel (fun i j hi hj => place_inj hN hNn hi hj) D (fun m hm => ends_below hD hm),
    List.filter_map, List.map_map]
  have e1 : (firstWins D).filter (isOdo a ∘ relabel (place N (n / N))) =
      ((firstWins D).filter fun m => m.p1 + 1 == m.p2).filter
        (fun m => decide (a * (n / N) ≤ m.p1 ∧ m.p1 < a * (n / N) + (share N n a - 1))) := by
    rw [List.filter_filter]
    refine List.filter_congr fun m hm => ?_
    have := odo_iff hN hNn ha (ends_below hD (mem_firstWins hm)).1
    rw [Bool.eq_iff_iff, Function.comp, this, Bool.and_eq_true, decide_eq_true_eq, beq_iff_eq]
    tauto
  have e2 : ∀ l : List (Meas ℝ), (∀ m ∈ l, EndsBelow n m ∧ a * (n / N) ≤ m.p1 ∧
      m.p1 < a * (n / N) + (share N n a - 1)) →
      l.map ((fun m => m.p1) ∘ relabel (place N (n / N))) = (l.map fun m => m.p1).map (· - a * (n / N)) := by
    intro l hl
    rw [List.map_map]
    refine List.map_congr_left fun m hm => ?_
    obtain ⟨⟨h0, -⟩, h1, h2⟩ := hl m hm
    simp only [Function.comp, relabel]
    rw [(place_iff_share hN hNn m.p1 a (m.p1 - a * (n / N)) h0).2 ⟨ha, by omega, by omega⟩]
  rw [e1, e2]
  · have e3 : ∀ (l : List (Meas ℝ)) (p : Nat → Bool),
        (l.filter (fun m => p m.p1)).map (fun m => m.p1) = (l.map fun m => m.p1).filter p := by
      intro l p
      rw [List.filter_map]; rfl
    rw [e3 _ (fun x => decide (a * (n / N) ≤ x ∧ x < a * (n / N) + (share N n a - 1))), hD.chain,
      filter_range, show min (n - 1) (a * (n / N) + (share N n a - 1)) - a * (n / N) = share N n a - 1 by omega,
      List.range_eq_range', List.range'_eq_map_range, List.map_map]
    conv_rhs => rw [← List.range_eq_range']
    conv_rhs => rw [← List.map_id (List.range (share N n a - 1))]
    refine List.map_congr_left fun x _ => ?_
    simp
  · intro m hm
    rw [List.mem_filter, List.mem_filter] at hm
    exact ⟨(ends_below hD (mem_firstWins hm.1.1)).1, by simpa using hm.2⟩

theorem odo_index {a : Nat} (ha : a < N) {i : Nat} {m : Meas ℝ}
    (hm : ((firstWins (D.map (relabel (place N (n / N))))).filter (isOdo a))[i]? = some m) :
    i < share N n a - 1 ∧ m.p1 = i ∧ m.p2 = i + 1 := by
  have h := congrArg (fun l : List Nat => l[i]?) (odo_list hN hNn hD ha)
  simp only [List.getElem?_map, hm, Option.map_some] at h
  have hi : i < share N n a - 1 := by
    have := (List.getElem?_eq_some_iff.1 h.symm).1
    simpa using this
  rw [List.getElem?_range hi] at h
  simp only [Option.some.injEq] at h
  have := (List.mem_filter.1 (List.mem_of_getElem? hm)).2
  simp only [isOdo, Bool.and_eq_true, beq_iff_eq] at this
  exact ⟨hi, h, by omega⟩

theorem odo_length {a : Nat} (ha : a < N) :
    ((firstWins (D.map (relabel (place N (n / N))))).filter (isOdo a)).length = share N n a - 1 := by
  have := congrArg List.length (odo_list hN hNn hD ha)
  simpa using this

omit hD hNn in
theorem share_two (hNn : 2 * N ≤ n) {a : Nat} (ha : a < N) : 2 ≤ share N n a := by
  have h2 : 2 ≤ n / N := (Nat.le_div_iff_mul_le hN).2 hNn
  unfold share
  split
  · have h4 := mul_per_le (n := n) (N := N) (show N - 1 + 1 ≤ N by omega)
    rw [Nat.succ_mul] at h4
    omega
  · omega

/-- The graph of a robot that was given its lists. -/
theorem graph_complete {a r : Nat} (ha : a < N) (h2 : 2 ≤ share N n a) {g : PoseGraph ℝ}
    (h : TeamInv r d (D.map (relabel (place N (n / N)))) a g) :
    g.n = share N n a ∧ Complete d g ∧ posesCovered g := by
  have hs := share_one hN hNn ha
  obtain ⟨lo, lp, ls⟩ := h.lists
  obtain ⟨⟨log, hi⟩, hid⟩ := Reachable.inv h.reach
  have hlen := odo_length hN hNn hD ha
  -- every edge of the graph comes from the dataset
  have src : ∀ m ∈ firstWins (D.map (relabel (place N (n / N)))), ∃ x ∈ D, relabel (place N (n / N)) x = m :=
    fun m hm => by
      obtain ⟨x, hx, e⟩ := List.mem_map.1 (mem_firstWins hm)
      exact ⟨x, hx, e⟩
  have small : ∀ m ∈ g.measurements, ∀ i ∈ ownIndices a m, i < share N n a := by
    intro m hm i hii
    have hm' : m ∈ firstWins (D.map (relabel (place N (n / N)))) := by
      unfold PoseGraph.measurements at hm
      rw [lo, lp, ls] at hm
      simp only [List.mem_append, List.mem_filter] at hm
      tauto
    obtain ⟨x, hx, rfl⟩ := src m hm'
    obtain ⟨⟨h1, h2⟩, -⟩ := ends_below hD hx
    unfold ownIndices at hii
    rw [List.mem_append] at hii
    rcases hii with hii | hii
    · by_cases c : (relabel (place N (n / N)) x).r1 = a
      · rw [if_pos c, List.mem_singleton] at hii
        subst hii
        exact ((place_iff_share hN hNn x.p1 a _ h1).1 (by rw [← c]; rfl)).2.2
      · rw [if_neg c] at hii
        cases hii
    · by_cases c : (relabel (place N (n / N)) x).r2 = a
      · rw [if_pos c, List.mem_singleton] at hii
        subst hii
        exact ((place_iff_share hN hNn x.p2 a _ h2).1 (by rw [← c]; rfl)).2.2
      · rw [if_neg c] at hii
        cases hii
  -- the last odometry edge
  obtain ⟨m, hm⟩ : ∃ m, g.odometry[share N n a - 2]? = some m := by
    rw [lo]
    exact ⟨_, List.getElem?_eq_getElem (by rw [hlen]; omega)⟩
  have hml := List.mem_of_getElem? hm
  have hme : m.p1 = share N n a - 2 ∧ m.p2 = share N n a - 2 + 1 := by
    rw [lo] at hm
    exact (odo_index hN hNn hD ha hm).2
  have hmo : isOdo a m = true := by
    rw [lo] at hml
    exact (List.mem_filter.1 hml).2
  have hmeas : m ∈ g.measurements := by
    unfold PoseGraph.measurements
    simp [hml]
  have hown : m.p2 ∈ ownIndices a m := by
    simp only [isOdo, Bool.and_eq_true, beq_iff_eq] at hmo
    simp [ownIndices, hmo.1.2]
  have hn : g.n = share N n a := by
    have mem : ∀ x, x ∈ log → x ∈ g.measurements := fun x hx => (hi.mem_measurements x).2 hx
    have h1 : m.p2 < g.n := by
      refine hi.n_ub m ((hi.mem_measurements m).1 hmeas) _ ?_
      rw [hid]; exact hown
    rcases hi.n_lub with h0 | ⟨m', hm', i, hi', e⟩
    · omega
    · have := small m' (mem m' hm') i (by rw [← hid]; exact hi')
      omega
  have localSrc : ∀ m ∈ g.localMeasurements, ∃ x ∈ D, relabel (place N (n / N)) x = m ∧
      m.r1 = a ∧ m.r2 = a := by
    intro m hm
    unfold PoseGraph.localMeasurements at hm
    rw [lo, lp] at hm
    rcases List.mem_append.1 hm with hm | hm
    · rw [List.mem_filter] at hm
      obtain ⟨x, hx, e⟩ := src m hm.1
      have := hm.2
      simp only [isOdo, Bool.and_eq_true, beq_iff_eq] at this
      exact ⟨x, hx, e, this.1.1, this.1.2⟩
    · rw [List.mem_filter] at hm
      obtain ⟨x, hx, e⟩ := src m hm.1
      have := hm.2
      simp only [isPriv, Bool.and_eq_true, beq_iff_eq] at this
      exact ⟨x, hx, e, this.1.1, this.1.2⟩
  refine ⟨hn, ⟨hD.dim, List.ne_nil_of_mem hml, ?_, ?_, ?_, ?_⟩, ?_⟩
  · intro i x hx
    rw [lo] at hx
    exact (odo_index hN hNn hD ha hx).2
  · rw [lo, hlen, hn]; omega
  · rintro ⟨x, hx, e⟩
    obtain ⟨y, hy, rfl, h1, h2⟩ := localSrc x hx
    obtain ⟨⟨h3, h4⟩, -⟩ := ends_below hD hy
    refine hD.noSelf y hy (place_inj hN hNn h3 h4 ?_)
    simp only [relabel] at e h1 h2
    have : ∀ u v : PoseID, u.robot = v.robot → u.frame = v.frame → u = v := by
      rintro ⟨_, _⟩ ⟨_, _⟩ h h'
      cases h; cases h'; rfl
    exact this _ _ (h1.trans h2.symm) e
  · intro x hx
    obtain ⟨y, hy, rfl, -, -⟩ := localSrc x hx
    exact hD.precise y hy
  · intro i hin
    refine ⟨m, ?_, Or.inr ?_⟩
    · unfold PoseGraph.localMeasurements
      exact List.mem_append_left _ hml
    · omega

end

end Dpgo.Example
