import Verif.Lemmas.PartitionAgent
import Verif.Lemmas.AgentExample

/-!
# The split of a dataset over robots: C59
-/

namespace Dpgo.Props

open Res Spec Example

variable {K : Type} [Field K]

omit [Field K] in
/-- **C59.** Every pose of the dataset gets exactly one robot and local index, in the order of the
trajectory; every robot gets the local indices `0, 1, …` without a gap; nothing else is in the map. -/
theorem C59_poses (N n : Nat) (hN : 0 < N) (hNn : N ≤ n) (hn : n < 2 ^ 32) :
    ∃ f : Nat → PoseID, Tiling N n f ∧ (∀ i j, i < n → j < n → f i = f j → i = j) ∧
      (∀ a ℓ, (∃ i, i < n ∧ f i = ⟨a, ℓ⟩) ↔
        a < N ∧ ℓ < if a = N - 1 then n - (N - 1) * (n / N) else n / N) ∧
      ∀ i, OMap.find? ltNat i (poseMap N n (perRobot N n)) = if i < n then some (f i) else none := by
  refine ⟨place N (n / N), place_tiling hN hNn, fun i j hi hj => place_inj hN hNn hi hj, ?_, ?_⟩
  · intro a ℓ
    constructor
    · rintro ⟨i, hi, e⟩
      obtain ⟨h1, -, h3⟩ := (place_eq_iff hN hNn i a ℓ hi).1 e
      exact ⟨h1, h3⟩
    · rintro ⟨h1, h2⟩
      have hlt : a * (n / N) + ℓ < n := by
        have h3 := mul_per_le (n := n) (N := N) (show a + 1 ≤ N by omega)
        rw [Nat.succ_mul] at h3
        split_ifs at h2 with h
        · subst h; omega
        · omega
      exact ⟨_, hlt, (place_eq_iff hN hNn _ a ℓ hlt).2 ⟨h1, rfl, h2⟩⟩
  · intro i
    rw [perRobot_eq hn]
    exact find?_poseMap hN hNn hn i

/-- Seven poses over three robots: shares 2, 2 and 3. -/
example : (∀ i, i < 7 → OMap.find? ltNat i (poseMap 3 7 (perRobot 3 7)) =
      ([⟨0, 0⟩, ⟨0, 1⟩, ⟨1, 0⟩, ⟨1, 1⟩, ⟨2, 0⟩, ⟨2, 1⟩, ⟨2, 2⟩] : List PoseID)[i]?) ∧
    OMap.find? ltNat 7 (poseMap 3 7 (perRobot 3 7)) = none := by
  decide

/-- **C59.** Every edge of the dataset becomes one edge between the right local poses with the same
data, and every robot's three lists consist of exactly its consecutive edges, its other own edges and
the edges it shares, in the order of the dataset. -/
theorem C59_edges (N n : Nat) (hN : 0 < N) (hNn : N ≤ n) (hn : n < 2 ^ 32) (D : List (Meas K))
    (hD : ∀ m ∈ D, EndsBelow n m) :
    ∃ M s f, partition (N : Int) n D = ok (M, s) ∧ Tiling N n f ∧
      (∀ i, OMap.find? ltNat i M = if i < n then some (f i) else none) ∧
      s.odometry.length = N ∧ s.privateLcs.length = N ∧ s.sharedLcs.length = N ∧
      ∀ a, a < N →
        s.odometry[a]? = some ((D.map (relabel f)).filter (isOdo a)) ∧
        s.privateLcs[a]? = some ((D.map (relabel f)).filter (isPriv a)) ∧
        s.sharedLcs[a]? = some ((D.map (relabel f)).filter (isShared a)) := by
  obtain ⟨s, e, h⟩ := partition_eq hN hNn hn hD
  refine ⟨_, s, _, e, place_tiling hN hNn, find?_poseMap hN hNn hn, by simp [h.odo],
    by simp [h.priv], by simp [h.shared], ?_⟩
  intro a ha
  refine ⟨?_, ?_, ?_⟩
  · simp [h.odo, ha]
  · simp [h.priv, ha]
  · simp [h.shared, ha]

/-- **C59.** Counting: nothing is lost and nothing is duplicated, a shared edge being listed by both
of its robots. -/
theorem C59_count (N n : Nat) (hN : 0 < N) (hNn : N ≤ n) (hn : n < 2 ^ 32) (D : List (Meas K))
    (hD : ∀ m ∈ D, EndsBelow n m) (M : OMap Nat PoseID) (s : Split K)
    (e : partition (N : Int) n D = ok (M, s)) :
    2 * (s.odometry.map List.length).sum + 2 * (s.privateLcs.map List.length).sum +
      (s.sharedLcs.map List.length).sum = 2 * D.length := by
  obtain ⟨s', e', h⟩ := partition_eq hN hNn hn hD
  rw [e'] at e
  cases e
  rw [h.odo, h.priv, h.shared]
  have := count_kinds (N := N) (D.map (relabel (place N (n / N)))) (by
    intro m hm
    obtain ⟨x, -, rfl⟩ := List.mem_map.1 hm
    exact ⟨place_robot_lt hN _, place_robot_lt hN _⟩)
  simpa using this

/-- An edge of the example dataset. -/
private def edge59 (i j : Nat) : Meas K :=
  ⟨0, 0, i, j, ⟨3, 3, fun _ _ => 0⟩, ⟨3, 1, fun _ _ => 0⟩, 1, 1, false, 1⟩

/-- Five poses over two robots, with a consecutive edge, a loop on robot 1 and two edges across. -/
example : ∃ M s, partition (2 : Nat) 5 [edge59 0 1, edge59 (K := ℚ) 1 2, edge59 4 2, edge59 3 0] =
      ok (M, s) ∧
    s.odometry.map (·.map fun m => (m.r1, m.p1, m.r2, m.p2)) = [[(0, 0, 0, 1)], []] ∧
    s.privateLcs.map (·.map fun m => (m.r1, m.p1, m.r2, m.p2)) = [[], [(1, 2, 1, 0)]] ∧
    s.sharedLcs.map (·.map fun m => (m.r1, m.p1, m.r2, m.p2)) =
      [[(0, 1, 1, 0), (1, 1, 0, 0)], [(0, 1, 1, 0), (1, 1, 0, 0)]] :=
  ⟨_, _, rfl, rfl, rfl, rfl⟩

/-- **C59.** Without robots, or with more robots than poses, the program stops. -/
theorem C59_refused (N : Int) (n : Nat) (hn : n < 2 ^ 32) (D : List (Meas K)) (h : N ≤ 0 ∨ (n : Int) < N) :
    partition N n D = abort := by
  unfold partition
  by_cases hN : N ≤ 0
  · rw [if_pos hN]
  · rw [if_neg hN]
    have hlt : n < N.toNat := by omega
    have : perRobot N.toNat n = 0 := by
      rw [perRobot_eq hn]; exact Nat.div_eq_of_lt hlt
    simp only [this]
    rfl

/-- **C59.** A robot that is waiting for data and has at least one consecutive edge ends up with exactly
the edges of the dataset that touch it, the first of every pair of ends, as if it had been given all
of them at once. -/
theorem C59_agent (N n : Nat) (hN : 0 < N) (hNn : N ≤ n) (hn : n < 2 ^ 32) (D : List (Meas ℝ))
    (hD : ∀ m ∈ D, EndsBelow n m) (ag : Agent) (hd : ag.d ≤ ag.r) (hid : ag.id < N)
    (hw : ag.state = .WAIT_FOR_DATA) (hr : ag.running = false)
    (hdim : ∀ m ∈ D, m.R.rows = ag.d ∧ m.R.cols = ag.d ∧ m.t.rows = ag.d ∧ m.t.cols = 1)
    (M : OMap Nat PoseID) (s : Split ℝ) (e : partition (N : Int) n D = ok (M, s))
    (o p l : List (Meas ℝ)) (ho : s.odometry[ag.id]? = some o) (hp : s.privateLcs[ag.id]? = some p)
    (hl : s.sharedLcs[ag.id]? = some l) (hne : o ≠ []) :
    ∃ ag' f, ag.setMeasurements o p l = ok ag' ∧ Tiling N n f ∧
      ag'.graph.measurements =
        buckets ag.id (firstWins ((D.map (relabel f)).filter (touches ag.id))) := by
  obtain ⟨s', e', h⟩ := partition_eq hN hNn hn hD
  rw [e'] at e
  cases e
  simp only [h.odo, h.priv, h.shared, List.getElem?_map, List.getElem?_range hid, Option.map_some,
    Option.some.injEq] at ho hp hl
  subst ho hp hl
  obtain ⟨ag', e1, -, -, h3⟩ := agent_takes hN hNn hn hD hd hid hw hr hdim hne
  exact ⟨ag', _, e1, place_tiling hN hNn, h3⟩

/-- **C59.** The objective of a robot that took its lists changes, whatever it replaces its trajectory
by, exactly as the cost of the undivided dataset does at the centralised estimate formed from the
robots' estimates. -/
theorem C59_objective (N n r d : Nat) (hN : 0 < N) (hNn : N ≤ n) (hn : n * (d + 1) < 2 ^ 32)
    (hd : 0 < d) (D : List (Meas ℝ)) (hD : ∀ m ∈ D, EndsBelow n m ∧ m.r1 = 0 ∧ m.r2 = 0)
    (hone : ∀ m ∈ D, m.weight = 1)
    (hdim : ∀ m ∈ D, m.R.rows = d ∧ m.R.cols = d ∧ m.t.rows = d ∧ m.t.cols = 1)
    (M : OMap Nat PoseID) (s : Split ℝ) (e : partition (N : Int) n D = ok (M, s))
    (ag ag' : Agent) (hdr : d ≤ r) (hag : ag.d = d ∧ ag.r = r) (hid : ag.id < N)
    (hw : ag.state = .WAIT_FOR_DATA) (hrun : ag.running = false)
    (o p l : List (Meas ℝ)) (ho : s.odometry[ag.id]? = some o) (hp : s.privateLcs[ag.id]? = some p)
    (hl : s.sharedLcs[ag.id]? = some l) (hne : o ≠ []) (e' : ag.setMeasurements o p l = ok ag')
    (dict : PoseDict ℝ) (X : Joint ℝ) (Z : DMat ℝ) (hup : upToDate r d X ag'.graph dict)
    (f₀ f₁ : ℝ) (g₁ g₂ : PoseGraph ℝ)
    (e₀ : problemF (ag'.graph.setNeighborPoses dict) (X ag.id) = ok (f₀, g₁))
    (e₁ : problemF g₁ Z = ok (f₁, g₂)) (Y₀ Y Y' : DMat ℝ) (hY₀ : Y₀.rows = r ∧ Y₀.cols = n * (d + 1))
    (hY : assemble r d N n (perRobot N n) X Y₀ = ok Y)
    (hY' : assemble r d N n (perRobot N n) (Function.update X ag.id Z) Y₀ = ok Y') :
    f₁ - f₀ = teamCost r d D (fun _ => Y') - teamCost r d D (fun _ => Y) := by
  have hn' := n_lt hn
  obtain ⟨s', e'', h⟩ := partition_eq hN hNn hn' (fun m hm => (hD m hm).1)
  rw [e''] at e
  cases e
  simp only [h.odo, h.priv, h.shared, List.getElem?_map, List.getElem?_range hid, Option.map_some,
    Option.some.injEq] at ho hp hl
  subst ho hp hl
  obtain ⟨hag1, hag2⟩ := hag
  obtain ⟨ag'', k1, -, k2, -⟩ := agent_takes hN hNn hn' (fun m hm => (hD m hm).1)
    (by rw [hag1, hag2]; exact hdr) hid hw hrun (by rw [hag1]; exact hdim) hne
  rw [k1] at e'
  cases e'
  rw [hag1, hag2] at k2
  have key := ((k2.poses dict)).change two_ne_zero hd X Z hup e₀ e₁
  rw [perRobot_eq hn'] at hY hY'
  rw [key, teamCost_relabel (fun i j hi hj => place_inj hN hNn hi hj) hD hone
      (assemble_joins hN hNn hn hY₀ hY'),
    teamCost_relabel (fun i j hi hj => place_inj hN hNn hi hj) hD hone
      (assemble_joins hN hNn hn hY₀ hY)]

/-- Two robots with two poses each: robot 1 takes its lists, and its objective is evaluated twice with
up-to-date poses of robot 0. -/
example : ∃ (ag ag' : Agent) (M : OMap Nat PoseID) (s : Split ℝ) (o p l : List (Meas ℝ)) (f₀ f₁ : ℝ)
    (g₁ g₂ : PoseGraph ℝ) (Y Y' : DMat ℝ), Agent.new exOracle 1 { AgentParams.default 3 3 with numRobots := 2 } = ok ag ∧
    ag.state = .WAIT_FOR_DATA ∧ ag.running = false ∧ ag.d = 3 ∧ ag.r = 3 ∧
    partition (2 : Nat) 4 [edge59 (K := ℝ) 0 1, edge59 1 2, edge59 2 3] = ok (M, s) ∧
    s.odometry[ag.id]? = some o ∧ s.privateLcs[ag.id]? = some p ∧ s.sharedLcs[ag.id]? = some l ∧
    o ≠ [] ∧ ag.setMeasurements o p l = ok ag' ∧
    upToDate 3 3 (fun _ => ⟨3, 8, fun _ _ => 0⟩) ag'.graph [(⟨0, 1⟩, ⟨3, 3, 1, ⟨3, 4, fun _ _ => 0⟩⟩)] ∧
    problemF (ag'.graph.setNeighborPoses [(⟨0, 1⟩, ⟨3, 3, 1, ⟨3, 4, fun _ _ => 0⟩⟩)])
      ⟨3, 8, fun _ _ => 0⟩ = ok (f₀, g₁) ∧
    problemF g₁ ⟨3, 8, fun _ _ => 1⟩ = ok (f₁, g₂) ∧
    assemble 3 3 2 4 (perRobot 2 4) (fun _ => ⟨3, 8, fun _ _ => 0⟩) ⟨3, 16, fun _ _ => 0⟩ = ok Y ∧
    assemble 3 3 2 4 (perRobot 2 4)
      (Function.update (fun _ => (⟨3, 8, fun _ _ => 0⟩ : DMat ℝ)) 1 ⟨3, 8, fun _ _ => 1⟩)
      ⟨3, 16, fun _ _ => 0⟩ = ok Y' := by
  refine ⟨_, _, _, _, _, _, _, _, _, _, _, _, _, rfl, rfl, rfl, rfl, rfl, rfl, rfl, rfl, rfl, ?_, rfl, ?_,
    rfl, rfl, rfl, rfl⟩
  · simp
  · intro p hp
    have hp : p ∈ [(⟨0, 1⟩ : PoseID)] := hp
    simp only [List.mem_cons, List.not_mem_nil, or_false] at hp
    subst hp
    exact ⟨_, rfl, fun ρ c _ _ => rfl⟩

/-- **C59.** Cutting a centralised estimate into the parts of the robots succeeds, the parts have the
sizes of the robots' shares, and putting them together gives the estimate back. -/
theorem C59_estimate (N n r d : Nat) (hN : 0 < N) (hNn : N ≤ n) (hn : n * (d + 1) < 2 ^ 32) (X Y₀ : DMat K)
    (hX : X.rows = r ∧ X.cols = n * (d + 1)) (hY₀ : Y₀.rows = r ∧ Y₀.cols = n * (d + 1)) :
    ∃ (P : Nat → DMat K) (Y : DMat K),
      (∀ a, a < N → localBlock r d (startIdx (perRobot N n) a) (endIdx N n (perRobot N n) a) X = ok (P a) ∧
        (P a).rows = r ∧ (P a).cols = (if a = N - 1 then n - (N - 1) * (n / N) else n / N) * (d + 1)) ∧
      assemble r d N n (perRobot N n) P Y₀ = ok Y ∧ DMat.Same Y X := by
  rw [perRobot_eq (n_lt hn)]
  have : Nonempty (DMat K) := ⟨X⟩
  choose! P hP using fun a (ha : a < N) => localBlock_ok (K := K) hn hX ha
  obtain ⟨Y, e, y1, y2, hj⟩ := assemble_ok hN hNn hn (X := P) (r := r)
    (fun a ha => ⟨(hP a ha).2.1, (hP a ha).2.2.1⟩) hY₀
  refine ⟨P, Y, fun a ha => ⟨(hP a ha).1, (hP a ha).2.1, (hP a ha).2.2.1⟩, e, ?_⟩
  have hx := joins_blocks hN hNn hn hX (fun a ha => (hP a ha).1)
  refine ⟨y1.trans hX.1.symm, y2.trans hX.2.symm, ?_⟩
  intro i j hi hjj
  rw [y1] at hi
  rw [y2] at hjj
  have hq : j / (d + 1) < n := (Nat.div_lt_iff_lt_mul (Nat.succ_pos d)).2 hjj
  have hs : j = j / (d + 1) * (d + 1) + j % (d + 1) := (Nat.div_add_mod' j (d + 1)).symm
  have hm : j % (d + 1) < d + 1 := Nat.mod_lt _ (Nat.succ_pos d)
  rw [hs, hj _ hq i _ hi hm, hx _ hq i _ hi hm]

/-- **C59.** Although the lists are complete, a robot with a single pose has no consecutive edge, and an
agent given no odometry ignores everything: with fewer than two poses per robot, every robot but the
last drops the edges it shares. -/
theorem C59_single_pose_ignored (N n : Nat) (hN : 0 < N) (hNn : N ≤ n) (hn : n < 2 ^ 32)
    (hlt : n < 2 * N) (D : List (Meas ℝ)) (hD : ∀ m ∈ D, EndsBelow n m) (ag : Agent)
    (hid : ag.id < N - 1) (hw : ag.state = .WAIT_FOR_DATA) (hr : ag.running = false) (M : OMap Nat PoseID)
    (s : Split ℝ) (e : partition (N : Int) n D = ok (M, s)) (o p l : List (Meas ℝ))
    (ho : s.odometry[ag.id]? = some o) : o = [] ∧ ag.setMeasurements o p l = ok ag := by
  obtain ⟨s', e', h⟩ := partition_eq hN hNn hn hD
  rw [e'] at e
  cases e
  simp only [h.odo, List.getElem?_map, List.getElem?_range (show ag.id < N by omega), Option.map_some,
    Option.some.injEq] at ho
  have ho' : o = [] := by
    rw [← ho, List.filter_eq_nil_iff]
    intro m hm hodo
    obtain ⟨x, hx, rfl⟩ := List.mem_map.1 hm
    rw [isOdo_iff] at hodo
    obtain ⟨h1, h2, h3⟩ := hodo
    have hk : n / N = 1 := by
      rw [Nat.div_eq_iff hN]; omega
    obtain ⟨-, -, q⟩ := (place_eq_iff hN hNn x.p2 (place N (n / N) x.p2).robot
      (place N (n / N) x.p2).frame (hD x hx).2).1 rfl
    simp only [relabel] at h1 h2 h3
    rw [if_neg (by omega), hk] at q
    rw [hk] at h3
    omega
  refine ⟨ho', ?_⟩
  subst ho'
  unfold Agent.setMeasurements
  rw [hw, hr]
  rfl

/-- Two poses over two robots: the only edge is shared, and robot 0 ignores it. -/
example : ∃ M s, partition (2 : Nat) 2 [edge59 (K := ℝ) 0 1] = ok (M, s) ∧ s.odometry[0]? = some [] ∧
    (s.sharedLcs[0]?.map List.length) = some 1 :=
  ⟨_, _, rfl, rfl, rfl⟩

end Dpgo.Props
