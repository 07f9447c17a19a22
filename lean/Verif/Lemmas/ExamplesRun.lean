import Verif.Lemmas.Examples
import Verif.Props.Odometry

/-! # Runs of the single-robot example programs -/

namespace Dpgo.Example

open Res Spec PoseGraph

section
variable {d n : Nat} {D : List (Meas ℝ)}

theorem chordalWF (h : OneRobot 0 d n D) (hp : Precise D) : ChordalWF d D :=
  ⟨h.nonempty, fun m hm => ⟨h.dims m hm, (hp m hm).2, (hp m hm).1, by
    have := h.wf m hm
    unfold MeasWF at this
    omega⟩⟩

theorem dimensionOf_eq {id : Nat} (h : OneRobot id d n D) : dimensionOf D = d := by
  obtain ⟨m, hm⟩ := List.exists_mem_of_ne_nil _ h.nonempty
  cases D with
  | nil => cases hm
  | cons x l =>
    obtain ⟨-, -, h3, h4⟩ := h.dims x (by simp)
    unfold dimensionOf
    simp only [h3, h4, Nat.mul_one]
    rcases h.dim with rfl | rfl <;> rfl

theorem poses_lt {id : Nat} (h : OneRobot id d n D) : n < 2 ^ 32 := by
  obtain ⟨-, m, hm, he⟩ := h.num
  have := h.wf m hm
  unfold MeasWF at this
  omega

theorem centralGraph_ok (h : OneRobot 0 d n D) : ∃ g, centralGraph D = ok g ∧ Central d d n D g := by
  obtain ⟨g₀, g, e0, e1, hc⟩ := central_start h le_rfl
  refine ⟨g, ?_, hc⟩
  unfold centralGraph
  simp only [dimensionOf_eq h, e0, ok_bind, e1]

/-- What the programs print for a trajectory of the right shape. -/
theorem central_prints (h : OneRobot 0 d n D) {g : PoseGraph ℝ} (hg : Central d d n D g) {T : PArr ℝ}
    (hT : ArrOk d d n T) : ∃ g', Dpgo.problemF g T.X = ok (pgoCost d D T, g') := by
  obtain ⟨f, g', e⟩ := hg.total T.X hT.2.2.2.1 hT.2.2.2.2
  refine ⟨g', ?_⟩
  rw [e, hg.cost h e]
  rfl

/-! ### The list of measurements an agent keeps -/

theorem firstWins_pairwise (l : List (Meas ℝ)) :
    (firstWins l).Pairwise (fun a b => ¬ sameEnds a b = true) := by
  induction l with
  | nil => exact List.Pairwise.nil
  | cons m l ih =>
    rw [firstWins, List.pairwise_cons]
    refine ⟨fun x hx => ?_, ih.filter _⟩
    have := (List.mem_filter.1 hx).2
    simpa using this

theorem firstWins_of_pairwise : ∀ {l : List (Meas ℝ)}, l.Pairwise (fun a b => ¬ sameEnds a b = true) →
    firstWins l = l
  | [], _ => rfl
  | m :: l, h => by
    rw [List.pairwise_cons] at h
    rw [firstWins, firstWins_of_pairwise h.2, List.filter_eq_self.2]
    intro x hx
    simpa using h.1 x hx

theorem odometryFirst_perm (D : List (Meas ℝ)) : List.Perm (odometryFirst D) (firstWins D) := by
  unfold odometryFirst
  have := List.filter_append_perm (fun m : Meas ℝ => m.p1 + 1 == m.p2) (firstWins D)
  refine List.Perm.trans (List.Perm.of_eq ?_) this
  congr 1

theorem mem_odometryFirst {m : Meas ℝ} : m ∈ odometryFirst D ↔ m ∈ firstWins D :=
  (odometryFirst_perm D).mem_iff

theorem pgoCost_odometryFirst (d : Nat) (D : List (Meas ℝ)) (T : PArr ℝ) :
    pgoCost d (odometryFirst D) T = pgoCost d D T := by
  have hs : Std.Symm (fun a b : Meas ℝ => ¬ sameEnds a b = true) := ⟨fun a b h c => h (by
    rw [sameEnds_iff] at c ⊢
    exact ⟨c.1.symm, c.2.1.symm, c.2.2.1.symm, c.2.2.2.symm⟩)⟩
  have e : firstWins (odometryFirst D) = odometryFirst D :=
    firstWins_of_pairwise (((odometryFirst_perm D).symm.pairwise_iff (fun {a b} => hs.symm a b)).1 (firstWins_pairwise D))
  unfold pgoCost teamCost
  rw [e]
  congr 1
  exact ((odometryFirst_perm D).map _).sum_eq

theorem oneRobot_odometryFirst (h : OneRobot 0 d n D) : OneRobot 0 d n (odometryFirst D) := by
  have sub : ∀ m ∈ odometryFirst D, m ∈ D := fun m hm => mem_of_firstWins (mem_odometryFirst.1 hm)
  refine ⟨?_, h.dim, fun m hm => h.ids m (sub m hm), fun m hm => h.wf m (sub m hm),
    fun m hm => h.dims m (sub m hm), fun m hm => h.noSelf m (sub m hm),
    fun m hm => h.num.1 m (sub m hm), ?_⟩
  · obtain ⟨m, hm⟩ := List.exists_mem_of_ne_nil _ h.nonempty
    obtain ⟨m', hm', -⟩ := exists_firstWins hm
    exact List.ne_nil_of_mem (mem_odometryFirst.2 hm')
  · obtain ⟨-, m, hm, he⟩ := h.num
    obtain ⟨m', hm', -, e1, -, e2⟩ := exists_firstWins hm
    exact ⟨m', mem_odometryFirst.2 hm', by rw [e1, e2]; exact he⟩

theorem precise_odometryFirst (h : Precise D) : Precise (odometryFirst D) :=
  fun m hm => h m (mem_of_firstWins (mem_odometryFirst.1 hm))

/-! ### The consecutive edges of a dataset -/

theorem odo_filter (h : OneRobot 0 d n D) :
    (firstWins D).filter (isOdo 0) = (firstWins D).filter (fun m => m.p1 + 1 == m.p2) := by
  refine List.filter_congr fun m hm => ?_
  have := h.ids m (mem_of_firstWins hm)
  simp [isOdo, this.1, this.2]

theorem priv_filter (h : OneRobot 0 d n D) :
    (firstWins D).filter (isPriv 0) = (firstWins D).filter (fun m => m.p1 + 1 != m.p2) := by
  refine List.filter_congr fun m hm => ?_
  have := h.ids m (mem_of_firstWins hm)
  simp [isPriv, this.1, this.2]

theorem chain_index (h : Dataset d n D) {i : Nat} {m : Meas ℝ}
    (hm : ((firstWins D).filter (fun m => m.p1 + 1 == m.p2))[i]? = some m) : m.p1 = i ∧ m.p2 = i + 1 := by
  have hc := congrArg (fun l : List Nat => l[i]?) h.chain
  simp only [List.getElem?_map, hm, Option.map_some] at hc
  have hi : i < n - 1 := by
    have := (List.getElem?_eq_some_iff.1 hc.symm).1
    simpa using this
  rw [List.getElem?_range hi] at hc
  simp only [Option.some.injEq] at hc
  have := (List.mem_filter.1 (List.mem_of_getElem? hm)).2
  simp only [beq_iff_eq] at this
  omega

theorem chain_length (h : Dataset d n D) :
    ((firstWins D).filter (fun m => m.p1 + 1 == m.p2)).length = n - 1 := by
  simpa using congrArg List.length h.chain

theorem chain_edge (h : Dataset d n D) {i : Nat} (hi : i + 1 < n) :
    ∃ m ∈ firstWins D, m.p1 = i ∧ m.p2 = i + 1 ∧
      ((firstWins D).filter (fun m => m.p1 + 1 == m.p2))[i]? = some m := by
  have hl := chain_length h
  have hi' : i < ((firstWins D).filter (fun m => m.p1 + 1 == m.p2)).length := by omega
  have e := List.getElem?_eq_getElem hi'
  obtain ⟨h1, h2⟩ := chain_index h e
  exact ⟨_, (List.mem_filter.1 (List.getElem_mem hi')).1, h1, h2, e⟩

theorem chain_linked (h : Dataset d n D) : ∀ i < n, Linked (odometryFirst D) i := by
  intro i
  induction i with
  | zero => exact fun _ => Linked.zero
  | succ i ih =>
    intro hi
    obtain ⟨m, hm, e1, e2, -⟩ := chain_edge h hi
    have := Linked.fwd (mem_odometryFirst.2 hm) (by rw [e1]; exact ih (by omega))
    rwa [e2] at this

/-! ### The single-robot example -/

theorem relabel_self (h : Dataset d n D) (hf : ∀ m ∈ D, m.fixedWeight = false) :
    D.map (relabel (place 1 (n / 1))) = D := by
  conv_rhs => rw [← List.map_id D]
  refine List.map_congr_left fun m hm => ?_
  have h1 := h.ids m hm
  have h2 := h.unit m hm
  have h3 := hf m hm
  obtain ⟨r1, r2, p1, p2, R, t, κ, τ, fw, w⟩ := m
  simp only at h1 h2 h3
  simp [relabel, place, h1.1, h1.2, h2, h3]

theorem sort_eq (h : Dataset d n D) (hf : ∀ m ∈ D, m.fixedWeight = false) :
    D.foldl sortStep ([], []) = (D.filter (isOdo 0), D.filter (isPriv 0)) := by
  have hn := poses_lt h.toOneRobot
  have key : ∀ l : List (Meas ℝ), (∀ m ∈ l, m ∈ D) → ∀ a b,
      l.foldl sortStep (a, b) = (a ++ l.filter (isOdo 0), b ++ l.filter (isPriv 0)) := by
    intro l
    induction l with
    | nil => intro _ a b; simp
    | cons m l ih =>
      intro hl a b
      have hm := hl m (by simp)
      obtain ⟨b1, b2⟩ := h.num.1 m hm
      obtain ⟨i1, i2⟩ := h.ids m hm
      have u1 : u32 m.p1 = m.p1 := Nat.mod_eq_of_lt (by omega)
      have u2 : u32 m.p2 = m.p2 := Nat.mod_eq_of_lt (by omega)
      have u3 : u32 (m.p1 + 1) = m.p1 + 1 := Nat.mod_eq_of_lt (by omega)
      have hown : ownMeas m = m := by
        have h2 := h.unit m hm
        have h3 := hf m hm
        unfold ownMeas Meas.make
        rw [u1, u2]
        obtain ⟨r1, r2, p1, p2, R, t, κ, τ, fw, w⟩ := m
        simp only at i1 i2 h2 h3
        simp [i1, i2, h2, h3]
      have hstep : sortStep (a, b) m = if m.p1 + 1 = m.p2 then (a ++ [m], b) else (a, b ++ [m]) := by
        unfold sortStep
        rw [u1, u2, u3, hown]
      rw [List.foldl_cons, hstep]
      by_cases c : m.p1 + 1 = m.p2
      · have c1 : isOdo 0 m = true := (isOdo_iff 0 m).2 ⟨i1, i2, c⟩
        have c2 : ¬ isPriv 0 m = true := fun x => ((isPriv_iff 0 m).1 x).2.2 c
        rw [if_pos c, List.filter_cons_of_pos c1, List.filter_cons_of_neg c2,
          ih (fun x hx => hl x (List.mem_cons_of_mem _ hx))]
        simp
      · have c1 : ¬ isOdo 0 m = true := fun x => c ((isOdo_iff 0 m).1 x).2.2
        have c2 : isPriv 0 m = true := (isPriv_iff 0 m).2 ⟨i1, i2, c⟩
        rw [if_neg c, List.filter_cons_of_neg c1, List.filter_cons_of_pos c2,
          ih (fun x hx => hl x (List.mem_cons_of_mem _ hx))]
        simp
  simpa using key D (fun _ h => h) [] []

theorem shared_nil (h : OneRobot 0 d n D) : D.filter (isShared 0) = [] := by
  rw [List.filter_eq_nil_iff]
  intro m hm c
  rw [isShared_iff] at c
  have := h.ids m hm
  tauto

/-- The agent of the single-robot example after `initialize`. -/
theorem single_agent {o : AgentOracles} (h : Dataset d n D) (h2 : 2 ≤ n)
    (hf : ∀ m ∈ D, m.fixedWeight = false) :
    ∃ a b c, Agent.new o 0 (AgentParams.default d d) = ok a ∧
      a.setMeasurements (D.foldl sortStep ([], [])).1 (D.foldl sortStep ([], [])).2 [] = ok b ∧
      b.init o none = ok c ∧ c.graph.localMeasurements = odometryFirst D := by
  obtain ⟨a, e1, ha, hY⟩ := new_total (o := o) (p := AgentParams.default d d) le_rfl 0
  have hD : Dataset (AgentParams.default d d).d n D := h
  have hs : share 1 n 0 = n := by simp [share]
  obtain ⟨b, c, e2, e3, hc⟩ := ha.enlist (N := 1) one_pos (by omega)
    (poses_lt h.toOneRobot) hD le_rfl rfl rfl rfl one_pos
    (by rw [hs]; exact h2) (hY rfl)
  rw [relabel_self h hf, shared_nil h.toOneRobot] at e2
  refine ⟨a, b, c, e1, by rw [sort_eq h hf]; exact e2, e3, ?_⟩
  obtain ⟨l1, l2, -⟩ := hc.team.lists
  rw [relabel_self h hf] at l1 l2
  unfold PoseGraph.localMeasurements odometryFirst
  rw [l1, l2, odo_filter h.toOneRobot, priv_filter h.toOneRobot]

/-! ### The flag of known inliers plays no role for an agent on its own -/

/-- The measurement without the flag set by the reader of the file. -/
def unflag (m : Meas ℝ) : Meas ℝ := { m with fixedWeight := false }

theorem unflag_free (D : List (Meas ℝ)) : ∀ m ∈ D.map unflag, m.fixedWeight = false := by
  intro m hm
  obtain ⟨x, -, rfl⟩ := List.mem_map.1 hm
  rfl

theorem firstWins_unflag : ∀ l : List (Meas ℝ), firstWins (l.map unflag) = (firstWins l).map unflag
  | [] => rfl
  | m :: l => by
    rw [List.map_cons, firstWins, firstWins, firstWins_unflag l, List.map_cons, List.filter_map]
    rfl

theorem odometryFirst_unflag (D : List (Meas ℝ)) :
    odometryFirst (D.map unflag) = (odometryFirst D).map unflag := by
  unfold odometryFirst
  rw [firstWins_unflag, List.filter_map, List.filter_map, List.map_append]
  rfl

theorem pgoCost_unflag (d : Nat) (D : List (Meas ℝ)) (T : PArr ℝ) :
    pgoCost d (D.map unflag) T = pgoCost d D T := by
  unfold pgoCost teamCost
  rw [firstWins_unflag, List.map_map]
  rfl

theorem dataset_unflag (h : Dataset d n D) : Dataset d n (D.map unflag) := by
  have mem : ∀ P : Meas ℝ → Prop, (∀ x ∈ D, P (unflag x)) → ∀ m ∈ D.map unflag, P m := by
    intro P hP m hm
    obtain ⟨x, hx, rfl⟩ := List.mem_map.1 hm
    exact hP x hx
  obtain ⟨h1, m, hm, he⟩ := h.num
  refine ⟨⟨by simpa using h.nonempty, h.dim, mem _ h.ids, mem _ h.wf, mem _ h.dims, mem _ h.noSelf,
    mem _ h1, unflag m, List.mem_map_of_mem hm, he⟩, mem _ h.precise, mem _ h.unit, ?_⟩
  rw [firstWins_unflag, List.filter_map, List.map_map]
  exact h.chain

theorem sort_unflag (D : List (Meas ℝ)) (s : List (Meas ℝ) × List (Meas ℝ)) :
    (D.map unflag).foldl sortStep s = D.foldl sortStep s := by
  rw [List.foldl_map]
  rfl

theorem chordal_unflag (svd : SvdOracle) (qr : LsqOracle) (l : List (Meas ℝ)) :
    chordalInitialization svd qr (l.map unflag) = chordalInitialization svd qr l := by
  have e1 : getDimensionAndNumPoses (l.map unflag) = getDimensionAndNumPoses l := by
    cases l with
    | nil => rfl
    | cons m l =>
      simp only [List.map_cons, getDimensionAndNumPoses, List.foldl_cons, List.foldl_map]
      rfl
  have e2 : maxPoseIndex (l.map unflag) = maxPoseIndex l := by
    unfold maxPoseIndex
    rw [List.foldl_map]
    rfl
  have e3 : ∀ (f : Nat → Meas ℝ → List (Nat × Nat × ℝ)), (∀ e m, f e (unflag m) = f e m) →
      ((l.map unflag).zipIdx.flatMap fun p => f p.2 p.1) = l.zipIdx.flatMap fun p => f p.2 p.1 := by
    intro f hf
    rw [List.zipIdx_map, List.flatMap_map]
    exact congrArg (fun g => List.flatMap g l.zipIdx) (funext fun p => hf p.2 p.1)
  have e4 : ∀ k q, bMatricesOf k q (l.map unflag) = bMatricesOf k q l := by
    intro k q
    have c : (∃ m ∈ l.map unflag, m.tau < 0 ∨ m.kappa < 0) = ∃ m ∈ l, m.tau < 0 ∨ m.kappa < 0 :=
      propext ⟨fun ⟨m, hm, hlt⟩ => by
        obtain ⟨x, hx, rfl⟩ := List.mem_map.1 hm
        exact ⟨x, hx, hlt⟩, fun ⟨m, hm, hlt⟩ => ⟨_, List.mem_map_of_mem hm, hlt⟩⟩
    have a : (l.map unflag).all (measReadable k) = l.all (measReadable k) := by
      rw [List.all_map]
      rfl
    unfold bMatricesOf
    simp only [a, c, List.length_map, e3 (b1Entries k) (fun _ _ => rfl), e3 (b2Entries k) (fun _ _ => rfl),
      e3 (b3Entries k) (fun _ _ => rfl)]
  have e5 : constructBMatrices (l.map unflag) = constructBMatrices l := by
    unfold constructBMatrices
    rw [e2, e4]
    cases l <;> rfl
  unfold chordalInitialization
  rw [e1, e5]

/-! ### The robust example -/

theorem weight_one (h : Dataset d n D) : D.map (fun m => { m with weight := 1 }) = D := by
  conv_rhs => rw [← List.map_id D]
  refine List.map_congr_left fun m hm => ?_
  have := h.unit m hm
  obtain ⟨r1, r2, p1, p2, R, t, κ, τ, fw, w⟩ := m
  simp only at this
  rw [this]
  rfl

/-- The trajectory the robust example starts from. -/
theorem odometry_start {o : SolverOracles} (h : Dataset d n D) (h2 : 2 ≤ n) :
    ∃ P, gncProgram o D = solveRobustPGO o gncParams D (some P) ∧ ArrOk d d n P ∧ rotM d d P 0 = 1 ∧
      traV d d P 0 = 0 ∧ ∀ m ∈ firstWins D, m.p1 + 1 = m.p2 → Satisfied d P m.p1 m.p2 m := by
  obtain ⟨g, e1, hg⟩ := centralGraph_ok h.toOneRobot
  obtain ⟨l1, -, -⟩ := hg.team.lists
  rw [odo_filter h.toOneRobot] at l1
  have hlen := chain_length h
  have hsub : ∀ m ∈ (firstWins D).filter (fun m => m.p1 + 1 == m.p2), m ∈ D := fun m hm =>
    mem_of_firstWins (List.mem_filter.1 hm).1
  have hn64 : n < 2 ^ 64 := by
    obtain ⟨-, m, hm, he⟩ := h.num
    have := h.wf m hm
    unfold MeasWF at this
    omega
  obtain ⟨P, e2, hP, h0, h1, hch⟩ := Props.C28_chain (d := d)
    (odo := (firstWins D).filter (fun m => m.p1 + 1 == m.p2))
    (fun c => by rw [c] at hlen; simp only [List.length_nil] at hlen; omega) h.dim
    (fun m hm => h.dims m (hsub m hm)) (fun i m hm => chain_index h hm) (by omega)
  rw [hlen, show n - 1 + 1 = n by omega] at hP
  refine ⟨P, ?_, hP, h0, h1, fun m hm hc => ?_⟩
  · have hne : D.isEmpty = false := by
      cases D with
      | nil => exact absurd rfl h.nonempty
      | cons => rfl
    unfold gncProgram
    simp only [hne, e1, l1, e2, Bool.not_false, check_true, ok_bind]
  · have hm' : m ∈ (firstWins D).filter (fun m => m.p1 + 1 == m.p2) :=
      List.mem_filter.2 ⟨hm, by simpa using hc⟩
    obtain ⟨i, hi, he⟩ := List.mem_iff_getElem.1 hm'
    have e := List.getElem?_eq_getElem hi
    rw [he] at e
    obtain ⟨p1, p2⟩ := chain_index h e
    have := hch i m e
    rwa [p1, p2]

/-! ### Files the programs cannot handle -/

theorem foreign_graph {id : Nat} (hid : id ≠ 0) (h : OneRobot id d n D) :
    ∃ g, centralGraph D = ok g ∧
      (0 < n → ∀ {T : PArr ℝ}, ArrOk d d n T → Dpgo.problemF g T.X = abort) ∧ g.odometry = [] := by
  have hset : ∀ (g : PoseGraph ℝ), g.id = 0 → ∀ l : List (Meas ℝ), (∀ m ∈ l, m ∈ D) →
      Res.foldl addMeasurement g l = ok g := by
    intro g hg l
    induction l with
    | nil => intro _; rfl
    | cons m l ih =>
      intro hl
      have := h.ids m (hl m (by simp))
      have e : g.addMeasurement m = ok g := by
        unfold addMeasurement
        rw [hg, this.1, this.2]
        simp [hid]
      rw [Res.foldl, e]
      exact ih fun x hx => hl x (List.mem_cons_of_mem _ hx)
  obtain ⟨g0, e0, f1, f2, f3, f4⟩ : ∃ g0 : PoseGraph ℝ, PoseGraph.new 0 d d = ok g0 ∧ g0.empty.id = 0 ∧
      g0.empty.d = d ∧ g0.empty.n = 0 ∧ g0.empty.odometry = [] := by
    unfold PoseGraph.new
    rw [decide_eq_true (le_refl d), check_true]
    exact ⟨_, rfl, rfl, rfl, rfl, rfl⟩
  refine ⟨g0.empty, ?_, fun hn T hT => ?_, f4⟩
  · unfold centralGraph
    simp only [dimensionOf_eq h, e0, ok_bind]
    exact hset _ f1 D fun _ h => h
  · have hc : (T.X.cols == (g0.empty.d + 1) * g0.empty.n) = false := by
      rw [f2, f3, hT.2.2.2.2, beq_eq_false_iff_ne]
      have : 0 < (d + 1) * n := Nat.mul_pos (by omega) hn
      omega
    unfold Dpgo.problemF
    rw [hc]
    cases (T.X.rows == g0.empty.r) <;> rfl

theorem foreign_wf {id : Nat} (h : OneRobot id d n D) (hp : Precise D) : ChordalWF d D :=
  ⟨h.nonempty, fun m hm => ⟨h.dims m hm, (hp m hm).2, (hp m hm).1, by
    have := h.wf m hm
    unfold MeasWF at this
    omega⟩⟩

theorem sort_own (D : List (Meas ℝ)) (s : List (Meas ℝ) × List (Meas ℝ)) :
    (D.map ownMeas).foldl sortStep s = D.foldl sortStep s := by
  rw [List.foldl_map]
  congr 1
  funext s m
  have u : ∀ k, u32 (u32 k) = u32 k := fun k => Nat.mod_mod _ _
  have e : ownMeas (ownMeas m) = ownMeas m := by
    simp [ownMeas, Meas.make, u]
  simp only [sortStep, e]
  simp only [ownMeas, Meas.make, u]

theorem sort_none (h : OneRobot 0 d n D) (hno : ∀ m ∈ D, m.p1 + 1 ≠ m.p2) :
    (D.foldl sortStep ([], [])).1 = [] := by
  have hn := poses_lt h
  have key : ∀ l : List (Meas ℝ), (∀ m ∈ l, m ∈ D) → ∀ b, (l.foldl sortStep ([], b)).1 = [] := by
    intro l
    induction l with
    | nil => intro _ b; rfl
    | cons m l ih =>
      intro hl b
      have hm := hl m (by simp)
      obtain ⟨b1, b2⟩ := h.num.1 m hm
      have u1 : u32 m.p1 = m.p1 := Nat.mod_eq_of_lt (by omega)
      have u2 : u32 m.p2 = m.p2 := Nat.mod_eq_of_lt (by omega)
      have u3 : u32 (m.p1 + 1) = m.p1 + 1 := Nat.mod_eq_of_lt (by omega)
      have hstep : sortStep ([], b) m = ([], b ++ [ownMeas m]) := by
        unfold sortStep
        rw [u1, u2, u3, if_neg (hno m hm)]
      rw [List.foldl_cons, hstep]
      exact ih (fun x hx => hl x (List.mem_cons_of_mem _ hx)) _
  exact key D (fun _ h => h) []

theorem newcomer_local {o : AgentOracles} {i : Nat} {p : AgentParams} {a : Agent}
    (e : Agent.new o i p = ok a) : a.graph.localMeasurements = [] := by
  obtain ⟨X, g, YL, -, hg, -, -, -, rfl⟩ := Agent.new_form e
  unfold PoseGraph.new at hg
  rw [bind_eq_ok] at hg
  obtain ⟨_, -, hg⟩ := hg
  cases hg
  rfl

end

end Dpgo.Example
