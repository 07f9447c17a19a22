import Verif.Spec.Alignment
import Verif.Lemmas.AgentAlign
import Verif.Lemmas.AgentStart
import Verif.Lemmas.AgentFrame
import Verif.Props.Chordal

/-! # The alignment phase of a team: invariant -/

namespace Dpgo

open Res Spec PArr Matrix

/-! ### Measurements -/

theorem exact_strip {d : Nat} {w : Truth d} {m : Meas ℝ} : w.Exact (strip m) ↔ w.Exact m := Iff.rfl

theorem exact_topology {d : Nat} {w : Truth d} {g g' : PoseGraph ℝ} (h : SameTopology g g')
    (hx : ∀ m ∈ g.measurements, w.Exact m) : ∀ m ∈ g'.measurements, w.Exact m := by
  have key : ∀ {l l' : List (Meas ℝ)}, l'.map strip = l.map strip → (∀ m ∈ l, w.Exact m) →
      ∀ m ∈ l', w.Exact m := by
    intro l l' e hl m hm
    have : strip m ∈ l'.map strip := List.mem_map_of_mem hm
    rw [e] at this
    obtain ⟨x, hx, ex⟩ := List.mem_map.1 this
    rw [← exact_strip, ← ex]
    exact exact_strip.2 (hl x hx)
  intro m hm
  unfold PoseGraph.measurements at hm hx
  simp only [List.mem_append] at hm hx
  rcases hm with (hm | hm) | hm
  · exact key h.odometry (fun m h => hx m (Or.inl (Or.inl h))) m hm
  · exact key h.privateLcs (fun m h => hx m (Or.inl (Or.inr h))) m hm
  · exact key h.sharedLcs (fun m h => hx m (Or.inr h)) m hm

/-- A graph holds no measurement that it was not given. -/
theorem holds_add {g g' : PoseGraph ℝ} {m : Meas ℝ} (e : g.addMeasurement m = ok g') :
    ∀ x ∈ g'.measurements, x ∈ g.measurements ∨ x = m := by
  have ext : ∀ (g' : PoseGraph ℝ) (a b c : List (Meas ℝ)), g'.odometry = g.odometry ++ a →
      g'.privateLcs = g.privateLcs ++ b → g'.sharedLcs = g.sharedLcs ++ c →
      (∀ x ∈ a ++ b ++ c, x = m) → ∀ x ∈ g'.measurements, x ∈ g.measurements ∨ x = m := by
    intro g' a b c h1 h2 h3 h x hx
    have := h x
    unfold PoseGraph.measurements at *
    rw [h1, h2, h3] at hx
    simp only [List.mem_append] at *
    tauto
  unfold PoseGraph.addMeasurement at e
  split at e
  · cases e; exact fun x h => Or.inl h
  · split at e
    · split at e
      · unfold PoseGraph.addOdometry at e
        split at e
        · cases e; exact fun x h => Or.inl h
        · simp only [bind_eq_ok, check_eq_ok, exists_and_left, exists_const] at e
          obtain ⟨-, -, -, -, e⟩ := e
          cases e
          exact ext _ [m] [] [] rfl (List.append_nil _).symm (List.append_nil _).symm (by simp)
      · unfold PoseGraph.addPrivateLoopClosure at e
        split at e
        · cases e; exact fun x h => Or.inl h
        · simp only [bind_eq_ok, check_eq_ok, exists_and_left, exists_const] at e
          obtain ⟨-, -, -, e⟩ := e
          cases e
          exact ext _ [] [m] [] (List.append_nil _).symm rfl (List.append_nil _).symm (by simp)
    · unfold PoseGraph.addSharedLoopClosure at e
      split at e
      · cases e; exact fun x h => Or.inl h
      · simp only [bind_eq_ok, check_eq_ok, exists_and_left, exists_const] at e
        obtain ⟨-, e⟩ := e
        split at e <;>
        · simp only [bind_eq_ok, check_eq_ok, exists_and_left, exists_const] at e
          obtain ⟨-, e⟩ := e
          cases e
          exact ext _ [] [] [m] (List.append_nil _).symm (List.append_nil _).symm rfl (by simp)

theorem exact_all {d : Nat} {w : Truth d} : ∀ {ms : List (Meas ℝ)} {g g' : PoseGraph ℝ},
    (∀ m ∈ g.measurements, w.Exact m) → (∀ m ∈ ms, w.Exact m) →
    Res.foldl PoseGraph.addMeasurement g ms = ok g' → ∀ m ∈ g'.measurements, w.Exact m
  | [], g, g', h, _, e => by cases e; exact h
  | m :: ms, g, g', h, hm, e => by
    rw [foldl_cons, bind_eq_ok'] at e
    obtain ⟨g1, e1, e⟩ := e
    refine exact_all (fun x hx => ?_) (fun x hx => hm x (by simp [hx])) e
    rcases holds_add e1 x hx with c | c
    · exact h x c
    · rw [c]; exact hm m (by simp)

theorem empty_measurements (g : PoseGraph ℝ) : g.empty.measurements = [] := rfl

/-! ### Trajectories -/

section
variable {d : Nat}

theorem trueInv {w : Truth d} {r i : Nat} : (w.R r i)⁻¹ = (w.R r i)ᵀ :=
  inv_eq_left_inv (w.rigid r i).1

/-- A trajectory that is exact in some frame is, normalised, exact in the frame of the robot's first pose. -/
theorem normal_local {w : Truth d} {id n : Nat} {S : Matrix (Fin d) (Fin d) ℝ} {s : Fin d → ℝ}
    {T U : PArr ℝ} (hn : 0 < n) (h : w.Local id n S s T)
    (hU : ∀ i < n, rotM d d U i = (rotM d d T 0)⁻¹ * rotM d d T i ∧
      traV d d U i = (rotM d d T 0)⁻¹ *ᵥ (traV d d T i - traV d d T 0)) :
    w.Local id n (w.R id 0) (w.t id 0) U := by
  have h0 := h.rot 0 hn
  have hu : IsUnit (rotM d d T 0).det := by
    have := congrArg Matrix.det h0
    rw [(w.rigid id 0).2, det_mul, h.rigid.2, one_mul] at this
    rw [← this]; exact isUnit_one
  refine ⟨w.rigid id 0, fun i hi => ?_, fun i hi => ?_⟩
  · rw [(hU i hi).1, h0, Matrix.mul_assoc, ← Matrix.mul_assoc (rotM d d T 0), mul_nonsing_inv _ hu,
      Matrix.one_mul, h.rot i hi]
  · rw [(hU i hi).2, h0, mulVec_mulVec, Matrix.mul_assoc, mul_nonsing_inv _ hu, Matrix.mul_one,
      h.tra i hi, h.tra 0 hn, mulVec_sub]
    abel

theorem local_det {w : Truth d} {id n : Nat} {S : Matrix (Fin d) (Fin d) ℝ} {s : Fin d → ℝ}
    {T : PArr ℝ} (hn : 0 < n) (h : w.Local id n S s T) : (rotM d d T 0).det ≠ 0 := by
  have := congrArg Matrix.det (h.rot 0 hn)
  rw [(w.rigid id 0).2, det_mul, h.rigid.2, one_mul] at this
  rw [← this]; exact one_ne_zero

/-- Exact odometry chained from the identity. -/
theorem odo_local {ID r n : Nat} {w : Truth d} {g : PoseGraph ℝ} (hg : Reachable ID r d g)
    (hx : ∀ m ∈ g.measurements, w.Exact m) (hc : Complete d g) {T : PArr ℝ} (hn : g.n = n)
    (h0 : rotM d d T 0 = 1) (t0 : traV d d T 0 = 0)
    (hs : ∀ i m, g.odometry[i]? = some m → Satisfied d T i (i + 1) m) :
    w.Local ID n (w.R ID 0) (w.t ID 0) T := by
  have hown := (hc.one hg).ids
  have key : ∀ i, i < n → w.R ID i = w.R ID 0 * rotM d d T i ∧
      w.t ID i = w.R ID 0 *ᵥ traV d d T i + w.t ID 0 := by
    intro i
    induction i with
    | zero => intro _; rw [h0, t0]; simp
    | succ i ih =>
      intro hlt
      have hl : i < g.odometry.length := by have := hc.all; omega
      have hm : g.odometry[i]? = some g.odometry[i] := by simp [hl]
      have hmem : g.odometry[i] ∈ g.odometry := List.getElem_mem hl
      obtain ⟨p1, p2⟩ := hc.con i _ hm
      obtain ⟨e1, e2⟩ := hx g.odometry[i] (by unfold PoseGraph.measurements; simp [hmem])
      obtain ⟨o1, o2⟩ := hown g.odometry[i] (by unfold PoseGraph.localMeasurements; simp [hmem])
      rw [o1, o2, p1, p2] at e1 e2
      obtain ⟨s1, s2⟩ := hs i _ hm
      obtain ⟨i1, i2⟩ := ih (by omega)
      have hone := isRot_mul_transpose (w.rigid ID i)
      constructor
      · rw [s1, e1, ← Matrix.mul_assoc, ← i1, ← Matrix.mul_assoc, hone, Matrix.one_mul]
      · rw [s2, e2, mulVec_add, mulVec_mulVec, ← i1, mulVec_mulVec, hone, one_mulVec, i2]
        abel
  exact ⟨w.rigid ID 0, fun i hi => (key i hi).1, fun i hi => (key i hi).2⟩

/-- Chordal initialisation from exact measurements. -/
theorem chordal_local {ID r : Nat} {w : Truth d} {g : PoseGraph ℝ} (hg : Reachable ID r d g)
    (hx : ∀ m ∈ g.measurements, w.Exact m) (hc : Complete d g) {svd : SvdOracle} {qr : LsqOracle}
    (hsvd : LawfulSvd svd) (hq : LawfulLsq qr)
    (hpos : ∀ m ∈ g.localMeasurements, 0 < m.kappa ∧ 0 < m.tau) {T : PArr ℝ}
    (e : chordalInitialization svd qr g.localMeasurements = ok T) :
    ArrOk d d g.n T ∧ w.Local ID g.n (w.R ID 0) (w.t ID 0) T := by
  have h1 := hc.one hg
  have hwf : ChordalWF d g.localMeasurements :=
    ⟨h1.nonempty, fun m hm => ⟨h1.dims m hm, (hc.precise m hm).2, (hc.precise m hm).1, by
      have := h1.wf m hm
      unfold MeasWF at this
      omega⟩⟩
  have hex : ∀ m ∈ g.localMeasurements, w.R ID m.p2 = w.R ID m.p1 * m.R.toMat d d ∧
      w.t ID m.p2 = w.t ID m.p1 + w.R ID m.p1 *ᵥ colV d m.t := by
    intro m hm
    obtain ⟨e1, e2⟩ := hx m (by
      unfold PoseGraph.measurements PoseGraph.localMeasurements at *
      exact List.mem_append_left _ hm)
    obtain ⟨o1, o2⟩ := h1.ids m hm
    rw [o1, o2] at e1 e2
    have hone := isRot_mul_transpose (w.rigid ID m.p1)
    rw [e1, e2, ← Matrix.mul_assoc, hone, Matrix.one_mul, mulVec_mulVec, hone, one_mulVec]
    exact ⟨rfl, by abel⟩
  have hlink : ∀ i < g.n, Linked g.localMeasurements i := by
    intro i
    induction i with
    | zero => intro _; exact .zero
    | succ i ih =>
      intro hlt
      have hl : i < g.odometry.length := by have := hc.all; omega
      obtain ⟨p1, p2⟩ := hc.con i g.odometry[i] (by simp [hl])
      have := Linked.fwd (ms := g.localMeasurements) (m := g.odometry[i])
        (by unfold PoseGraph.localMeasurements; simp [List.getElem_mem hl])
        (by rw [p1]; exact ih (by omega))
      rwa [p2] at this
  obtain ⟨T', e', hT, hv⟩ := Props.C64_exact hsvd hq hc.dim hwf h1.num hpos hlink (w.R ID) (w.t ID)
    (fun i _ => w.rigid ID i) (fun m hm => (hex m hm).1) (fun m hm => (hex m hm).2)
  rw [e] at e'
  cases e'
  have hone := isRot_mul_transpose (w.rigid ID 0)
  refine ⟨hT, w.rigid ID 0, fun i hi => ?_, fun i hi => ?_⟩
  · rw [(hv i hi).1, ← Matrix.mul_assoc, hone, Matrix.one_mul]
  · rw [(hv i hi).2, mulVec_mulVec, hone, one_mulVec, sub_add_cancel]

end

/-! ### One robot -/

/-- What is known of a robot in the alignment phase. -/
structure InFrame (o : AgentOracles) (p : AgentParams) (w : Truth p.d) (Y : Matrix (Fin p.r) (Fin p.d) ℝ)
    (id : Nat) (a : Agent) : Prop where
  reach : AgReach o id p a
  lift : ∀ Z, a.YLift = some Z → Z.toMat p.r p.d = Y
  meas : ∀ m ∈ a.graph.measurements, w.Exact m
  traj : ∀ T, a.TLocalInit = some T → ∃ S s, w.Local id a.graph.n S s T
  guess : ∀ X, a.XInit = some X → ∀ i < a.graph.n, w.Lifted Y id i X i
  est : a.state = .INITIALIZED → ∀ i < a.graph.n, w.Lifted Y id i a.X i

namespace InFrame

variable {o : AgentOracles} {p : AgentParams} {w : Truth p.d} {Y : Matrix (Fin p.r) (Fin p.d) ℝ}
  {id : Nat} {a a' : Agent}

theorem keep (h : InFrame o p w Y id a) (hr : AgReach o id p a') (hg : SameTopology a.graph a'.graph)
    (h1 : a'.YLift = a.YLift) (h2 : a'.TLocalInit = a.TLocalInit ∨ a'.TLocalInit = none)
    (h3 : a'.XInit = a.XInit ∨ a'.XInit = none)
    (h4 : a'.state = .INITIALIZED → a.state = .INITIALIZED ∧ (a'.X = a.X ∨ a.XInit = some a'.X)) :
    InFrame o p w Y id a' := by
  refine ⟨hr, fun Z hZ => h.lift Z (h1 ▸ hZ), exact_topology hg h.meas, fun T hT => ?_, fun X hX => ?_,
    fun hs => ?_⟩
  · rcases h2 with c | c
    · rw [hg.n]; exact h.traj T (c ▸ hT)
    · rw [c] at hT; cases hT
  · rcases h3 with c | c
    · rw [hg.n]; exact h.guess X (c ▸ hX)
    · rw [c] at hX; cases hX
  · obtain ⟨c, d⟩ := h4 hs
    rw [hg.n]
    rcases d with d | d
    · rw [d]; exact h.est c
    · exact h.guess _ d

/-- Moving to the global frame by the right transform. -/
theorem global {b : Agent} {S : Matrix (Fin p.d) (Fin p.d) ℝ} {s : Fin p.d → ℝ} {T W : PArr ℝ}
    (hc : AgCore id p a) (hst : a.state ≠ .WAIT_FOR_DATA) (hT : a.TLocalInit = some T)
    (hl : w.Local id a.graph.n S s T) (hlift : ∀ Z, a.YLift = some Z → Z.toMat p.r p.d = Y)
    (hmeas : ∀ m ∈ a.graph.measurements, w.Exact m) (hW : ArrOk p.d p.d 1 W)
    (rW : rotM p.d p.d W 0 = S) (tW : traV p.d p.d W 0 = s) (e : a.initializeInGlobalFrame W = ok b)
    (hr : AgReach o id p a') (ha : a' = { b with running := a'.running, neighborPoses := a'.neighborPoses }) :
    InFrame o p w Y id a' := by
  obtain ⟨Z, -, -, -, -, hZ, -⟩ := Agent.initializeInGlobalFrame_form hc.reach e
  obtain ⟨b', X, e', b1, b2, b3, -, b4, b5, b6, b7⟩ := Agent.initGlobal_ok hc hst hZ hT hW
  rw [e] at e'
  cases e'
  have hX : ∀ i < a.graph.n, w.Lifted Y id i X i := by
    intro i hi
    obtain ⟨x1, x2⟩ := b7 i hi
    rw [hlift Z hZ, rW] at x1
    rw [hlift Z hZ, rW, tW] at x2
    exact ⟨by rw [x1, hl.rot i hi], by rw [x2, hl.tra i hi]⟩
  have htop := ((Agent.initGlobal_frame hc.reach e).2.mono Agent.weighting_quiet).topology fun _ h => h
  have k1 : a'.graph = b.graph := by rw [ha]
  have k2 : a'.X = b.X := by rw [ha]
  have k3 : a'.XInit = b.XInit := by rw [ha]
  have k4 : a'.TLocalInit = b.TLocalInit := by rw [ha]
  have k5 : a'.YLift = b.YLift := by rw [ha]
  refine ⟨hr, fun Z hZ => hlift Z (by rw [← b5, ← k5]; exact hZ), ?_, fun U hU => ?_, fun U hU => ?_,
    fun _ => ?_⟩
  · rw [k1]; exact exact_topology htop hmeas
  · rw [k4, b6, hT] at hU; cases hU
    rw [k1, b4]; exact ⟨S, s, hl⟩
  · rw [k3, b3] at hU; cases hU
    rw [k1, b4]; exact hX
  · rw [k2, b2, k1, b4]; exact hX

/-- The trajectory chosen by `initialize`. -/
theorem chosen (h : InFrame o p w Y id a) (hsvd : LawfulSvd o.svd) {TI : Option (PArr ℝ)} {resets : Prop}
    {r : Bool} (hs : SetupCall o p w resets id a (.init TI)) {T : PArr ℝ} {b : Agent}
    (e : Agent.chooseTrajectory o { a with running := r } TI = ok (T, b)) :
    ArrOk p.d p.d a.graph.n T ∧ ∃ S s, w.Local id a.graph.n S s T := by
  have hi := agReach_inv h.reach
  obtain ⟨-, -, hd, -⟩ := hi.dims
  obtain ⟨-, g', k, -, -, ⟨S, rfl, s1, s2, rfl, -⟩ | ⟨hno, hl⟩⟩ := Agent.chooseTrajectory_form e
  · obtain ⟨hwf, ⟨P, hP, p1, p2, S, s, hloc⟩ | ⟨hbad, -⟩⟩ := hs
    · cases hP
      have := hwf T rfl
      rw [p1, p2] at this
      rw [p2] at hloc
      exact ⟨this, S, s, hloc⟩
    · have s1 : T.d = a.graph.d := s1
      have s2 : T.n = a.graph.n := s2
      rcases hbad T rfl with c | c
      · exact absurd (s1.trans hd) c
      · exact absurd s2 c
  · obtain ⟨hwf, ⟨P, hP, p1, p2, -⟩ | ⟨-, hc, hm⟩⟩ := hs
    · exact absurd ⟨p1.trans hd.symm, p2⟩ (hno P hP)
    · unfold Agent.localInitialization at hl
      rw [show ({ a with running := r } : Agent).params = p from hi.params] at hl
      rcases hm with hm | ⟨hm, hq, hpos⟩
      · rw [hm] at hl
        simp only [bind_eq_ok] at hl
        obtain ⟨T', e', hl⟩ := hl
        cases hl
        obtain ⟨T', e'', hT, h0, t0, hsat⟩ := hc.odo hi.reach
        rw [show ({ a with running := r } : Agent).graph = a.graph from rfl, e''] at e'
        cases e'
        exact ⟨hT, _, _, odo_local hi.reach h.meas hc rfl h0 t0 hsat⟩
      · rw [hm] at hl
        simp only [bind_eq_ok] at hl
        obtain ⟨T', e', hl⟩ := hl
        cases hl
        obtain ⟨hT, hloc⟩ := chordal_local hi.reach h.meas hc hsvd hq hpos e'
        exact ⟨hT, _, _, hloc⟩

theorem init (h : InFrame o p w Y id a) (hsvd : LawfulSvd o.svd) (hmulti : p.multirobotInit = true)
    (hw0 : w.R 0 0 = 1 ∧ w.t 0 0 = 0) {TI : Option (PArr ℝ)} {resets : Prop}
    (hs : SetupCall o p w resets id a (.init TI)) (e : a.init o TI = ok a') : InFrame o p w Y id a' := by
  have hi := agReach_inv h.reach
  have hr : AgReach o id p a' := agReach_snoc (op := .init TI) h.reach hs.1 e
  rcases Agent.init_form hi.reach e with ⟨-, rfl⟩ | ⟨-, -, rfl⟩ | ⟨hst, hn, T, S, X, b, c, hT, hS, hX, hc, he⟩
  · exact h
  · exact h.keep hr (.refl _) rfl (Or.inl rfl) (Or.inl rfl) fun c => ⟨c, Or.inl rfl⟩
  obtain ⟨hTok, S0, s0, hloc⟩ := h.chosen hsvd hs hT
  obtain ⟨-, g', k, hg, hb, -⟩ := Agent.chooseTrajectory_form hT
  have htop : SameTopology a.graph g' := (hg.mono Agent.weighting_quiet).topology fun _ h => h
  have hn : 0 < a.graph.n := hn
  have hinv : AgInv id p b := by
    rw [hb]
    exact { hi.endLoop.graph (hg.mono Agent.weighting_quiet) with }
  have hgn : b.graph.n = a.graph.n := by rw [hb]; exact htop.n
  obtain ⟨-, dr, dd, drd⟩ := hinv.dims
  obtain ⟨S', n1, n2, n3⟩ := Agent.normalize_ok hTok hn dd hgn (local_det hn hloc)
  rw [hS] at n1
  cases n1
  have hSl := normal_local hn hloc n3
  have hmeas : ∀ m ∈ b.graph.measurements, w.Exact m := by rw [hb]; exact exact_topology htop h.meas
  have hlift : ∀ Z, b.YLift = some Z → Z.toMat p.r p.d = Y := by rw [hb]; exact h.lift
  obtain ⟨X', x1, x2, -⟩ := make_ok (K := ℝ) (n := a.graph.n) drd
  have hX' : PArr.make b.relaxationRank b.dimension b.numPoses = ok X' := by
    unfold Agent.relaxationRank Agent.dimension Agent.numPoses
    rw [dr, dd, hgn]; exact x1
  rw [hX] at hX'
  cases hX'
  have hfin : a' = { c with running := a'.running } := by
    rcases he with ⟨-, rfl⟩ | ⟨-, he⟩
    · rfl
    · obtain ⟨-, rfl⟩ := Agent.startOptimizationLoop_form he
      rfl
  have hbs : b.state = .WAIT_FOR_DATA := by rw [hb]; exact hst
  have hcc : AgCore id p { b with TLocalInit := some S, X := X, state := .WAIT_FOR_INITIALIZATION } :=
    { hinv.toAgCore with
      noData := fun c => by cases c
      notInit := fun _ => hinv.notInit (by rw [hbs]; simp)
      data := fun _ => ⟨by show 0 < b.graph.n; rw [hgn]; exact hn,
        ⟨S, rfl, by show ArrOk p.d p.d b.graph.n S; rw [hgn]; exact n2⟩,
        by show ArrOk p.r p.d b.graph.n X; rw [hgn]; exact x2⟩ }
  rcases hc with ⟨-, hc⟩ | ⟨h0, I, hI, hc⟩
  · have k : a' = { b with
        TLocalInit := some S, X := X, state := .WAIT_FOR_INITIALIZATION, running := a'.running } := by
      rw [hfin, hc]
    refine ⟨hr, ?_, ?_, ?_, ?_, ?_⟩
    · rw [k]; exact hlift
    · rw [k]; exact hmeas
    · rw [k]
      intro T hT
      cases hT
      exact ⟨_, _, by rw [hgn]; exact hSl⟩
    · rw [k]
      intro Z hZ
      have hZ : b.XInit = some Z := hZ
      rw [(hinv.notInit (by rw [hbs]; simp)).1] at hZ
      cases hZ
    · rw [k]
      intro c
      cases c
  · have hid : id = 0 := by
      rcases h0 with h0 | h0
      · exact hinv.id.symm.trans h0
      · rw [hinv.params, hmulti] at h0; exact absurd rfl h0
    subst hid
    obtain ⟨I', i1, i2, i3, i4⟩ := Props.C17_identity_value (K := ℝ) p.d
    rw [hinv.d, i1] at hI
    cases hI
    refine InFrame.global (b := c) (S := w.R 0 0) (s := w.t 0 0) hcc (by simp) rfl (by
      show w.Local 0 b.graph.n _ _ S
      rw [hgn]; exact hSl) hlift hmeas i2 (i3.trans hw0.1.symm) (i4.trans hw0.2.symm) hc hr ?_
    rw [hfin]

/-- A call of the alignment phase. -/
theorem call (h : InFrame o p w Y id a) (hsvd : LawfulSvd o.svd) (hmulti : p.multirobotInit = true)
    (hw0 : w.R 0 0 = 1 ∧ w.t 0 0 = 0) {resets : Prop} {op : AgOp}
    (hs : SetupCall o p w resets id a op) (e : a.step o op = ok a') : InFrame o p w Y id a' := by
  have hi := agReach_inv h.reach
  have hwf : AgOpWF op := by
    cases op <;> first | exact hs | exact hs.elim | exact hs.1 | trivial | exact fun m hm => (hs m hm).1
  have hr := agReach_snoc h.reach hwf e
  have plain : (∀ m, op ≠ .addMeasurement m) → (∀ x y z, op ≠ .setMeasurements x y z) →
      SameTopology a.graph a'.graph := fun h1 h2 =>
    (Agent.step_quiet_of hi e fun _ => ⟨h1, h2⟩).topology fun _ h => h
  have hf := Agent.step_frame hi e
  have data : a.state = .WAIT_FOR_DATA → a' = { a with graph := a'.graph } →
      (∀ m ∈ a'.graph.measurements, w.Exact m) → InFrame o p w Y id a' := by
    intro hst ha hm
    refine ⟨hr, ?_, hm, ?_, ?_, ?_⟩
    · rw [ha]; exact h.lift
    · rw [ha]; intro T hT; have hT : a.TLocalInit = some T := hT; rw [hi.noData hst] at hT; cases hT
    · rw [ha]; intro T hT; have hT : a.XInit = some T := hT
      rw [(hi.notInit (by rw [hst]; simp)).1] at hT; cases hT
    · rw [ha]; intro c; have c : a.state = .INITIALIZED := c; rw [hst] at c; cases c
  cases op with
  | addMeasurement m =>
    rcases Agent.addMeasurement_form e with ⟨-, rfl⟩ | ⟨hst, g, hg, rfl⟩
    · exact h
    · refine data hst rfl fun x hx => ?_
      rcases holds_add hg x hx with c | c
      · exact h.meas x c
      · rw [c]; exact hs.2
  | setMeasurements x y z =>
    obtain ⟨hst, -, ⟨-, rfl⟩ | ⟨-, g0, g', h0, hg, rfl⟩⟩ := Agent.setMeasurements_form e
    · exact h
    · exact data hst rfl (exact_all (g := g0.empty) (by rw [empty_measurements]; simp)
        (fun m hm => (hs m hm).2) hg)
  | init T => exact h.init hsvd hmulti hw0 hs e
  | initializeInGlobalFrame T => exact hs.elim
  | iterate b => exact hs.elim
  | setX M => exact hs.elim
  | setLiftingMatrix M => exact hs.elim
  | updateNeighborPoses n dict => exact hs.elim
  | reset =>
    have ht := plain (by simp) (by simp)
    refine h.keep hr ht ?_ (Or.inr ?_) (Or.inr ?_) fun c => ?_
    · rw [hf]; rfl
    · rw [hf]; rfl
    · rw [hf]; rfl
    · rw [hf] at c; cases c
  | setXToInitialGuess =>
    obtain ⟨-, X, hX, rfl⟩ := Agent.setXToInitialGuess_form e
    exact h.keep hr (.refl _) rfl (Or.inl rfl) (Or.inl rfl) fun c => ⟨c, Or.inr hX⟩
  | updateMeasurementWeights =>
    have ht := plain (by simp) (by simp)
    rcases Agent.updateMeasurementWeights_form hi.reach e with ⟨-, rfl⟩ | ⟨hst, ps, g, b, -, -, -, -, hb, rfl⟩
    · exact h
    · refine h.keep hr ht ?_ (Or.inl ?_) (Or.inl ?_) fun _ => ⟨hst, ?_⟩
      · rw [hf]; rfl
      · rw [hf]; rfl
      · rw [hf]; rfl
      · rw [Agent.resync_frame]
        rcases Agent.resetTrajectory_form hb with ⟨-, rfl⟩ | ⟨-, -, X, hX, rfl⟩
        · exact Or.inl rfl
        · exact Or.inr hX
  | _ =>
    refine h.keep hr (plain (by simp) (by simp)) ?_ (Or.inl ?_) (Or.inl ?_) fun c => ⟨?_, Or.inl ?_⟩
    · rw [hf]; rfl
    · rw [hf]; rfl
    · rw [hf]; rfl
    · rw [hf] at c; exact c
    · rw [hf]; rfl

/-- A lifting matrix handed on. -/
theorem lifted (h : InFrame o p w Y id a) {Z : DMat ℝ} (hZ : Z.toMat p.r p.d = Y)
    (e : a.setLiftingMatrix Z = ok a') : InFrame o p w Y id a' := by
  have hr : AgReach o id p a' := agReach_snoc (op := .setLiftingMatrix Z) h.reach trivial e
  obtain ⟨-, -, rfl⟩ := Agent.setLiftingMatrix_form e
  exact ⟨hr, fun U hU => by cases hU; exact hZ, h.meas, h.traj, h.guess, h.est⟩

/-- A message received. -/
theorem receive (h : InFrame o p w Y id a) (hsvd : LawfulSvd o.svd) (hY : OrthoCols Y) {nid : Nat}
    {dict : PoseDict ℝ} (hwf : DictWF dict) (hd : w.Dict Y dict)
    (e : a.updateNeighborPoses o nid dict = ok a') :
    InFrame o p w Y id a' ∧ (a'.state = .INITIALIZED → a.state ≠ .INITIALIZED →
      a.state = .WAIT_FOR_INITIALIZATION ∧ 0 < numUsable id nid a.graph dict) := by
  have hi := agReach_inv h.reach
  have hr : AgReach o id p a' := agReach_snoc (op := .updateNeighborPoses nid dict) h.reach hwf e
  obtain ⟨hne, ⟨-, rfl⟩ | ⟨hacc, b, hb, he⟩⟩ := Agent.updateNeighborPoses_form e
  · exact ⟨h, fun c d => absurd c d⟩
  have hf : a' = { b with neighborPoses := a'.neighborPoses } := by
    rcases he with ⟨-, rfl⟩ | ⟨-, -, rfl⟩ <;> rfl
  have same : b = a → InFrame o p w Y id a' ∧ (a'.state = .INITIALIZED → a.state ≠ .INITIALIZED →
      a.state = .WAIT_FOR_INITIALIZATION ∧ 0 < numUsable id nid a.graph dict) := by
    rintro rfl
    refine ⟨?_, fun c d => ?_⟩
    · refine h.keep hr ?_ ?_ (Or.inl ?_) (Or.inl ?_) fun c => ⟨?_, Or.inl ?_⟩
      · rw [hf]; exact .refl _
      · rw [hf]
      · rw [hf]
      · rw [hf]
      · rw [hf] at c; exact c
      · rw [hf]
    · rw [hf] at c; exact absurd c d
  rcases Agent.tryInitialize_form hb with ⟨-, hb⟩ | ⟨-, -, hb⟩ | ⟨hst, W, hW, hb⟩
  · exact same hb
  · exact same hb
  · obtain ⟨⟨Z, hZ⟩, -⟩ := Agent.acceptsFrom_iff.1 hacc
    have hst' : a.state ≠ .WAIT_FOR_DATA := by rw [hst]; simp
    obtain ⟨-, ⟨T, hT, -⟩, -⟩ := hi.data hst'
    obtain ⟨S, s, hl⟩ := h.traj T hT
    have hZY := h.lift Z hZ
    have key := Agent.twoStage_exact (o := o) hi hst' hsvd hZ (by rw [hZY]; exact hY) hT hl
      (fun c => hne (c.trans hi.id.symm)) (dict := dict) (by rw [hZY]; exact hd) (fun m hm => h.meas m (by
        unfold PoseGraph.sharedLoopClosuresWithRobot at hm
        unfold PoseGraph.measurements
        exact List.mem_append_right _ (List.mem_filter.1 hm).1))
    split at key
    · rw [hW] at key; cases key
    · rename_i hcount
      obtain ⟨W', e', hW', rW, tW⟩ := key
      rw [hW] at e'
      cases e'
      refine ⟨InFrame.global hi.toAgCore hst' hT hl h.lift h.meas hW' rW tW hb hr ?_, fun _ _ => ⟨hst, by omega⟩⟩
      rw [hf]

end InFrame

/-! ### The team -/

section
variable {d : Nat}

theorem seen_exact {w : Truth d} {m : Meas ℝ} (h : w.Exact m) : w.seen.Exact m := by
  have hone := isRot_mul_transpose (w.rigid 0 0)
  obtain ⟨h1, h2⟩ := h
  refine ⟨?_, ?_⟩
  · rw [h1]
    simp only [Truth.seen]
    rw [Matrix.transpose_mul, transpose_transpose, Matrix.mul_assoc, ← Matrix.mul_assoc (w.R 0 0), hone,
      Matrix.one_mul]
  · rw [h2]
    simp only [Truth.seen]
    rw [Matrix.transpose_mul, transpose_transpose, ← mulVec_sub, mulVec_mulVec, Matrix.mul_assoc, hone,
      Matrix.mul_one, sub_sub_sub_cancel_right]

theorem seen_local {w : Truth d} {id n : Nat} {S : Matrix (Fin d) (Fin d) ℝ} {s : Fin d → ℝ} {T : PArr ℝ}
    (h : w.Local id n S s T) :
    w.seen.Local id n ((w.R 0 0)ᵀ * S) ((w.R 0 0)ᵀ *ᵥ (s - w.t 0 0)) T := by
  refine ⟨IsRot.transpose_mul (w.rigid 0 0) h.rigid, fun i hi => ?_, fun i hi => ?_⟩
  · simp only [Truth.seen]
    rw [h.rot i hi, Matrix.mul_assoc]
  · simp only [Truth.seen]
    rw [h.tra i hi, ← mulVec_mulVec, ← mulVec_add, add_sub_assoc]

theorem seen_zero (w : Truth d) : w.seen.R 0 0 = 1 ∧ w.seen.t 0 0 = 0 := by
  simp only [Truth.seen]
  exact ⟨(w.rigid 0 0).1, by rw [sub_self, mulVec_zero]⟩

end

section
variable {o : AgentOracles} {p : AgentParams} {w : Truth p.d} {resets : Prop} {A : Nat → Agent}
  {M : List Message}

theorem setupCall_seen {id : Nat} {a : Agent} {op : AgOp} (h : SetupCall o p w resets id a op) :
    SetupCall o p w.seen resets id a op := by
  cases op with
  | addMeasurement m => exact ⟨h.1, seen_exact h.2⟩
  | setMeasurements x y z => exact fun m hm => ⟨(h m hm).1, seen_exact (h m hm).2⟩
  | init T =>
    obtain ⟨h1, ⟨P, hP, p1, p2, S, s, hl⟩ | h2⟩ := h
    · exact ⟨h1, Or.inl ⟨P, hP, p1, p2, _, _, seen_local hl⟩⟩
    · exact ⟨h1, Or.inr h2⟩
  | _ => exact h

theorem setupRun_seen (h : SetupRun o p w resets A M) : SetupRun o p w.seen resets A M := by
  induction h with
  | new h => exact .new h
  | call _ hs e ih => exact .call ih (setupCall_seen hs) e
  | lift _ hj e ih => exact .lift ih hj e
  | send _ hd ih => exact .send ih hd
  | receive _ hm e ih => exact .receive ih hm e

/-- A dictionary made from an exact estimate. -/
theorem dict_exact {Y : Matrix (Fin p.r) (Fin p.d) ℝ} {id : Nat} {a : Agent} {ks : PoseID → Prop}
    {dict : PoseDict ℝ} (h : InFrame o p w Y id a) (hs : a.state = .INITIALIZED)
    (hk : ∀ k, ks k → k.robot = id ∧ k.frame < a.graph.n) (hd : DictOf p.r p.d ks a.X dict) :
    DictWF dict ∧ w.Dict Y dict ∧ ∀ kv ∈ dict, kv.1.robot = id := by
  obtain ⟨h1, h2, h3⟩ := hd
  have key : ∀ kv ∈ dict, ArrOk p.r p.d 1 kv.2 ∧ w.Lifted Y kv.1.robot kv.1.frame kv.2 0 := by
    intro kv hkv
    obtain ⟨c1, c2, c3⟩ := h3 kv.1 kv.2 hkv
    obtain ⟨k1, k2⟩ := hk kv.1 ((h2 kv.1).1 ⟨kv.2, hkv⟩)
    obtain ⟨l1, l2⟩ := h.est hs kv.1.frame k2
    rw [k1]
    exact ⟨c1, c2.trans l1, c3.trans l2⟩
  refine ⟨⟨h1, fun kv hkv => ?_⟩, key, fun kv hkv => (hk kv.1 ((h2 kv.1).1 ⟨kv.2, hkv⟩)).1⟩
  obtain ⟨a1, a2, a3⟩ := (key kv hkv).1
  exact ⟨rfl, rfl, a3.1, by rw [a1]; exact a3.2.1, by rw [a2]; exact a3.2.2⟩

/-- Everything known of a team in the alignment phase. -/
structure SetupInv (o : AgentOracles) (p : AgentParams) (w : Truth p.d)
    (A : Nat → Agent) (M : List Message) : Prop where
  robot : ∀ id, InFrame o p w (o.stiefel p.d p.r) id (A id)
  msg : ∀ m ∈ M, DictWF m.dict ∧ w.Dict (o.stiefel p.d p.r) m.dict ∧ ∀ kv ∈ m.dict, kv.1.robot = m.src
  zero : ∃ Z, (A 0).YLift = some Z

theorem update_all {P : Nat → Agent → Prop} {id : Nat} {a' : Agent} (h : ∀ j, P j (A j)) (h' : P id a') :
    ∀ j, P j (Function.update A id a' j) := by
  intro j
  by_cases c : j = id
  · subst c; rw [Function.update_self]; exact h'
  · rw [Function.update_of_ne c]; exact h j

theorem toMat_ofMat {r d : Nat} (Y : Matrix (Fin r) (Fin d) ℝ) : (DMat.ofMat Y).toMat r d = Y := by
  ext i j; simp [DMat.ofMat, DMat.toMat]

theorem sent_state {a : Agent} {dict : PoseDict ℝ} (h : a.getSharedPoseDict = ok (some dict) ∨
    ∃ j, j ≠ a.id ∧ a.getSharedPoseDictWithNeighbor j = ok (some dict)) : a.state = .INITIALIZED := by
  by_contra c
  rcases h with h | ⟨j, -, h⟩
  · have : a.getSharedPoseDict = ok none := if_pos c
    rw [this] at h; cases h
  · have : a.getSharedPoseDictWithNeighbor j = ok none := if_pos c
    rw [this] at h; cases h

theorem setup_inv (hsvd : LawfulSvd o.svd) (hmulti : p.multirobotInit = true)
    (hY : OrthoCols (o.stiefel p.d p.r)) (hw0 : w.R 0 0 = 1 ∧ w.t 0 0 = 0)
    (h : SetupRun o p w resets A M) : SetupInv o p w A M := by
  have keepLift : ∀ {id : Nat} {a a' : Agent}, a'.YLift = a.YLift → (∃ Z, a.YLift = some Z) →
      ∃ Z, a'.YLift = some Z := by
    intro id a a' e h; rw [e]; exact h
  have zero : ∀ {A : Nat → Agent} {id : Nat} {a' : Agent}, (∃ Z, (A 0).YLift = some Z) →
      ((∃ Z, (A id).YLift = some Z) → ∃ Z, a'.YLift = some Z) →
      ∃ Z, (Function.update A id a' 0).YLift = some Z := by
    intro A id a' h h'
    by_cases c : 0 = id
    · subst c; rw [Function.update_self]; exact h' h
    · rw [Function.update_of_ne c]; exact h
  induction h with
  | @new A h =>
    refine ⟨fun id => ?_, by simp, ?_⟩
    · have hr : AgReach o id p (A id) := ⟨A id, [], h id, by simp, rfl⟩
      obtain ⟨X, g, YL, -, hg, -, h0, h1, ha⟩ := Agent.new_form (h id)
      refine ⟨hr, fun Z hZ => ?_, fun m hm => ?_, fun T hT => ?_, fun T hT => ?_, fun c => ?_⟩
      · rw [ha] at hZ
        by_cases c : id = 0
        · rw [h0 c] at hZ; cases hZ; exact toMat_ofMat _
        · rw [h1 c] at hZ; cases hZ
      · rw [ha] at hm
        unfold PoseGraph.new at hg
        simp only [bind_eq_ok, check_eq_ok, exists_and_left, exists_const] at hg
        obtain ⟨-, hg⟩ := hg
        cases hg
        cases hm
      · rw [ha] at hT; cases hT
      · rw [ha] at hT; cases hT
      · rw [ha] at c; cases c
    · obtain ⟨X, g, YL, -, hg, -, h0, h1, ha⟩ := Agent.new_form (h 0)
      rw [ha]; exact ⟨_, h0 rfl⟩
  | @call A M id op a' _ hs e ih =>
    refine ⟨update_all ih.robot ((ih.robot id).call hsvd hmulti hw0 hs e), ih.msg, zero ih.zero ?_⟩
    intro ⟨Z, hZ⟩
    have hf := Agent.step_frame (agReach_inv (ih.robot id).reach) e
    cases op with
    | setLiftingMatrix M => exact hs.elim
    | _ => rw [hf]; exact ⟨Z, hZ⟩
  | @lift A M id j Z a' _ hj e ih =>
    refine ⟨update_all ih.robot ((ih.robot id).lifted ((ih.robot j).lift Z hj) e), ih.msg, zero ih.zero ?_⟩
    obtain ⟨-, -, rfl⟩ := Agent.setLiftingMatrix_form e
    exact fun _ => ⟨Z, rfl⟩
  | @send A M id dict _ hd ih =>
    refine ⟨ih.robot, fun m hm => ?_, ih.zero⟩
    rcases List.mem_cons.1 hm with rfl | hm
    · have hi := agReach_inv (ih.robot id).reach
      have hst := sent_state (by rw [hi.id]; exact hd)
      have hX := (hi.data (by rw [hst]; decide)).2.2
      rcases hd with hd | ⟨j, hj, hd⟩
      · obtain ⟨m, e, hm⟩ := sharedDict_ok hi hst hX
        have : (A id).getSharedPoseDict = ok (some m) := e
        rw [hd] at this
        cases this
        refine dict_exact (ih.robot id) hst ?_ hm.dictOf
        rintro k ⟨x, hx, rfl⟩
        obtain ⟨o1, o2, -⟩ := own_lt hi.reach hx
        exact ⟨o1, o2⟩
      · obtain ⟨m, e, hm⟩ := neighborDict_ok hi hst hX hj
        have : (A id).getSharedPoseDictWithNeighbor j = ok (some m) := e
        rw [hd] at this
        cases this
        refine dict_exact (ih.robot id) hst ?_ hm.dictOf
        rintro k ⟨x, hx, -, rfl⟩
        obtain ⟨o1, o2, -⟩ := own_lt hi.reach hx
        exact ⟨o1, o2⟩
    · exact ih.msg m hm
  | @receive A M id m a' _ hm e ih =>
    obtain ⟨m1, m2, -⟩ := ih.msg m hm
    refine ⟨update_all ih.robot ((ih.robot id).receive hsvd hY m1 m2 e).1, ih.msg, zero ih.zero ?_⟩
    rintro ⟨Z, hZ⟩
    obtain ⟨hf, -⟩ := Agent.updateNeighborPoses_frame (agReach_inv (ih.robot id).reach).reach e
    rw [hf]; exact ⟨Z, hZ⟩

end

end Dpgo
