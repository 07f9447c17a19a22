import Verif.Lemmas.Feasible
import Verif.Lemmas.AgentSequences
import Verif.Lemmas.AgentTeam

/-! # The estimates of an agent stay feasible -/

namespace Dpgo

open Res Spec Matrix

variable {o : AgentOracles} {p : AgentParams} {id : Nat} {a a' : Agent}

/-! ### Measurements -/

theorem ortho_topology {d : Nat} {g g' : PoseGraph ℝ} (h : SameTopology g g')
    (hx : ∀ m ∈ g.measurements, OrthoCols (m.R.toMat d d)) :
    ∀ m ∈ g'.measurements, OrthoCols (m.R.toMat d d) := by
  have key : ∀ {l l' : List (Meas ℝ)}, l'.map strip = l.map strip →
      (∀ m ∈ l, OrthoCols (m.R.toMat d d)) → ∀ m ∈ l', OrthoCols (m.R.toMat d d) := by
    intro l l' e hl m hm
    have : strip m ∈ l'.map strip := List.mem_map_of_mem hm
    rw [e] at this
    obtain ⟨x, hx, ex⟩ := List.mem_map.1 this
    have : x.R = m.R := (congrArg (fun z : Meas ℝ => z.R) ex :)
    rw [← this]
    exact hl x hx
  intro m hm
  unfold PoseGraph.measurements at hm hx
  simp only [List.mem_append] at hm hx
  rcases hm with (hm | hm) | hm
  · exact key h.odometry (fun m h => hx m (Or.inl (Or.inl h))) m hm
  · exact key h.privateLcs (fun m h => hx m (Or.inl (Or.inr h))) m hm
  · exact key h.sharedLcs (fun m h => hx m (Or.inr h)) m hm

theorem ortho_all {d : Nat} : ∀ {ms : List (Meas ℝ)} {g g' : PoseGraph ℝ},
    (∀ m ∈ g.measurements, OrthoCols (m.R.toMat d d)) → (∀ m ∈ ms, OrthoCols (m.R.toMat d d)) →
    Res.foldl PoseGraph.addMeasurement g ms = ok g' → ∀ m ∈ g'.measurements, OrthoCols (m.R.toMat d d)
  | [], g, g', h, _, e => by cases e; exact h
  | m :: ms, g, g', h, hm, e => by
    rw [foldl_cons, bind_eq_ok'] at e
    obtain ⟨g1, e1, e⟩ := e
    refine ortho_all (fun x hx => ?_) (fun x hx => hm x (by simp [hx])) e
    rcases holds_add e1 x hx with c | c
    · exact h x c
    · rw [c]; exact hm m (by simp)

theorem ortho_mul {r d e : Nat} {A : Matrix (Fin r) (Fin d) ℝ} {B : Matrix (Fin d) (Fin e) ℝ}
    (hA : OrthoCols A) (hB : OrthoCols B) : OrthoCols (A * B) := by
  unfold OrthoCols at *
  rw [transpose_mul, Matrix.mul_assoc, ← Matrix.mul_assoc Aᵀ, hA, Matrix.one_mul, hB]

/-! ### Iterations -/

theorem updateX_feasible {doOpt accel s : Bool} (ho : FeasibleSolver o a.params)
    (hX : Orthonormal a.graph.r a.graph.d a.graph.n a.X)
    (hY : accel = true → Orthonormal a.graph.r a.graph.d a.graph.n a.Y)
    (e : a.updateX o doOpt accel = ok (s, a')) : Orthonormal a.graph.r a.graph.d a.graph.n a'.X := by
  rcases Agent.updateX_form e with ⟨-, -, rfl⟩ | ⟨-, -, -, g1, -, hs, ⟨-, rfl⟩ | ⟨-, Z, res, g2, hZ, -, -, -, rfl⟩⟩
  · cases accel
    · exact hX
    · exact hY rfl
  · exact hX
  · have b := updating_book hs
    have b1 : g1.r = a.graph.r := b.r
    have b2 : g1.d = a.graph.d := b.d
    have b3 : g1.n = a.graph.n := b.n
    have h0 : Orthonormal g1.r g1.d g1.n
        (PArr.mk g1.r g1.d g1.n (if accel then a.Y.X else a.X.X)) := by
      rw [b1, b2, b3]
      cases accel
      · exact hX
      · exact hY rfl
    have := optimize_feasible (fun c => ho.rtr (Or.inl c) _) (fun c => ho.rgd c _) h0 hZ
    rw [b1, b2, b3] at this
    exact this

/-- The previous estimate after an iteration. -/
theorem iterate_prev {doOpt s : Bool} (hs : a.state = .INITIALIZED) (e : a.iterate o doOpt = ok (s, a')) :
    a'.XPrev = a.X := by
  obtain ⟨b, hb, hc⟩ := Agent.iterate_form e
  obtain ⟨k, -, -, rfl⟩ := Agent.tick_form hb
  rcases hc with ⟨-, hc⟩ | ⟨c, -⟩
  swap
  · exact absurd hs c
  obtain ⟨c, c', hc1, hc2, rfl⟩ := Agent.iterateBody_form hc
  have f : c.XPrev = a.X := by
    rcases hc1 with ⟨-, hc1⟩ | ⟨-, hc1⟩
    · exact congrArg Agent.XPrev (Agent.accelStep_frame hc1).1
    · exact congrArg Agent.XPrev (Agent.updateX_frame hc1).1
  rcases hc2 with ⟨-, hc2⟩ | ⟨-, rfl⟩
  · obtain ⟨_, _, -, -, _, -, rfl⟩ := Agent.iterateStatus_form hc2
    exact f
  · exact f

theorem iterate_feasible_plain (ho : FeasibleSolver o p) (hi : AgInv id p a)
    (hs : a.state = .INITIALIZED) (hp : ¬ p.acceleration = true) (hX : Orthonormal p.r p.d a.graph.n a.X)
    {doOpt s : Bool} (e : a.iterate o doOpt = ok (s, a')) : Orthonormal p.r p.d a.graph.n a'.X := by
  obtain ⟨-, dr, dd, -⟩ := hi.dims
  obtain ⟨b, hb, hc⟩ := Agent.iterate_form e
  obtain ⟨k, -, -, rfl⟩ := Agent.tick_form hb
  rcases hc with ⟨-, hc⟩ | ⟨c, -⟩
  swap
  · exact absurd hs c
  obtain ⟨c, c', hc1, hc2, rfl⟩ := Agent.iterateBody_form hc
  have key : Orthonormal p.r p.d a.graph.n c.X := by
    rcases hc1 with ⟨x, -⟩ | ⟨-, hc1⟩
    · have x : a.params.acceleration = true := x
      rw [hi.params] at x; exact absurd x hp
    · have := updateX_feasible (o := o) (a := { a with
          iterationNumber := u32 (a.iterationNumber + 1), innerIter := k, XPrev := a.X })
        (by rw [show ({ a with iterationNumber := u32 (a.iterationNumber + 1), innerIter := k,
                               XPrev := a.X } : Agent).params = a.params from rfl, hi.params]; exact ho)
        (by
          show Orthonormal a.graph.r a.graph.d a.graph.n a.X
          rw [dr, dd]; exact hX) (fun h => by cases h) hc1
      have this : Orthonormal a.graph.r a.graph.d a.graph.n c.X := this
      rw [dr, dd] at this
      exact this
  rcases hc2 with ⟨-, hc2⟩ | ⟨-, rfl⟩
  · obtain ⟨_, _, -, -, _, -, rfl⟩ := Agent.iterateStatus_form hc2
    exact key
  · exact key

theorem iterate_feasible (hsvd : LawfulSvd o.svd) (ho : FeasibleSolver o p) (hi : AgInv id p a)
    (hs : a.state = .INITIALIZED) (hX : Orthonormal p.r p.d a.graph.n a.X) {doOpt s : Bool}
    (e : a.iterate o doOpt = ok (s, a')) :
    Orthonormal p.r p.d a.graph.n a'.X ∧ (p.acceleration = true →
      Orthonormal p.r p.d a.graph.n a'.Y ∧ Orthonormal p.r p.d a.graph.n a'.V) := by
  obtain ⟨-, dr, dd, -⟩ := hi.dims
  by_cases hp : p.acceleration = true
  · have hpa : a.params.acceleration = true := by rw [hi.params]; exact hp
    by_cases hr : RestartsNext p a
    · obtain ⟨-, -, ⟨-, -, -, k3, k4, c, b, c', e1, x1, -, x3, -, -, x6, x7⟩ | ⟨k, -⟩⟩ :=
        iterate_accel hs hpa e
      swap
      · rw [hi.params] at k; exact absurd hr k
      have bk := updating_book x7
      have b1 : c.graph.r = p.r := by have : c.graph.r = a.graph.r := bk.r; rw [this, dr]
      have b2 : c.graph.d = p.d := by have : c.graph.d = a.graph.d := bk.d; rw [this, dd]
      have b3 : c.graph.n = a.graph.n := bk.n
      have key := updateX_feasible (by rw [x6, hi.params]; exact ho) (by rw [b1, b2, b3, x3]; exact hX)
        (fun h => by cases h) e1
      rw [b1, b2, b3, ← x1] at key
      exact ⟨key, fun _ => ⟨by rw [k4]; exact key, by rw [k3]; exact key⟩⟩
    · obtain ⟨⟨h1, h2⟩, k1, k2, k3⟩ := iterate_sequences hsvd hi hs hp hr e
      refine ⟨?_, fun _ => ⟨h1.ortho, h2.ortho⟩⟩
      cases doOpt with
      | false => rw [(k1 rfl).2]; exact h1.ortho
      | true =>
        cases s with
        | false => rw [k2 rfl rfl]; exact hX
        | true =>
          obtain ⟨k, g, res, g', hg, -, hZ⟩ := k3 rfl rfl
          have b := updating_book hg
          have b1 : g.r = p.r := by have : g.r = a.graph.r := b.r; rw [this, dr]
          have b2 : g.d = p.d := by have : g.d = a.graph.d := b.d; rw [this, dd]
          have b3 : g.n = a.graph.n := b.n
          have h0 : Orthonormal g.r g.d g.n (PArr.mk g.r g.d g.n a'.Y.X) := by
            rw [b1, b2, b3]; exact h1.ortho
          have := optimize_feasible (fun c => ho.rtr (Or.inl c) _) (fun c => ho.rgd c _) h0 hZ
          rw [b1, b2, b3] at this
          exact this
  · exact ⟨iterate_feasible_plain ho hi hs hp hX e, fun c => absurd c hp⟩

/-! ### The invariant -/

/-- What is known of the matrices of an agent. -/
structure FeasInv (o : AgentOracles) (p : AgentParams) (id : Nat) (a : Agent) : Prop where
  reach : AgReach o id p a
  lift : ∀ Z, a.YLift = some Z → OrthoCols (Z.toMat p.r p.d)
  meas : ∀ m ∈ a.graph.measurements, OrthoCols (m.R.toMat p.d p.d)
  traj : ∀ T, a.TLocalInit = some T → Orthonormal p.d p.d a.graph.n T
  guess : ∀ X, a.XInit = some X → Orthonormal p.r p.d a.graph.n X
  est : a.state = .INITIALIZED → Orthonormal p.r p.d a.graph.n a.X
  seq : a.state = .INITIALIZED → p.acceleration = true → Orthonormal p.r p.d a.graph.n a.Y ∧
    Orthonormal p.r p.d a.graph.n a.V ∧ Orthonormal p.r p.d a.graph.n a.XPrev

namespace FeasInv

theorem keep (h : FeasInv o p id a) (hr : AgReach o id p a') (hg : SameTopology a.graph a'.graph)
    (h1 : a'.YLift = a.YLift) (h2 : a'.TLocalInit = a.TLocalInit ∨ a'.TLocalInit = none)
    (h3 : a'.XInit = a.XInit ∨ a'.XInit = none)
    (h4 : a'.state = .INITIALIZED → Orthonormal p.r p.d a.graph.n a'.X ∧ (p.acceleration = true →
      Orthonormal p.r p.d a.graph.n a'.Y ∧ Orthonormal p.r p.d a.graph.n a'.V ∧
        Orthonormal p.r p.d a.graph.n a'.XPrev)) :
    FeasInv o p id a' := by
  refine ⟨hr, fun Z hZ => h.lift Z (h1 ▸ hZ), ortho_topology hg h.meas, fun T hT => ?_, fun X hX => ?_,
    fun hs => ?_, fun hs => ?_⟩
  · rcases h2 with c | c
    · rw [hg.n]; exact h.traj T (c ▸ hT)
    · rw [c] at hT; cases hT
  · rcases h3 with c | c
    · rw [hg.n]; exact h.guess X (c ▸ hX)
    · rw [c] at hX; cases hX
  · rw [hg.n]; exact (h4 hs).1
  · rw [hg.n]; exact (h4 hs).2

/-- The sequences of the acceleration after `initializeAcceleration`. -/
theorem resync_seq {b : Agent} {n : Nat} (hp : b.params = p) (hs : b.resync.state = .INITIALIZED)
    (hX : Orthonormal p.r p.d n b.X) :
    Orthonormal p.r p.d n b.resync.X ∧ (p.acceleration = true →
      Orthonormal p.r p.d n b.resync.Y ∧ Orthonormal p.r p.d n b.resync.V ∧
        Orthonormal p.r p.d n b.resync.XPrev) := by
  refine ⟨by rw [Agent.resync_frame]; exact hX, fun hacc => ?_⟩
  have hs : b.state = .INITIALIZED := by rw [Agent.resync_frame] at hs; exact hs
  unfold Agent.resync
  rw [if_pos ⟨by rw [hp]; exact hacc, hs⟩]
  exact ⟨hX, hX, hX⟩

/-- Moving to the global frame. -/
theorem global {b : Agent} {T W : PArr ℝ}
    (hc : AgCore id p a) (hst : a.state ≠ .WAIT_FOR_DATA) (hT : a.TLocalInit = some T)
    (hl : Orthonormal p.d p.d a.graph.n T) (hlift : ∀ Z, a.YLift = some Z → OrthoCols (Z.toMat p.r p.d))
    (hmeas : ∀ m ∈ a.graph.measurements, OrthoCols (m.R.toMat p.d p.d)) (hW : ArrOk p.d p.d 1 W)
    (rW : OrthoCols (rotM p.d p.d W 0)) (e : a.initializeInGlobalFrame W = ok b)
    (hr : AgReach o id p a') (ha : a' = { b with running := a'.running, neighborPoses := a'.neighborPoses }) :
    FeasInv o p id a' := by
  obtain ⟨Z, R, X1, g', c, hZ, -, -, -, -, -, -, -, hb⟩ := Agent.initializeInGlobalFrame_form hc.reach e
  obtain ⟨b', X, e', b1, b2, b3, -, b4, b5, b6, b7⟩ := Agent.initGlobal_ok hc hst hZ hT hW
  rw [e] at e'
  cases e'
  have hX : Orthonormal p.r p.d a.graph.n X := by
    intro i hi
    rw [(b7 i hi).1]
    exact ortho_mul (hlift Z hZ) (ortho_mul rW (hl i hi))
  have htop := ((Agent.initGlobal_frame hc.reach e).2.mono Agent.weighting_quiet).topology fun _ h => h
  have hseq := resync_seq (p := p) (n := a.graph.n) (b := { a with
    neighborPoses := [], neighborAuxPoses := [], X := X1, XInit := some X1
    state := .INITIALIZED, graph := g', cost := c }) hc.params (by rw [← hb]; exact b1) (by
      have : b.X = X1 := by rw [hb, Agent.resync_frame]
      rw [← b2, this] at hX
      exact hX)
  rw [← hb] at hseq
  have k1 : a'.graph = b.graph := by rw [ha]
  have k2 : a'.X = b.X := by rw [ha]
  have k3 : a'.XInit = b.XInit := by rw [ha]
  have k4 : a'.TLocalInit = b.TLocalInit := by rw [ha]
  have k5 : a'.YLift = b.YLift := by rw [ha]
  have k6 : a'.Y = b.Y := by rw [ha]
  have k7 : a'.V = b.V := by rw [ha]
  have k8 : a'.XPrev = b.XPrev := by rw [ha]
  refine ⟨hr, fun Z hZ => hlift Z (by rw [← b5, ← k5]; exact hZ), ?_, fun U hU => ?_, fun U hU => ?_,
    fun _ => ?_, fun _ => ?_⟩
  · rw [k1]; exact ortho_topology htop hmeas
  · rw [k4, b6, hT] at hU; cases hU
    rw [k1, b4]; exact hl
  · rw [k3, b3] at hU; cases hU
    rw [k1, b4]; exact hX
  · rw [k2, b2, k1, b4]; exact hX
  · rw [k6, k7, k8, k1, b4]; exact hseq.2

/-- The trajectory chosen by `initialize`. -/
theorem chosen (h : FeasInv o p id a) (hsvd : LawfulSvd o.svd) (ho : FeasibleSolver o p)
    {TI : Option (PArr ℝ)} {r : Bool} (hwf : AgOpWF (.init TI)) (hs : FeasibleCall p (.init TI)) {T : PArr ℝ}
    {b : Agent} (e : Agent.chooseTrajectory o { a with running := r } TI = ok (T, b)) :
    ArrOk p.d p.d T.n T ∧ Orthonormal p.d p.d T.n T := by
  have hi := agReach_inv h.reach
  obtain ⟨-, -, hd, -⟩ := hi.dims
  obtain ⟨hTd, g', k, -, -, ⟨S, rfl, s1, s2, rfl, -⟩ | ⟨hno, hl⟩⟩ := Agent.chooseTrajectory_form e
  · have hTd : T.d = p.d := hTd.trans hd
    have := hwf T rfl
    rw [hTd] at this
    exact ⟨this, hs T rfl⟩
  · have hTd : T.d = p.d := hTd.trans hd
    have := Agent.localInitialization_feasible hsvd (fun c => ho.rtr (Or.inr (by rw [← hi.params]; exact c)))
      (by
        intro m hm
        show MeasDim a.graph.d m
        have hm : m ∈ a.graph.odometry := hm
        obtain ⟨log, inv⟩ := (PoseGraph.Reachable.inv hi.reach).1
        rw [inv.odo] at hm
        exact inv.dims m (List.mem_filter.1 hm).1)
      (by
        intro m hm
        show OrthoCols (m.R.toMat a.graph.d a.graph.d)
        rw [hd]
        exact h.meas m (by unfold PoseGraph.measurements; simp [show m ∈ a.graph.odometry from hm])) hl
    rw [hTd] at this
    exact this

theorem init (h : FeasInv o p id a) (hsvd : LawfulSvd o.svd) (ho : FeasibleSolver o p)
    {TI : Option (PArr ℝ)} (hwf : AgOpWF (.init TI)) (hs : FeasibleCall p (.init TI))
    (e : a.init o TI = ok a') : FeasInv o p id a' := by
  have hi := agReach_inv h.reach
  have hr : AgReach o id p a' := agReach_snoc (op := .init TI) h.reach hwf e
  rcases Agent.init_form hi.reach e with ⟨-, rfl⟩ | ⟨-, -, rfl⟩ | ⟨hst, hn, T, S, X, b, c, hT, hS, hX, hc, he⟩
  · exact h
  · exact h.keep hr (.refl _) rfl (Or.inl rfl) (Or.inl rfl) fun c => ⟨h.est c, h.seq c⟩
  obtain ⟨hTok, hloc⟩ := h.chosen hsvd ho hwf hs hT
  obtain ⟨-, g', k, hg, hb, -⟩ := Agent.chooseTrajectory_form hT
  have htop : SameTopology a.graph g' := (hg.mono Agent.weighting_quiet).topology fun _ h => h
  have hn : 0 < a.graph.n := hn
  have hinv : AgInv id p b := by
    rw [hb]
    exact { hi.endLoop.graph (hg.mono Agent.weighting_quiet) with }
  have hgn : b.graph.n = a.graph.n := by rw [hb]; exact htop.n
  obtain ⟨-, dr, dd, drd⟩ := hinv.dims
  have hSok := AgInv.normalize_arr hS
  have hSl := Agent.normalize_value (by rw [dd]; exact hTok) (by rw [dd]; exact hloc) hS
  rw [dd] at hSok hSl
  have hmeas : ∀ m ∈ b.graph.measurements, OrthoCols (m.R.toMat p.d p.d) := by
    rw [hb]; exact ortho_topology htop h.meas
  have hlift : ∀ Z, b.YLift = some Z → OrthoCols (Z.toMat p.r p.d) := by rw [hb]; exact h.lift
  obtain ⟨X', x1, x2, -⟩ := PArr.make_ok (K := ℝ) (n := b.graph.n) drd
  have hX' : PArr.make b.relaxationRank b.dimension b.numPoses = ok X' := by
    unfold Agent.relaxationRank Agent.dimension Agent.numPoses
    rw [dr, dd]; exact x1
  rw [hX] at hX'
  cases hX'
  have hfin : a' = { c with running := a'.running } := by
    rcases he with ⟨-, rfl⟩ | ⟨-, he⟩
    · rfl
    · obtain ⟨-, rfl⟩ := Agent.startOptimizationLoop_form he
      rfl
  have hbs : b.state = .WAIT_FOR_DATA := by rw [hb]; exact hst
  have hcc : AgCore id p { b with TLocalInit := some S, X := X, state := .WAIT_FOR_INITIALIZATION } :=
    { hinv.toAgCore with
      noData := fun c => by cases c
      notInit := fun _ => hinv.notInit (by rw [hbs]; simp)
      data := fun _ => ⟨by show 0 < b.graph.n; rw [hgn]; exact hn, ⟨S, rfl, hSok⟩, x2⟩ }
  rcases hc with ⟨-, hc⟩ | ⟨h0, I, hI, hc⟩
  · have k : a' = { b with
        TLocalInit := some S, X := X, state := .WAIT_FOR_INITIALIZATION, running := a'.running } := by
      rw [hfin, hc]
    refine ⟨hr, ?_, ?_, ?_, ?_, ?_, ?_⟩
    · rw [k]; exact hlift
    · rw [k]; exact hmeas
    · rw [k]
      intro T hT
      cases hT
      exact hSl
    · rw [k]
      intro Z hZ
      have hZ : b.XInit = some Z := hZ
      rw [(hinv.notInit (by rw [hbs]; simp)).1] at hZ
      cases hZ
    · rw [k]
      intro c
      cases c
    · rw [k]
      intro c
      cases c
  · obtain ⟨I', i1, i2, i3, i4⟩ := Props.C17_identity_value (K := ℝ) p.d
    rw [hinv.d, i1] at hI
    cases hI
    refine FeasInv.global (b := c) hcc (by simp) rfl hSl hlift hmeas i2 (by
      rw [i3]; unfold OrthoCols; simp) hc hr ?_
    rw [hfin]

/-- A message received. -/
theorem receive (h : FeasInv o p id a) (hsvd : LawfulSvd o.svd) {nid : Nat} {dict : PoseDict ℝ}
    (hwf : DictWF dict) (e : a.updateNeighborPoses o nid dict = ok a') : FeasInv o p id a' := by
  have hi := agReach_inv h.reach
  have hr : AgReach o id p a' := agReach_snoc (op := .updateNeighborPoses nid dict) h.reach hwf e
  obtain ⟨hne, ⟨-, rfl⟩ | ⟨hacc, b, hb, he⟩⟩ := Agent.updateNeighborPoses_form e
  · exact h
  have hf : a' = { b with neighborPoses := a'.neighborPoses } := by
    rcases he with ⟨-, rfl⟩ | ⟨-, -, rfl⟩ <;> rfl
  have same : b = a → FeasInv o p id a' := by
    rintro rfl
    refine h.keep hr ?_ ?_ (Or.inl ?_) (Or.inl ?_) fun c => ?_
    · rw [hf]; exact .refl _
    · rw [hf]
    · rw [hf]
    · rw [hf]
    · rw [hf] at c ⊢; exact ⟨h.est c, h.seq c⟩
  rcases Agent.tryInitialize_form hb with ⟨-, hb⟩ | ⟨-, -, hb⟩ | ⟨hst, W, hW, hb⟩
  · exact same hb
  · exact same hb
  · have hst' : a.state ≠ .WAIT_FOR_DATA := by rw [hst]; simp
    obtain ⟨-, ⟨T, hT, -⟩, -⟩ := hi.data hst'
    obtain ⟨-, -, hd, -⟩ := hi.dims
    have key := Agent.twoStage_feasible hsvd hW
    rw [hd] at key
    refine FeasInv.global hi.toAgCore hst' hT (h.traj T hT) h.lift h.meas key.1 key.2 hb hr ?_
    rw [hf]

/-- Any call. -/
theorem call (h : FeasInv o p id a) (hsvd : LawfulSvd o.svd) (ho : FeasibleSolver o p) {op : AgOp}
    (hwf : AgOpWF op) (hs : FeasibleCall p op) (e : a.step o op = ok a') : FeasInv o p id a' := by
  have hi := agReach_inv h.reach
  have hr := agReach_snoc h.reach hwf e
  have plain : (∀ m, op ≠ .addMeasurement m) → (∀ x y z, op ≠ .setMeasurements x y z) →
      SameTopology a.graph a'.graph := fun h1 h2 =>
    (Agent.step_quiet_of hi e fun _ => ⟨h1, h2⟩).topology fun _ h => h
  have hf := Agent.step_frame hi e
  have data : a.state = .WAIT_FOR_DATA → a' = { a with graph := a'.graph } →
      (∀ m ∈ a'.graph.measurements, OrthoCols (m.R.toMat p.d p.d)) → FeasInv o p id a' := by
    intro hst ha hm
    have k1 : a'.state = a.state := by rw [ha]
    refine ⟨hr, ?_, hm, ?_, ?_, ?_, ?_⟩
    · rw [ha]; exact h.lift
    · rw [ha]; intro T hT; have hT : a.TLocalInit = some T := hT; rw [hi.noData hst] at hT; cases hT
    · rw [ha]; intro T hT; have hT : a.XInit = some T := hT
      rw [(hi.notInit (by rw [hst]; simp)).1] at hT; cases hT
    · intro c; rw [k1, hst] at c; cases c
    · intro c; rw [k1, hst] at c; cases c
  cases op with
  | addMeasurement m =>
    rcases Agent.addMeasurement_form e with ⟨-, rfl⟩ | ⟨hst, g, hg, rfl⟩
    · exact h
    · refine data hst rfl fun x hx => ?_
      rcases holds_add hg x hx with c | c
      · exact h.meas x c
      · rw [c]; exact hs
  | setMeasurements x y z =>
    obtain ⟨hst, -, ⟨-, rfl⟩ | ⟨-, g0, g', h0, hg, rfl⟩⟩ := Agent.setMeasurements_form e
    · exact h
    · exact data hst rfl (ortho_all (g := g0.empty) (by rw [empty_measurements]; simp) hs hg)
  | init T => exact h.init hsvd ho hwf hs e
  | initializeInGlobalFrame W =>
    obtain ⟨Y, R, X, g', c, hY, hd, hR, -, hX, -⟩ := Agent.initializeInGlobalFrame_form hi.reach e
    have hst : a.state ≠ .WAIT_FOR_DATA := by
      intro c
      unfold Agent.liftTrajectory at hX
      rw [hi.noData c] at hX
      cases hX
    obtain ⟨-, ⟨T, hT, -⟩, -⟩ := hi.data hst
    obtain ⟨-, -, hd', -⟩ := hi.dims
    have hwf : ArrOk W.d W.d 1 W := hwf
    rw [hd, hd'] at hwf
    exact FeasInv.global hi.toAgCore hst hT (h.traj T hT) h.lift h.meas hwf hs e hr rfl
  | iterate b =>
    have ht := plain (by simp) (by simp)
    simp only [Agent.step, bind_eq_ok] at e
    obtain ⟨⟨s, c⟩, hc, e⟩ := e
    cases e
    refine h.keep hr ht ?_ (Or.inl ?_) (Or.inl ?_) fun c => ?_
    · rw [hf]; rfl
    · rw [hf]; rfl
    · rw [hf]; rfl
    · have hst : a.state = .INITIALIZED := by rw [hf] at c; exact c
      have k := iterate_feasible hsvd ho hi hst (h.est hst) hc
      exact ⟨k.1, fun q => ⟨(k.2 q).1, (k.2 q).2, by rw [iterate_prev hst hc]; exact h.est hst⟩⟩
  | setX M =>
    obtain ⟨hst, -, s2, ha⟩ := Agent.setX_form e
    have hX := (hi.data hst).2.2
    have hM := hs a.graph.n (by rw [s2, hX.2.1, hX.2.2.1])
    refine h.keep hr (plain (by simp) (by simp)) ?_ (Or.inl ?_) (Or.inl ?_) fun c => ?_
    · rw [hf]; rfl
    · rw [hf]; rfl
    · rw [hf]; rfl
    · rw [ha]
      exact resync_seq hi.params (by rw [← ha]; exact c) hM
  | setLiftingMatrix M =>
    obtain ⟨-, -, rfl⟩ := Agent.setLiftingMatrix_form e
    exact ⟨hr, fun U hU => by cases hU; exact hs, h.meas, h.traj, h.guess, h.est, h.seq⟩
  | updateNeighborPoses n dict => exact h.receive hsvd hwf e
  | reset =>
    have ht := plain (by simp) (by simp)
    refine h.keep hr ht ?_ (Or.inr ?_) (Or.inr ?_) fun c => ?_
    · rw [hf]; rfl
    · rw [hf]; rfl
    · rw [hf]; rfl
    · rw [hf] at c; cases c
  | setXToInitialGuess =>
    obtain ⟨-, X, hX, rfl⟩ := Agent.setXToInitialGuess_form e
    exact h.keep hr (.refl _) rfl (Or.inl rfl) (Or.inl rfl) fun c => ⟨h.guess X hX, h.seq c⟩
  | initializeAcceleration =>
    obtain ⟨-, ha⟩ := Agent.initializeAcceleration_form e
    refine h.keep hr (plain (by simp) (by simp)) ?_ (Or.inl ?_) (Or.inl ?_) fun c => ?_
    · rw [hf]; rfl
    · rw [hf]; rfl
    · rw [hf]; rfl
    · have hst : a.state = .INITIALIZED := by rw [hf] at c; exact c
      rw [ha]
      exact resync_seq hi.params (by rw [← ha]; exact c) (h.est hst)
  | updateMeasurementWeights =>
    have ht := plain (by simp) (by simp)
    rcases Agent.updateMeasurementWeights_form hi.reach e with ⟨-, rfl⟩ | ⟨hst, ps, g, b, -, -, -, -, hb, ha⟩
    · exact h
    · refine h.keep hr ht ?_ (Or.inl ?_) (Or.inl ?_) fun c => ?_
      · rw [hf]; rfl
      · rw [hf]; rfl
      · rw [hf]; rfl
      · rw [ha] at c ⊢
        rcases Agent.resetTrajectory_form hb with ⟨-, hb⟩ | ⟨-, -, X, hX, hb⟩
        · exact resync_seq (by rw [hb]; exact hi.params) c (by rw [hb]; exact h.est hst)
        · exact resync_seq (by rw [hb]; exact hi.params) c (by rw [hb]; exact h.guess X hX)
  | _ =>
    refine h.keep hr (plain (by simp) (by simp)) ?_ (Or.inl ?_) (Or.inl ?_) fun c => ?_
    · rw [hf]; rfl
    · rw [hf]; rfl
    · rw [hf]; rfl
    · rw [hf] at c ⊢; exact ⟨h.est c, h.seq c⟩

/-- A new agent. -/
theorem new (hY : id = 0 → OrthoCols (o.stiefel p.d p.r)) (e : Agent.new o id p = ok a) :
    FeasInv o p id a := by
  have hr : AgReach o id p a := ⟨a, [], e, by simp, rfl⟩
  obtain ⟨X, g, YL, -, hg, -, y0, y1, rfl⟩ := Agent.new_form e
  refine ⟨hr, fun Z hZ => ?_, ?_, fun T hT => (by cases hT), fun T hT => (by cases hT),
    fun c => (by cases c), fun c => (by cases c)⟩
  · have hZ : YL = some Z := hZ
    by_cases c : id = 0
    · rw [y0 c] at hZ
      cases hZ
      have := hY c
      have q : (DMat.ofMat (o.stiefel p.d p.r)).toMat p.r p.d = o.stiefel p.d p.r := by
        ext i j; simp [DMat.toMat, DMat.ofMat]
      rw [q]; exact this
    · rw [y1 c] at hZ; cases hZ
  · intro m hm
    have hm : m ∈ g.measurements := hm
    have : g.measurements = [] := by
      simp only [PoseGraph.new, bind_eq_ok, check_eq_ok, exists_and_left, exists_const] at hg
      obtain ⟨-, hg⟩ := hg
      cases hg
      rfl
    rw [this] at hm; cases hm

theorem hist (hsvd : LawfulSvd o.svd) (ho : FeasibleSolver o p)
    (hY : id = 0 → OrthoCols (o.stiefel p.d p.r)) {t : List Ev} (h : Hist o id p t a)
    (hc : ∀ e ∈ t, FeasibleCall p e.op) : FeasInv o p id a := by
  induction h with
  | new e => exact FeasInv.new hY e
  | call h hw e ih => exact (ih fun x hx => hc x (by simp [hx])).call hsvd ho hw (hc _ (List.mem_append_right _ (List.mem_singleton.2 rfl))) e

end FeasInv

end Dpgo
