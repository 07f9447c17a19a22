import Verif.Lemmas.Optimizer
import Verif.Spec.Topology

/-! # Evolution of an agent's pose graph -/

namespace Dpgo

open Res Spec PoseGraph

variable {K : Type} [Field K]

/-- `g'` is obtained from `g` by calls satisfying `S`. -/
def Steps (S : PGOp K → Prop) (g g' : PoseGraph K) : Prop :=
  ∃ ops : List (PGOp K), (∀ op ∈ ops, S op) ∧ g.run ops = ok g'

/-- Calls that do not change the set of measurements. -/
def quiet : PGOp K → Prop
  | .addMeasurement _ => False
  | .setMeasurements _ => False
  | .empty => False
  | _ => True

namespace Steps
variable {S S' : PGOp K → Prop} {g g' g'' : PoseGraph K}

theorem refl (g : PoseGraph K) : Steps S g g := ⟨[], by simp, rfl⟩

theorem one {op : PGOp K} (h : S op) (e : g.step op = ok g') : Steps S g g' := by
  refine ⟨[op], by simpa using h, ?_⟩
  unfold PoseGraph.run
  rw [foldl_cons, e]; rfl

theorem trans (h : Steps S g g') (h' : Steps S g' g'') : Steps S g g'' := by
  obtain ⟨a, ha, ea⟩ := h
  obtain ⟨b, hb, eb⟩ := h'
  refine ⟨a ++ b, ?_, ?_⟩
  · intro op hop
    rcases List.mem_append.1 hop with h | h
    · exact ha op h
    · exact hb op h
  · unfold PoseGraph.run at *
    rw [foldl_append, ea]; exact eb

theorem mono (hS : ∀ op, S op → S' op) (h : Steps S g g') : Steps S' g g' := by
  obtain ⟨a, ha, ea⟩ := h
  exact ⟨a, fun op hop => hS op (ha op hop), ea⟩

theorem snoc (h : Steps S g g') {op : PGOp K} (ho : S op) (e : g'.step op = ok g'') :
    Steps S g g'' := h.trans (one ho e)

/-- Invariant rule. -/
theorem induct {P : PoseGraph K → Prop} (hP : ∀ g op g', P g → S op → g.step op = ok g' → P g')
    (h : Steps S g g') (h0 : P g) : P g' := by
  obtain ⟨ops, ho, e⟩ := h
  induction ops generalizing g with
  | nil => cases e; exact h0
  | cons op t ih =>
    unfold PoseGraph.run at e
    rw [foldl_cons, bind_eq_ok'] at e
    obtain ⟨g1, e1, e⟩ := e
    exact ih (hP _ op _ h0 (ho op (by simp)) e1) (fun x hx => ho x (by simp [hx])) e

theorem reach {id r d : Nat} (hS : ∀ op, S op → OpWF op) (h : Steps S g g')
    (hg : Reachable id r d g) : Reachable id r d g' :=
  h.induct (P := Reachable id r d) (fun _ _ _ hr hs e => Reachable.snoc hr (hS _ hs) e) hg

end Steps

omit [Field K] in
theorem quiet_wf (op : PGOp K) (h : quiet op) : OpWF op := by
  cases op <;> simp [quiet, OpWF] at h ⊢

namespace Spec.SameTopology

theorem refl (g : PoseGraph K) : SameTopology g g := by constructor <;> rfl

theorem trans {a b c : PoseGraph K} (h : SameTopology a b) (h' : SameTopology b c) :
    SameTopology a c :=
  ⟨h'.id.trans h.id, h'.r.trans h.r, h'.d.trans h.d, h'.n.trans h.n, h'.odometry.trans h.odometry,
    h'.privateLcs.trans h.privateLcs, h'.sharedLcs.trans h.sharedLcs,
    h'.localShared.trans h.localShared, h'.nbrShared.trans h.nbrShared,
    h'.nbrRobots.trans h.nbrRobots⟩

end Spec.SameTopology

theorem sameTopology_book {g g' : PoseGraph K} (h : SameBook g g') : SameTopology g g' :=
  ⟨h.id, h.r, h.d, h.n, by rw [h.odometry], by rw [h.privateLcs], by rw [h.sharedLcs],
    h.localShared, h.nbrShared, h.nbrRobots⟩

theorem map_strip_modify (l : List (Meas K)) (i : Nat) (w : K) (f : Bool) :
    (l.modify i fun m => { m with weight := w, fixedWeight := f }).map strip = l.map strip := by
  apply List.ext_getElem?
  intro j
  rw [List.getElem?_map, List.getElem?_map, List.getElem?_modify]
  by_cases h : i = j
  · subst h
    cases l[i]? <;> simp [strip]
  · simp [h]

theorem writeWeight_topology (g : PoseGraph K) (p : MPtr) (w : K) (f : Bool) :
    SameTopology g (g.writeWeight p w f) := by
  cases p <;> constructor <;> first | rfl | exact map_strip_modify _ _ _ _

theorem setNeighborActive_topology {g g' : PoseGraph K} {nid : Nat} {b : Bool}
    (e : g.setNeighborActive nid b = ok g') : SameTopology g g' := by
  unfold setNeighborActive at e
  split at e
  · cases e; exact .refl g
  · split at e
    · cases e
    · simp only at e
      split at e <;> cases e <;> constructor <;> rfl

theorem quiet_topology {g g' : PoseGraph K} {op : PGOp K} (hq : quiet op) (e : g.step op = ok g') :
    SameTopology g g' := by
  cases op with
  | addMeasurement m => exact hq.elim
  | setMeasurements ms => exact hq.elim
  | empty => exact hq.elim
  | reset => cases e; constructor <;> simp only [PoseGraph.reset, PoseGraph.clearNeighborPoses,
      clearDataMatrices, clearPriors, clearQuadraticMatrix, clearLinearMatrix]
  | clearNeighborPoses => cases e; constructor <;> rfl
  | clearPriors => cases e; constructor <;> rfl
  | setPrior i X =>
    simp only [PoseGraph.step, setPrior, bind_eq_ok, check_eq_ok, exists_and_left, exists_const] at e
    obtain ⟨-, -, -, e⟩ := e
    cases e; constructor <;> rfl
  | setNeighborPoses dict => cases e; constructor <;> rfl
  | setNeighborActive nid b => exact setNeighborActive_topology e
  | useInactiveNeighbors u => cases e; constructor <;> rfl
  | writeWeight src dst w f =>
    simp only [PoseGraph.step, bind_eq_ok] at e
    obtain ⟨q, e1, e⟩ := e
    cases q with
    | none => cases e; exact .refl g
    | some p => cases e; exact writeWeight_topology g p w f
  | quadraticMatrix =>
    simp only [PoseGraph.step, bind_eq_ok] at e
    obtain ⟨⟨Q, g1⟩, e1, e⟩ := e
    cases e; exact sameTopology_book (quadraticMatrix_book e1)
  | linearMatrix =>
    simp only [PoseGraph.step, bind_eq_ok] at e
    obtain ⟨⟨Q, g1⟩, e1, e⟩ := e
    cases e; exact sameTopology_book (linearMatrix_book e1)
  | constructDataMatrices =>
    simp only [PoseGraph.step, bind_eq_ok] at e
    obtain ⟨⟨Q, g1⟩, e1, e⟩ := e
    cases e; exact sameTopology_book (constructDataMatrices_book e1)
  | hasPreconditioner chol =>
    simp only [PoseGraph.step, bind_eq_ok] at e
    obtain ⟨⟨Q, g1⟩, e1, e⟩ := e
    cases e; exact sameTopology_book (hasPreconditioner_book e1)
  | clearQuadraticMatrix => cases e; constructor <;> rfl
  | clearLinearMatrix => cases e; constructor <;> rfl
  | clearDataMatrices => cases e; constructor <;> rfl

theorem Steps.topology {S : PGOp K → Prop} (hS : ∀ op, S op → quiet op) {g g' : PoseGraph K}
    (h : Steps S g g') : SameTopology g g' :=
  h.induct (P := SameTopology g) (fun _ _ _ hr hs e => hr.trans (quiet_topology (hS _ hs) e))
    (.refl g)

/-! ### Pointers -/

omit [Field K] in
/-- The endpoints of a stored measurement find the pointer it is stored at. -/
theorem PoseGraph.Inv.find_deref {g : PoseGraph K} {log : List (Meas K)} (h : Inv g log) {p : MPtr}
    {m : Meas K} (hp : g.deref p = some m) : g.findMeasurement m.src m.dst = ok (some p) := by
  have hmem : m ∈ log := by
    cases p with
    | odo i =>
      have := List.mem_of_getElem? (show g.odometry[i]? = some m from hp)
      rw [h.odo] at this; exact (List.mem_filter.1 this).1
    | priv i =>
      have := List.mem_of_getElem? (show g.privateLcs[i]? = some m from hp)
      rw [h.priv] at this; exact (List.mem_filter.1 this).1
    | shared i =>
      have := List.mem_of_getElem? (show g.sharedLcs[i]? = some m from hp)
      rw [h.shared] at this; exact (List.mem_filter.1 this).1
  have hwf := h.wf m hmem
  have hends : hasEnds m.src m.dst m = true := by
    rw [hasEnds_iff, hwf.src_eq, hwf.dst_eq]; exact ⟨rfl, rfl, rfl, rfl⟩
  -- two equal endpoint pairs at different positions are impossible
  have uniq : ∀ (l : List (Meas K)), l.Pairwise (fun a b => sameEnds a b = false) → ∀ i j : Nat,
      ∀ a b, l[i]? = some a → l[j]? = some b → sameEnds a b = true → i = j := by
    intro l hl i j a b hi hj hs
    obtain ⟨hi', rfl⟩ := List.getElem?_eq_some_iff.1 hi
    obtain ⟨hj', rfl⟩ := List.getElem?_eq_some_iff.1 hj
    rcases lt_trichotomy i j with hlt | he | hlt
    · have := List.pairwise_iff_getElem.1 hl i j hi' hj' hlt
      rw [this] at hs; cases hs
    · exact he
    · have := List.pairwise_iff_getElem.1 hl j i hj' hi' hlt
      rw [sameEnds_symm] at hs
      rw [this] at hs; cases hs
  rcases h.find_spec m.src m.dst with ⟨-, hno⟩ | ⟨q, m', hf, hq, hm', he', hk⟩
  · rw [hno m hmem] at hends; cases hends
  · rw [hf]
    have hsame : sameEnds m m' = true := by
      rw [hasEnds_iff] at hends he'
      rw [sameEnds_iff]
      omega
    have hkind : ∀ (q : Meas K → Bool), q m = q m' → ∀ l, l = log.filter q → m' ∈ l → q m = true := by
      intro q hq l hl hm
      rw [hl] at hm
      rw [hq]; exact (List.mem_filter.1 hm).2
    rw [sameEnds_iff] at hsame
    have eo : isOdo g.id m = isOdo g.id m' := by simp [isOdo, hsame.1, hsame.2.1, hsame.2.2]
    have ep : isPriv g.id m = isPriv g.id m' := by simp [isPriv, hsame.1, hsame.2.1, hsame.2.2]
    have es : isShared g.id m = isShared g.id m' := by simp [isShared, hsame.1, hsame.2.2]
    have hmo : ∀ i, g.odometry[i]? = some m → isOdo g.id m = true := fun i hi => by
      have := List.mem_of_getElem? hi
      rw [h.odo] at this; exact (List.mem_filter.1 this).2
    have hmp : ∀ i, g.privateLcs[i]? = some m → isPriv g.id m = true := fun i hi => by
      have := List.mem_of_getElem? hi
      rw [h.priv] at this; exact (List.mem_filter.1 this).2
    have hms : ∀ i, g.sharedLcs[i]? = some m → isShared g.id m = true := fun i hi => by
      have := List.mem_of_getElem? hi
      rw [h.shared] at this; exact (List.mem_filter.1 this).2
    have hsm : sameEnds m m' = true := (sameEnds_iff m m').2 hsame
    have exo : isOdo g.id m = true → isPriv g.id m = true → False := by
      rw [isOdo_iff, isPriv_iff]; omega
    have exs : isOdo g.id m = true → isShared g.id m = true → False := by
      rw [isOdo_iff, isShared_iff]; omega
    have exp : isPriv g.id m = true → isShared g.id m = true → False := by
      rw [isPriv_iff, isShared_iff]; omega
    rw [eo] at exo exs
    rw [ep] at exo exp
    rw [es] at exs exp
    rw [eo] at hmo
    rw [ep] at hmp
    rw [es] at hms
    rcases hk with ⟨hk, j, rfl⟩ | ⟨hk, j, rfl⟩ | ⟨hk, j, rfl⟩ <;> cases p with
    | odo i =>
      first
      | (have := uniq g.odometry (by rw [h.odo]; exact h.distinct_filter _) i j m m' hp hq hsm
         rw [this])
      | exact (exo (hmo i hp) hk).elim
      | exact (exs (hmo i hp) hk).elim
    | priv i =>
      first
      | (have := uniq g.privateLcs (by rw [h.priv]; exact h.distinct_filter _) i j m m' hp hq hsm
         rw [this])
      | exact (exo hk (hmp i hp)).elim
      | exact (exp (hmp i hp) hk).elim
    | shared i =>
      first
      | (have := uniq g.sharedLcs (by rw [h.shared]; exact h.distinct_filter _) i j m m' hp hq hsm
         rw [this])
      | exact (exs hk (hms i hp)).elim
      | exact (exp hk (hms i hp)).elim

/-- A write through a pointer is a write through the endpoints. -/
theorem step_writeWeight {id r d : Nat} {g : PoseGraph K} (hg : Reachable id r d g) {p : MPtr}
    {m : Meas K} (hp : g.deref p = some m) (w : K) (f : Bool) :
    g.step (.writeWeight m.src m.dst w f) = ok (g.writeWeight p w f) := by
  obtain ⟨⟨log, h⟩, -⟩ := Reachable.inv hg
  simp only [PoseGraph.step, h.find_deref hp, ok_bind]

/-! ### The optimiser -/

/-- Calls made while optimising. -/
def solving : PGOp K → Prop
  | .quadraticMatrix => True
  | .linearMatrix => True
  | .hasPreconditioner _ => True
  | _ => False

theorem problemF_steps {g g' : PoseGraph K} {X : DMat K} {v : K} (e : problemF g X = ok (v, g')) :
    Steps solving g g' := by
  unfold problemF at e
  simp only [bind_eq_ok] at e
  obtain ⟨_, _, _, _, ⟨Q, g1⟩, h1, ⟨G, g2⟩, h2, _, _, e⟩ := e
  cases e
  refine (Steps.one (g' := g1) (op := .quadraticMatrix) trivial ?_).trans
    (Steps.one (op := .linearMatrix) trivial ?_)
  · simp only [PoseGraph.step, h1, ok_bind]
  · simp only [PoseGraph.step, h2, ok_bind]

theorem optimize_steps {o : OptOracles} {p : OptParams} {g g' : PoseGraph ℝ} {Y Z : DMat ℝ}
    {res : OptResult} (e : optimize o p g Y = ok (Z, res, g')) : Steps solving g g' := by
  unfold optimize at e
  simp only [bind_eq_ok] at e
  obtain ⟨⟨f, g1⟩, h1, ⟨Q, g2⟩, h2, ⟨G, g3⟩, h3, ⟨Z', g4⟩, h4, ⟨f', g5⟩, h5, e⟩ := e
  cases e
  have s4 : Steps solving g3 g4 := by
    simp only at h4
    unfold optimizeWith at h4
    split at h4
    · cases h4; exact .refl _
    · unfold gradientDescent at h4
      simp only at h4
      split at h4
      · rw [bind_eq_ok] at h4
        obtain ⟨⟨V, g6⟩, h, e⟩ := h4
        cases e
        unfold preConditioner at h
        rw [bind_eq_ok] at h
        obtain ⟨⟨b, g7⟩, h', h⟩ := h
        simp only [Res.ok.injEq, Prod.mk.injEq] at h
        obtain ⟨-, rfl⟩ := h
        exact Steps.one (op := .hasPreconditioner o.chol) trivial
          (by simp only [PoseGraph.step, h', ok_bind])
      · cases h4; exact .refl _
  refine (problemF_steps h1).trans (Steps.trans (g' := g2) ?_
    (Steps.trans ?_ (s4.trans (problemF_steps h5))))
  · exact Steps.one (op := .quadraticMatrix) trivial (by simp only [PoseGraph.step, h2, ok_bind])
  · exact Steps.one (op := .linearMatrix) trivial (by simp only [PoseGraph.step, h3, ok_bind])

omit [Field K] in
theorem solving_quiet (op : PGOp K) (h : solving op) : quiet op := by
  cases op <;> simp [quiet, solving] at h ⊢

end Dpgo
