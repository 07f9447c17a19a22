import Verif.Lemmas.RestDemo
import Verif.Lemmas.ConvergenceDemo
import Verif.Props.AgentSequences

/-! # The first round of an accelerated team -/

namespace Dpgo

open Res Spec PoseGraph

/-- The first `n` poses are equal. -/
def Agree (r d n : Nat) (A B : DMat ℝ) : Prop :=
  ∀ i < n, ∀ ρ c, ρ < r → c < d + 1 → A.v ρ (i * (d + 1) + c) = B.v ρ (i * (d + 1) + c)

theorem Agree.rfl {r d n : Nat} {A : DMat ℝ} : Agree r d n A A := fun _ _ _ _ _ _ => Eq.refl _

theorem samePoses_agree {r d n : Nat} {P Q : PArr ℝ} (h : SamePoses r d n P Q) : Agree r d n P.X Q.X := by
  intro i hi ρ c hρ hc
  obtain ⟨h1, h2⟩ := h i hi
  by_cases hcd : c < d
  · have := congrFun (congrFun h1 ⟨ρ, hρ⟩) ⟨c, hcd⟩
    simpa [rotM] using this
  · have hc' : c = d := by omega
    subst hc'
    have := congrFun h2 ⟨ρ, hρ⟩
    simpa [traV] using this

theorem teamCost_agree {r d N : Nat} {E : List (Meas ℝ)} {sh : Nat → Nat} {A B : Joint ℝ}
    (hE : ∀ m ∈ E, (m.r1 < N ∧ m.p1 < sh m.r1) ∧ (m.r2 < N ∧ m.p2 < sh m.r2))
    (h : ∀ j < N, Agree r d (sh j) (A j) (B j)) : teamCost r d E A = teamCost r d E B := by
  unfold teamCost
  congr 2
  refine List.map_congr_left fun m hm => ?_
  obtain ⟨⟨a1, a2⟩, b1, b2⟩ := hE m (Example.mem_firstWins hm)
  exact edgeCost_congr _ _ _ (h _ a1 _ a2) (h _ b1 _ b2)

section
variable {o : AgentOracles} {p : AgentParams} {E : List (Meas ℝ)} {sh : Nat → Nat} {i j k l : Nat}
  {a a' b : Agent}

/-- Receiving poses leaves the sequences of the accelerated method alone. -/
theorem Member.receive_keeps (h : Member o p E sh i k a) {dict : PoseDict ℝ} {nid : Nat} {st : Status}
    (e : (a.setNeighborStatus st).updateNeighborPoses o nid dict = ok a') : a'.V = a.V := by
  have hst : (a.setNeighborStatus st).state = .INITIALIZED := h.state
  obtain ⟨-, ⟨-, rfl⟩ | ⟨-, b, hb, hc⟩⟩ := Agent.updateNeighborPoses_form e
  · rfl
  have : b = a.setNeighborStatus st := by
    unfold Agent.tryInitialize at hb
    rw [if_neg (by rw [hst]; decide)] at hb
    cases hb; rfl
  subst this
  rcases hc with ⟨-, rfl⟩ | ⟨-, -, rfl⟩ <;> rfl

/-- Receiving auxiliary poses stores them. -/
theorem Member.receiveAux_stores (hp : p.acceleration = true) (h : Member o p E sh i k a)
    (hb : Member o p E sh j l b) (hij : j ≠ i) {dict : PoseDict ℝ} (e : b.getAuxSharedPoseDict = ok (some dict))
    (e' : (a.setNeighborStatus b.getStatus.1).updateAuxNeighborPoses b.id dict = ok a') :
    a'.V = a.V ∧ a'.X = a.X ∧ a'.graph = a.graph ∧
      (∀ q ∈ a.graph.nbrShared, q.robot = j → q.frame < sh j ∧
        ∃ P, OMap.find? ltPoseID q a'.neighborAuxPoses = some P ∧ Copies p.r p.d b.Y q.frame P) ∧
      (∀ q, q.robot ≠ j →
        OMap.find? ltPoseID q a'.neighborAuxPoses = OMap.find? ltPoseID q a.neighborAuxPoses) := by
  obtain ⟨dict', e1, hm⟩ := (Props.C37_dict hb.reach hb.state).2 hp
  rw [e] at e1
  cases e1
  obtain ⟨hacc, hkv⟩ := h.message hb hm
  have e1 : (a.setNeighborStatus b.getStatus.1).updateAuxNeighborPoses b.id dict =
      ok { a.setNeighborStatus b.getStatus.1 with
        neighborAuxPoses := Agent.stored a.graph a.neighborAuxPoses dict } := by
    unfold Agent.updateAuxNeighborPoses
    have hne : (b.id != (a.setNeighborStatus b.getStatus.1).id) = true := by
      rw [bne_iff_ne, hb.id]
      exact fun c => hij (c.trans h.id)
    have hst : (a.setNeighborStatus b.getStatus.1).state = .INITIALIZED := h.state
    have hpa : (a.setNeighborStatus b.getStatus.1).params.acceleration = true := by
      show a.params.acceleration = true
      rw [h.params]; exact hp
    rw [hpa, check_true, ok_bind, hne, check_true, ok_bind, hacc]
    simp only [Bool.not_true, Bool.false_eq_true, if_false]
    rw [if_neg (by rw [hst]; decide)]
    have hs := storePoses_ok (a := a.setNeighborStatus b.getStatus.1) (nid := b.id)
      (store := (a.setNeighborStatus b.getStatus.1).neighborAuxPoses) hkv
    rw [hs, ok_bind]
    rfl
  rw [e'] at e1
  cases e1
  refine ⟨rfl, rfl, rfl, ?_, ?_⟩
  · intro q hq hj
    have hpub := h.team.public hb.team hq hj hij
    have hlt : q.frame < sh j := by
      obtain ⟨m, hm1, hm2⟩ := hpub
      have := (own_lt hb.team.reach hm1).2.1
      rw [hm2, hb.size] at this
      exact this
    obtain ⟨P, hP⟩ := (hm.2.1 q).2 hpub
    refine ⟨hlt, P, ?_, hm.2.2 q P hP⟩
    rw [show OMap.find? ltPoseID q (Agent.stored a.graph a.neighborAuxPoses dict) = some P from
      (stored_find q P hm.1).2 (Or.inl ⟨?_, hP⟩)]
    exact (OSet.contains_iff strictTotal_ltPoseID _ _).2 hq
  · intro q hq
    have no : ¬ ∃ P', a.graph.requireNeighborPose q = true ∧ (q, P') ∈ dict := by
      rintro ⟨P', -, hP⟩
      have := (hkv _ hP).1
      exact hq (this.trans hb.id)
    show OMap.find? ltPoseID q (Agent.stored a.graph a.neighborAuxPoses dict) = _
    refine Option.ext fun P => ?_
    rw [stored_find q P hm.1]
    constructor
    · rintro (⟨h1, h2⟩ | ⟨-, h2⟩)
      · exact absurd ⟨P, h1, h2⟩ no
      · exact h2
    · exact fun h2 => Or.inr ⟨no, h2⟩

end

end Dpgo

namespace Dpgo.Example

open Res Spec PoseGraph

/-- The estimates and auxiliary poses of all robots but the selected one show the joint estimate `X`; the selected
robot still has the estimate and the momentum sequence `x`. -/
def Echo (p : AgentParams) (sh : Nat → Nat) (X : Joint ℝ) (sel : Nat) (x : PArr ℝ) (c : List Agent) : Prop :=
  ∀ i a, c[i]? = some a →
    (i ≠ sel → Agree p.r p.d (sh i) a.X.X (X i) ∧ Agree p.r p.d (sh i) a.Y.X (X i)) ∧
    (i = sel → a.X = x ∧ a.V = x)

theorem Echo.set {p : AgentParams} {sh : Nat → Nat} {X : Joint ℝ} {sel : Nat} {x : PArr ℝ} {c : List Agent}
    (h : Echo p sh X sel x c) {i : Nat} {a : Agent}
    (h1 : i ≠ sel → Agree p.r p.d (sh i) a.X.X (X i) ∧ Agree p.r p.d (sh i) a.Y.X (X i))
    (h2 : i = sel → a.X = x ∧ a.V = x) : Echo p sh X sel x (c.set i a) := by
  intro j b hj
  rw [List.getElem?_set] at hj
  split at hj
  · rename_i hij
    subst hij
    split at hj
    · cases hj
      exact ⟨h1, h2⟩
    · cases hj
  · exact h j b hj

section
variable {o : AgentOracles} {p : AgentParams} {E : List (Meas ℝ)} {sh : Nat → Nat} {N : Nat} {K : Nat → Nat}
  {agents : List Agent} {sel k : Nat}

theorem idle_echo (hd : 0 < p.d) (hl : p.robust.costType = .L2) (hp : p.acceleration = true) (ho : AccelOk p)
    (hsvd : LawfulSvd o.svd) (hk : u32 (k + 2) % p.restartInterval ≠ 0)
    (h : Crew o p E sh N (fun _ => k) agents)
    (hs : ∀ i a, agents[i]? = some a → a.V = a.X ∧ ∀ l < sh i, OrthoCols (rotM p.r p.d a.X l))
    {x : PArr ℝ} (hx : ∀ a, agents[sel]? = some a → a.X = x) :
    ∃ agents', Res.foldl (onAgent (idleStep o sel k)) agents (List.range N) = ok agents' ∧
      Crew o p E sh N (fun i => if i = sel then k else u32 (k + 1)) agents' ∧
      Echo p sh (estimates agents) sel x agents' := by
  obtain ⟨c, e, hc, hX⟩ := foldl_range_total (f := onAgent (idleStep o sel k)) (n := N) (b := agents)
    (P := fun j c => Crew o p E sh N (fun i => if i = sel ∨ j ≤ i then k else u32 (k + 1)) c ∧
      ∀ i a, c[i]? = some a → ((i = sel ∨ j ≤ i) → agents[i]? = some a) ∧
        (i ≠ sel → i < j → Agree p.r p.d (sh i) a.X.X (estimates agents i) ∧
          Agree p.r p.d (sh i) a.Y.X (estimates agents i)))
    ⟨by simpa using h, fun i a ha => ⟨fun _ => ha, fun _ c => absurd c (by omega)⟩⟩ (by
      rintro j hj c ⟨hc, hX⟩
      obtain ⟨a, ha, hm⟩ := hc.get hj
      simp only [le_refl, or_true, if_true] at hm
      have hlen : j < c.length := (List.getElem?_eq_some_iff.1 ha).1
      by_cases hjs : j = sel
      · refine ⟨c.set j a, onAgent_ok ha ?_, hc.set hm (fun _ => by simp [hjs]) ?_, fun i b hb => ?_⟩
        · unfold idleStep
          rw [hm.inst, hm.iter, hm.id, if_neg (by simp [hjs])]
          simp
        · intro i hi hij
          have : (j ≤ i) ↔ (j + 1 ≤ i) := by omega
          simp only [this]
        · have hb' : c[i]? = some b := by
            rw [List.getElem?_set] at hb
            split at hb
            · rename_i hij
              subst hij
              cases hb
              exact ha
            · exact hb
          obtain ⟨q1, q2⟩ := hX i b hb'
          exact ⟨fun c => q1 (by omega), fun c1 c2 => q2 c1 (by omega)⟩
      · obtain ⟨s, a', e, hm', -, -⟩ := hm.iterate hd hl (fun _ => ho) false
        refine ⟨c.set j a', onAgent_ok ha ?_, hc.set hm' (fun _ => by simp [hjs]) ?_, fun i b hb => ?_⟩
        · unfold idleStep
          rw [hm.inst, hm.iter, hm.id, if_pos hjs, e]
          simp
        · intro i hi hij
          have : (j ≤ i) ↔ (j + 1 ≤ i) := by omega
          simp only [this]
        · rw [List.getElem?_set] at hb
          split at hb
          · rename_i hij
            subst hij
            cases hb
            have ha0 := (hX j a ha).1 (Or.inr le_rfl)
            obtain ⟨hV, hO⟩ := hs j a ha0
            obtain ⟨s1, s2⟩ := Props.C72_first hsvd hp hm.reach hm.state
              (by unfold RestartsNext; rw [hm.iter]; exact hk) hV (by rw [hm.size]; exact hO) e
            rw [hm.size] at s1 s2
            rw [estimates_at ha0]
            exact ⟨fun c => by omega, fun _ _ => ⟨samePoses_agree (s2 rfl).1, samePoses_agree s1⟩⟩
          · obtain ⟨q1, q2⟩ := hX i b hb
            exact ⟨fun c => q1 (by omega), fun c1 c2 => q2 c1 (by omega)⟩)
  refine ⟨c, e, ⟨hc.len, fun i a ha => ?_⟩, fun i a ha => ?_⟩
  · have hi : i < N := by
      have := (List.getElem?_eq_some_iff.1 ha).1
      rwa [hc.len] at this
    have := hc.mem i a ha
    simpa [show ¬ N ≤ i by omega] using this
  · have hi : i < N := by
      have := (List.getElem?_eq_some_iff.1 ha).1
      rwa [hc.len] at this
    refine ⟨fun c => (hX i a ha).2 c hi, ?_⟩
    rintro rfl
    have ha0 := (hX i a ha).1 (Or.inl rfl)
    exact ⟨hx a ha0, (hs i a ha0).1.trans (hx a ha0)⟩

theorem send_echo (hsel : sel < N) {X : Joint ℝ} {x : PArr ℝ} (h : Crew o p E sh N K agents)
    (hX : Echo p sh X sel x agents) :
    ∃ agents', Res.foldl (sendPoses o sel) agents (List.range N) = ok agents' ∧
      Crew o p E sh N K agents' ∧ Echo p sh X sel x agents' := by
  refine foldl_range_total (f := sendPoses o sel) (n := N) (b := agents)
    (P := fun j c => Crew o p E sh N K c ∧ Echo p sh X sel x c) ⟨h, hX⟩ ?_
  rintro j hj c ⟨hc, hX⟩
  obtain ⟨b, hb, hbm⟩ := hc.get hj
  obtain ⟨a, ha, ham⟩ := hc.get hsel
  unfold sendPoses at!
  rw [hb]
  simp only [ok_bind, hbm.id]
  by_cases hs : j = sel
  · rw [if_pos hs]
    exact ⟨c, rfl, hc, hX⟩
  · rw [if_neg hs]
    obtain ⟨dict, a', e1, e2, hm', hX', -, -, -⟩ := ham.receive hbm hs
    rw [e1]
    simp only [ok_bind]
    have ha' : (c.set j b.getStatus.2)[sel]? = some a := by
      rw [List.getElem?_set, if_neg hs]; exact ha
    refine ⟨(c.set j b.getStatus.2).set sel a', ?_, ?_, ?_⟩
    · have : (fun x : Agent => (x.setNeighborStatus b.getStatus.1).updateNeighborPoses o b.getStatus.2.id
          dict) a = ok a' := e2
      exact onAgent_ok ha' this
    · exact (hc.set hbm.status (K' := K) (fun _ => rfl) fun _ _ _ => rfl).set hm' (fun _ => rfl)
        fun _ _ _ => rfl
    · refine (hX.set (a := b.getStatus.2) (fun c => (hX j b hb).1 c) fun c => (hX j b hb).2 c).set
        (fun c => absurd rfl c) fun _ => ?_
      rw [hX', ham.receive_keeps e2]
      exact (hX sel a ha).2 rfl

theorem aux_echo (hsel : sel < N) (hp : p.acceleration = true) (hE : ∀ m ∈ E, m.r1 < N ∧ m.r2 < N) {X : Joint ℝ}
    {x : PArr ℝ} (h : Crew o p E sh N K agents) (hX : Echo p sh X sel x agents) :
    ∃ agents', Res.foldl (sendAuxPoses sel) agents (List.range N) = ok agents' ∧
      Crew o p E sh N K agents' ∧ Echo p sh X sel x agents' ∧
      ∀ a, agents'[sel]? = some a → upToDate p.r p.d X a.graph a.neighborAuxPoses := by
  obtain ⟨c, e, hc, hX, hu⟩ := foldl_range_total (f := sendAuxPoses sel) (n := N) (b := agents)
    (P := fun j c => Crew o p E sh N K c ∧ Echo p sh X sel x c ∧
      ∀ a, c[sel]? = some a → ∀ q ∈ a.graph.nbrShared, q.robot < j →
        ∃ P, OMap.find? ltPoseID q a.neighborAuxPoses = some P ∧ carries p.r p.d X q P)
    ⟨h, hX, fun a _ q _ c => absurd c (by omega)⟩ (by
      rintro j hj c ⟨hc, hX, hu⟩
      obtain ⟨b, hb, hbm⟩ := hc.get hj
      obtain ⟨a, ha, ham⟩ := hc.get hsel
      unfold sendAuxPoses at!
      rw [hb]
      simp only [ok_bind, hbm.id]
      by_cases hs : j = sel
      · rw [if_pos hs]
        refine ⟨c, rfl, hc, hX, fun a' ha' q hq hqj => hu a' ha' q hq ?_⟩
        rw [ha] at ha'
        cases ha'
        have := (ham.team.robots hE hq).2
        omega
      · rw [if_neg hs]
        obtain ⟨dict, a', e1, e2, hm', -⟩ := ham.receiveAux hp hbm hs
        obtain ⟨hV', hX', hg', hfind, hkeep⟩ := ham.receiveAux_stores hp hbm hs e1 e2
        rw [e1]
        simp only [ok_bind]
        have ha' : (c.set j b.getStatus.2)[sel]? = some a := by
          rw [List.getElem?_set, if_neg hs]; exact ha
        refine ⟨(c.set j b.getStatus.2).set sel a', ?_, ?_, ?_, ?_⟩
        · have : (fun x : Agent => (x.setNeighborStatus b.getStatus.1).updateAuxNeighborPoses b.getStatus.2.id
              dict) a = ok a' := e2
          exact onAgent_ok ha' this
        · exact (hc.set hbm.status (K' := K) (fun _ => rfl) fun _ _ _ => rfl).set hm' (fun _ => rfl)
            fun _ _ _ => rfl
        · refine (hX.set (a := b.getStatus.2) (fun c => (hX j b hb).1 c) fun c => (hX j b hb).2 c).set
            (fun c => absurd rfl c) fun _ => ?_
          rw [hX', hV']
          exact (hX sel a ha).2 rfl
        · intro y hy q hq hqj
          have hlen : sel < (c.set j b.getStatus.2).length := (List.getElem?_eq_some_iff.1 ha').1
          rw [List.getElem?_set, if_pos rfl, if_pos hlen] at hy
          cases hy
          rw [hg'] at hq
          by_cases hqj' : q.robot = j
          · obtain ⟨hlt, P, hP, hcp⟩ := hfind q hq hqj'
            refine ⟨P, hP, fun ρ cc hρ hcc => ?_⟩
            rw [copies_value hcp hρ hcc, hqj']
            exact ((hX j b hb).1 hs).2 _ hlt ρ cc hρ hcc
          · rw [hkeep q hqj']
            exact hu a ha q hq (by omega))
  exact ⟨c, e, hc, hX, fun a ha q hq => hu a ha q hq ((hc.mem sel a ha).team.robots hE hq).1⟩

/-- The first round of an accelerated team does not increase its cost. -/
theorem round_first {q : Options} (hq : q.acceleration = p.acceleration) (hd : 0 < p.d)
    (hl : p.robust.costType = .L2) (hp : p.acceleration = true) (ho : AccelOk p) (hsvd : LawfulSvd o.svd)
    (hk : u32 (k + 2) % p.restartInterval ≠ 0) (hm : p.localOpt.method = .RTR) (hlaw : ∀ c, LawfulRtr (o.opt c))
    (hsel : sel < N) (hE : ∀ m ∈ E, (m.r1 < N ∧ m.p1 < sh m.r1) ∧ (m.r2 < N ∧ m.p2 < sh m.r2))
    (h : Crew o p E sh N (fun _ => k) agents)
    (hs : ∀ i a, agents[i]? = some a → a.V = a.X ∧ ∀ l < sh i, OrthoCols (rotM p.r p.d a.X l)) {agents' : List Agent}
    (e : teamRound o q N sel k agents = ok agents') :
    teamCost p.r p.d E (estimates agents') ≤ teamCost p.r p.d E (estimates agents) := by
  have hE' : ∀ m ∈ E, m.r1 < N ∧ m.r2 < N := fun m hm => ⟨(hE m hm).1.1, (hE m hm).2.1⟩
  obtain ⟨a0, ha0, hm0⟩ := h.get hsel
  obtain ⟨c1, e1, h1, x1⟩ := idle_echo (sel := sel) (x := a0.X) hd hl hp ho hsvd hk h hs
    (fun a ha => by rw [ha0] at ha; cases ha; rfl)
  obtain ⟨c2, e2, h2, x2⟩ := send_echo hsel h1 x1
  obtain ⟨c3, e3, h3, x3, hu⟩ := aux_echo hsel hp hE' h2 x2
  unfold teamRound at e
  rw [e1, ok_bind, e2, ok_bind, hq, hp, if_pos rfl, e3, ok_bind] at e
  obtain ⟨a, ha, hma⟩ := h3.get hsel
  simp only [if_true] at hma
  obtain ⟨s, a', ei, hm', -, -⟩ := hma.iterate hd hl (fun _ => ho) true
  have e5 : onAgent (fun a => do let (_, a) ← a.iterate o true; ok a) c3 sel = ok (c3.set sel a') :=
    onAgent_ok ha (by simp only [ei, ok_bind])
  have e' : onAgent (fun a => do let (_, a) ← a.iterate o true; ok a) c3 sel = ok agents' := e
  rw [e5] at e'
  cases e'
  rw [estimates_set (List.getElem?_eq_some_iff.1 ha).1]
  obtain ⟨xX, xV⟩ := (x3 sel a ha).2 rfl
  obtain ⟨hV0, hO⟩ := hs sel a0 ha0
  have hrs : ¬ RestartsNext p a := by unfold RestartsNext; rw [hma.iter]; exact hk
  have hY := (Props.C72_first hsvd hp hma.reach hma.state hrs (by rw [xX, xV])
    (by rw [hma.size, xX]; exact hO) ei).1
  rw [hma.size, xX] at hY
  have hY := samePoses_agree hY
  have others : ∀ M : DMat ℝ, ∀ j < N, Agree p.r p.d (sh j) (Function.update (estimates c3) sel M j)
      (Function.update (estimates agents) sel M j) := by
    intro M j hj
    by_cases c : j = sel
    · subst c
      rw [Function.update_self, Function.update_self]
      exact Agree.rfl
    · rw [Function.update_of_ne c, Function.update_of_ne c]
      obtain ⟨b, hb, -⟩ := h3.get hj
      rw [estimates_at hb]
      exact ((x3 j b hb).1 c).1
  rw [teamCost_agree hE (others _)]
  obtain ⟨-, -, q1, q2⟩ := iterate_sequences hsvd (agReach_inv hma.reach) hma.state hp hrs ei
  cases s with
  | false =>
    rw [q1 rfl rfl, xX, ← estimates_at ha0, Function.update_eq_self]
  | true =>
    obtain ⟨kk, g, res, g', st, hnp, ho'⟩ := q2 rfl rfl
    have t1 : TeamInv p.r p.d E sel g := hma.team.updating st
    have bk := updating_book st
    obtain ⟨Q, G, g3, f0, -, -, -, -, -, -, -, -, -, -, -, -, -, ⟨g4, f1⟩, -⟩ := optimize_ok ho'
    have hle := optimize_rtr (hlaw _) hm ho'
    have hW : Function.update (estimates agents) sel a'.Y.X sel = a'.Y.X := Function.update_self ..
    rw [← hW] at f0
    have key := t1.change (two_ne_zero) hd (Function.update (estimates agents) sel a'.Y.X) a'.X.X (by
      intro q hq
      rw [show g.nbrShared = a.graph.nbrShared from bk.nbrShared] at hq
      rw [hnp]
      obtain ⟨P, hP, hc⟩ := hu a ha q hq
      refine ⟨P, hP, fun ρ cc hρ hcc => ?_⟩
      rw [Function.update_of_ne (hma.team.robots hE' hq).2]
      exact hc ρ cc hρ hcc) f0 f1
    rw [Function.update_idem] at key
    have hsame : teamCost p.r p.d E (Function.update (estimates agents) sel a'.Y.X) =
        teamCost p.r p.d E (estimates agents) := by
      refine teamCost_agree hE fun j hj => ?_
      by_cases c : j = sel
      · subst c
        rw [Function.update_self, estimates_at ha0]
        exact hY
      · rw [Function.update_of_ne c]
        exact Agree.rfl
    linarith

end

/-- Agents given their share of the initial guess start the momentum sequence there. -/
theorem give_synced {o : AgentOracles} {p : AgentParams} {N n : Nat} {E : List (Meas ℝ)} {q : Options}
    (hp : p.acceleration = true) (hq : q.r = p.r) (hn : n * (p.d + 1) < 2 ^ 32) {X : DMat ℝ}
    (hX : X.rows = p.r ∧ X.cols = n * (p.d + 1)) {agents agents' : List Agent}
    (h : Muster o p E (share N n) N agents)
    (e : Res.foldl (giveShare q p.d N n (n / N) X) agents (List.range N) = ok agents') :
    ∀ (i : Nat) (a : Agent), agents'[i]? = some a → a.V = a.X := by
  obtain ⟨c, e', h1, h2, h3⟩ := foldl_range_total (f := giveShare q p.d N n (n / N) X) (n := N) (b := agents)
    (P := fun j c => c.length = N ∧ (∀ (i : Nat) (a : Agent), c[i]? = some a → Recruit o p E (share N n) i a) ∧
      ∀ (i : Nat) (a : Agent), c[i]? = some a → i < j → a.V = a.X)
    ⟨h.len, h.mem, fun i a _ c => absurd c (by omega)⟩ (by
      rintro j hj c ⟨h1, h2, h3⟩
      obtain ⟨a, ha⟩ : ∃ a, c[j]? = some a := ⟨_, List.getElem?_eq_getElem (by rw [h1]; exact hj)⟩
      have hm := h2 j a ha
      have hi := agReach_inv hm.reach
      obtain ⟨B, eB, b1, b2, -⟩ := localBlock_ok hn hX hj
      obtain ⟨a', e, s1, -, -⟩ := Agent.setX_ok hi hm.state (M := B) b1
        (by rw [hm.size, b2, Nat.mul_comm])
      have hr : AgReach o j p a' := agReach_snoc (op := .setX B) hm.reach trivial e
      obtain ⟨-, -, -, f⟩ := Agent.setX_form e
      have hV : a'.V = a'.X := by
        have := (resync_scalars (a := { a with state := .INITIALIZED, X := { a.X with X := B } })
          (by show a.params.acceleration = true; rw [hi.params]; exact hp) rfl).2.2.1
        rw [← f] at this
        exact this
      have hm' : Recruit o p E (share N n) j a' := by
        rw [Agent.resync_frame] at f
        have hg : a'.graph = a.graph := by rw [f]
        refine ⟨hr, by rw [hg]; exact hm.team, by rw [s1]; decide, ?_, ?_, ?_, by rw [hg]; exact hm.noSelf,
          by rw [hg]; exact hm.covered, by rw [hg]; exact hm.size⟩
        · rw [f]; exact hm.inst
        · rw [f]; exact hm.iter
        · rw [f]; exact hm.lift
      refine ⟨c.set j a', ?_, by rw [List.length_set]; exact h1, ?_, ?_⟩
      · unfold giveShare
        rw [hq, eB, ok_bind]
        exact onAgent_ok ha e
      · intro i x hx
        rw [List.getElem?_set] at hx
        split at hx
        · rename_i c1
          rw [if_pos (by rw [h1]; exact hj)] at hx
          cases hx
          rw [← c1]; exact hm'
        · exact h2 i x hx
      · intro i x hx hij
        rw [List.getElem?_set] at hx
        split at hx
        · rw [if_pos (by rw [h1]; exact hj)] at hx
          cases hx
          exact hV
        · exact h3 i x hx (by omega))
  rw [e] at e'
  cases e'
  intro i a ha
  refine h3 i a ha ?_
  have := (List.getElem?_eq_some_iff.1 ha).1
  rwa [h1] at this

section
variable {o : AgentOracles} {oc : OptOracles} {q : Options} {d N n : Nat} {D : List (Meas ℝ)}
  (hN : 0 < N) (hNn : 2 * N ≤ n) (hn : n * (d + 1) < 2 ^ 32) (hD : Dataset d n D) (hrd : d ≤ q.r)
include hN hNn hn hD hrd

/-- The team of the demo before its first iteration. -/
theorem start_synced (hp : q.acceleration = true) (ho : LawfulLsq o.qr) (hsvd : LawfulSvd o.svd)
    (hY : OrthoCols (o.stiefel d q.r)) {junk : Nat → Nat → ℝ} {s : LoopState}
    (e : demoStart o q junk (N : Int) n D = ok s) :
    ∀ (i : Nat) (a : Agent), s.agents[i]? = some a →
      a.V = a.X ∧ ∀ l < share N n i, OrthoCols (rotM q.r d a.X l) := by
  have hNn' : N ≤ n := by omega
  have hn' : n < 2 ^ 32 := lt_of_le_of_lt (Nat.le_mul_of_pos_right n (by omega)) hn
  have hpp : agentParams q (agentParams q d N).d N = agentParams q d N := rfl
  obtain ⟨g₀, g, e1, e2, hc⟩ := central_start (r := q.r) hD.toOneRobot hrd
  obtain ⟨s', e3, hs⟩ := partition_eq hN hNn' hn' (fun m hm => (ends_below hD hm).1)
  obtain ⟨agents, e4, hm⟩ := create_loop (o := o) (p := agentParams q d N) hN hNn' hn' hD hNn hpp hrd hs
  obtain ⟨T, X, e5, hT, e6, hX, x1, x2⟩ := guess_total (o := o) (p := agentParams q d N) hD (q := q) rfl ho
  obtain ⟨agents', e7, hcr, hb⟩ := give_loop (q := q) rfl hn ⟨x1, x2⟩ hm
  have hj : Joins q.r d n (place N (n / N)) (estimates agents') X := joins_blocks hN hNn' hn ⟨x1, x2⟩ hb
  have hV := give_synced (p := agentParams q d N) hp (q := q) rfl hn ⟨x1, x2⟩ hm e7
  have hs : s.agents = agents' := by
    unfold demoStart at e
    simp only [dimension_eq hD, e1, e2, e3, ok_bind, Int.toNat_natCast, perRobot_eq hn'] at e
    unfold setupAgents at e
    have e4' : Res.foldl (createAgent o q d N s') [] (List.range N) = ok agents := e4
    have e6' : liftedGuess o q d D = ok X := e6
    have e7' : Res.foldl (giveShare q d N n (n / N) X) agents (List.range N) = ok agents' := e7
    simp only [e4', e6', e7', ok_bind, ok.injEq] at e
    rw [← e]
  rw [hs]
  have hT' := (chordal_feasible hsvd e5).2
  rw [hT.2.1, hT.2.2.1] at hT'
  change X = (DMat.ofMat (o.stiefel d q.r)).mul T.X at hX
  intro a x hx
  refine ⟨hV a x hx, ?_⟩
  intro ℓ hℓ
  have ha : a < N := by
    have := (List.getElem?_eq_some_iff.1 hx).1
    rwa [hcr.len] at this
  obtain ⟨hi, hpl⟩ : a * (n / N) + ℓ < n ∧ place N (n / N) (a * (n / N) + ℓ) = ⟨a, ℓ⟩ := by
    have hlt : a * (n / N) + ℓ < n := by
      have := (share_one hN hNn' ha).2
      omega
    exact ⟨hlt, (place_iff_share hN hNn' _ a ℓ hlt).2 ⟨ha, rfl, hℓ⟩⟩
  have hrot : rotM q.r d x.X ℓ = o.stiefel d q.r * rotM d d T (a * (n / N) + ℓ) := by
    ext ρ c
    have := hj _ hi ρ c ρ.2 (by have := c.2; omega)
    rw [hpl] at this
    show x.X.X.v ρ (ℓ * (d + 1) + c) = _
    rw [← estimates_at hx, ← this, hX]
    simp only [rotM, DMat.mul, Matrix.of_apply, Matrix.mul_apply]
    rw [show (DMat.ofMat (o.stiefel d q.r)).cols = d from rfl, Finset.sum_range]
    refine Finset.sum_congr rfl fun x _ => ?_
    rw [show (DMat.ofMat (o.stiefel d q.r)).v ρ x = o.stiefel d q.r ρ x from dif_pos ⟨ρ.2, x.2⟩]
  rw [hrot]
  exact ortho_mul hY (hT' _ hi)

/-- The first line of an accelerated demo. -/
theorem first_line (hp : q.acceleration = true) (hacc : u32 (2 * N) ≠ 0) (ho : LawfulLsq o.qr)
    (hsvd : LawfulSvd o.svd) (hY : OrthoCols (o.stiefel d q.r)) (hrtr : ∀ c, LawfulRtr (o.opt c))
    (hq' : q.numIters < 2 ^ 32) {junk : Nat → Nat → ℝ} {s : LoopState}
    (e : demo o oc q junk (N : Int) n D = ok s) :
    ∃ T, chordalInitialization o.svd o.qr D = ok T ∧ ∀ l, s.lines[0]? = some l →
      l.cost ≤ 2 * teamCost q.r d D (fun _ => (DMat.ofMat (o.stiefel d q.r)).mul T.X) := by
  have hNn' : N ≤ n := by omega
  have hn' : n < 2 ^ 32 := lt_of_le_of_lt (Nat.le_mul_of_pos_right n (by omega)) hn
  have hd : 0 < d := by rcases hD.dim with rfl | rfl <;> omega
  obtain ⟨T, X, s₀, eT, hX, e0, hj, hl0, hs0, hd0, h⟩ := start_total (q := q) hN hNn hn hD hrd ho junk
  refine ⟨T, eT, fun l hl => ?_⟩
  obtain ⟨sk, ek, hc, -⟩ := Props.C69_cost hN hNn hn hD hrd (fun _ => hacc) ho hq' junk e hl
  have hsync := start_synced hN hNn hn hD hrd hp ho hsvd hY e0
  have e0' : demoStart o { q with numIters := 1 } junk (N : Int) n D = ok s₀ := e0
  unfold demoLoop at ek
  simp only [Nat.zero_add, e0', ok_bind, dimension_eq hD, Int.toNat_natCast, perRobot_eq hn'] at ek
  have ek : demoIter o oc q d N n (n / N) s₀ 0 = ok sk := by
    have e1 : Res.foldl (demoIter o oc { q with numIters := 1 } d N n (n / N)) s₀ [0] = ok sk := ek
    rw [foldl_cons] at e1
    obtain ⟨t, e1, e2⟩ := bind_eq_ok.1 e1
    have : t = sk := by cases e2; rfl
    rw [← this]
    exact e1
  have hi := (iter_total (oc := oc) hN hNn hn hD hrd (fun _ => hacc) (k := 0) (by norm_num) h)
  obtain ⟨t, et, ht⟩ := hi
  rw [ek] at et
  cases et
  obtain ⟨agents, X', R', c, f, c', a, e1, -, -, -, -, hXo, -, hlines, hcase⟩ := demoIter_form hd0 ek
  obtain ⟨kk, hcrew, hkk⟩ := h.crew
  have hkk := hkk hd0
  subst hkk
  have hE : ∀ m ∈ D.map (relabel (place N (n / N))), (m.r1 < N ∧ m.p1 < share N n m.r1) ∧
      (m.r2 < N ∧ m.p2 < share N n m.r2) := by
    intro m hm
    obtain ⟨x, hx, rfl⟩ := List.mem_map.1 hm
    obtain ⟨⟨hx1, hx2⟩, -⟩ := ends_below hD hx
    obtain ⟨y1, -, y2⟩ := (place_iff_share hN hNn' x.p1 _ _ hx1).1 rfl
    obtain ⟨z1, -, z2⟩ := (place_iff_share hN hNn' x.p2 _ _ hx2).1 rfl
    exact ⟨⟨y1, y2⟩, z1, z2⟩
  obtain ⟨agents', e1', hcrew', -⟩ := round_total (q := q) (p := agentParams q d N) rfl hd rfl
    (fun c => ⟨hacc, show (30 : Nat) ≠ 0 by decide⟩) h.sel (fun m hm => ⟨(hE m hm).1.1, (hE m hm).2.1⟩) hcrew
  rw [e1] at e1'
  cases e1'
  have hest : estimates sk.agents = estimates agents := by
    rcases hcase with ⟨-, -, hh, -⟩ | ⟨-, -, -, hh⟩
    · rw [hh]
    · obtain ⟨ag, ea, -, hes⟩ := anchor_loop hN hcrew'
      rw [hh] at ea
      cases ea
      exact hes
  have hle := round_first (q := q) (p := agentParams q d N) (sh := share N n) rfl hd rfl hp
    ⟨hacc, show (30 : Nat) ≠ 0 by decide⟩ hsvd (show u32 (0 + 2) % 30 ≠ 0 by decide) rfl hrtr h.sel hE hcrew hsync e1
  change teamCost q.r d _ _ ≤ teamCost q.r d _ _ at hle
  have j1 := ht.joins (by rw [hlines]; simp)
  have c0 : teamCost q.r d (D.map (relabel (place N (n / N)))) (estimates s₀.agents) =
      teamCost q.r d D (fun _ => X) :=
    teamCost_relabel (fun i j hi hj => place_inj hN hNn' hi hj) (fun m hm => ends_below hD hm) hD.unit hj
  have c1 : teamCost q.r d (D.map (relabel (place N (n / N)))) (estimates sk.agents) =
      teamCost q.r d D (fun _ => sk.Xopt) :=
    teamCost_relabel (fun i j hi hj => place_inj hN hNn' hi hj) (fun m hm => ends_below hD hm) hD.unit j1
  rw [hc, ← c1, hest, ← hX, ← c0]
  linarith

end

end Dpgo.Example
