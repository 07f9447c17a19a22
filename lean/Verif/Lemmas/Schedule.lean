import Verif.Spec.Schedule
import Verif.Lemmas.DemoTeam

/-! # A team of agents under an arbitrary schedule -/

namespace Dpgo

open Res Spec PoseGraph

/-! ### Clocks -/

namespace Spec

theorem Clock.after_snoc (ops : List NetOp) (op : NetOp) :
    Clock.after (ops ++ [op]) = (Clock.after ops).tick op := by
  unfold Clock.after
  rw [List.foldl_append]; rfl

theorem netRun_snoc {o : AgentOracles} {s t : Net} {ops : List NetOp} {op : NetOp} :
    netRun o s (ops ++ [op]) = ok t ↔ ∃ u, netRun o s ops = ok u ∧ netStep o u op = ok t := by
  unfold netRun
  rw [foldl_append, bind_eq_ok']
  constructor
  · rintro ⟨u, h1, h2⟩
    rw [foldl_cons, bind_eq_ok'] at h2
    obtain ⟨v, h2, h3⟩ := h2
    cases h3
    exact ⟨u, h1, h2⟩
  · rintro ⟨u, h1, h2⟩
    exact ⟨u, h1, by rw [foldl_cons, h2]; rfl⟩

theorem Clock.moves_tick (c : Clock) (op : NetOp) (j : Nat) :
    (c.tick op).moves j = if op = .iterate j true then c.moves j + 1 else c.moves j := by
  cases op with
  | send => rfl
  | deliver i k =>
    unfold Clock.tick
    rw [if_neg (by simp)]
    dsimp only
    split <;> rfl
  | iterate i b =>
    cases b with
    | false => simp [Clock.tick]
    | true =>
      simp only [Clock.tick, NetOp.iterate.injEq, and_true]
      by_cases h : i = j
      · subst h
        rw [Function.update_self, if_pos rfl]
      · rw [Function.update_of_ne (Ne.symm h), if_neg h]

theorem Clock.moves_mono {ops ops' : List NetOp} (h : ops <+: ops') (j : Nat) :
    (Clock.after ops).moves j ≤ (Clock.after ops').moves j := by
  obtain ⟨l, rfl⟩ := h
  induction l using List.reverseRecOn with
  | nil => simp
  | append_singleton l op ih =>
    rw [← List.append_assoc, Clock.after_snoc, Clock.moves_tick]
    split <;> omega

theorem Always.init {P : Clock → NetOp → Prop} {ops : List NetOp} {op : NetOp}
    (h : Always P (ops ++ [op])) : Always P ops ∧ P (Clock.after ops) op :=
  ⟨fun b x a e => h b x (a ++ [op]) (by rw [e]; simp), h ops op [] rfl⟩

theorem prefix_snoc {ops l : List NetOp} {op : NetOp} (h : l <+: ops ++ [op]) :
    l = ops ++ [op] ∨ l <+: ops := by
  rw [List.prefix_concat_iff] at h
  exact h

theorem Was.mono {o : AgentOracles} {s : Net} {ops : List NetOp} {op : NetOp} {j v : Nat} {B : PArr ℝ}
    (h : Was o s ops j v B) : Was o s (ops ++ [op]) j v B := by
  obtain ⟨b, t, h1, h2⟩ := h
  exact ⟨b, t, h1.trans (List.prefix_append _ _), h2⟩

end Spec

/-! ### Agents -/

section
variable {o : AgentOracles} {p : AgentParams} {E : List (Meas ℝ)} {sh : Nat → Nat} {i j k l : Nat}
  {a b : Agent}

theorem Spec.OnDuty.member (h : OnDuty o p E i a) (hs : a.graph.n = sh i) :
    Member o p E sh i a.iterationNumber a := by
  have ai := agReach_inv h.reach
  obtain ⟨u1, u2, u3⟩ := h.uncached
  obtain ⟨d1, d2, d3, -⟩ := reach_dims ai.reach
  refine ⟨h.reach, ⟨ai.reach, d1, d2, d3, ⟨?_, ?_, ?_⟩, h.priors, h.use, h.active, h.edges⟩, h.state, h.first,
    rfl, h.lift, h.noSelf, h.covered, hs⟩
  · intro Q c; rw [u1] at c; cases c
  · intro Q c; rw [u2] at c; cases c
  · intro Q c; rw [u3] at c; cases c

/-- A message in order: it comes from robot `j` and carries copies of poses of `B`. -/
structure InOrder (p : AgentParams) (E : List (Meas ℝ)) (j : Nat) (dst : Option Nat) (B : PArr ℝ)
    (x : Letter) : Prop where
  src : x.src = j
  id : x.status.agentID = j
  state : x.status.state = .INITIALIZED
  sorted : OMap.Sorted ltPoseID x.dict
  robot : ∀ kv ∈ x.dict, kv.1.robot = j
  copies : ∀ kv ∈ x.dict, Copies p.r p.d B kv.1.frame kv.2
  enough : ∀ i g, TeamInv p.r p.d E i g → i ≠ j → (dst = none ∨ dst = some i) →
    ∀ q ∈ g.nbrShared, q.robot = j → ∃ P, (q, P) ∈ x.dict

/-- What robot `i` needs from robot `j`, robot `j` sends to robot `i`. -/
theorem TeamInv.needed {r d i j : Nat} {E : List (Meas ℝ)} {g g' : PoseGraph ℝ} (h : TeamInv r d E i g)
    (h' : TeamInv r d E j g') {q : PoseID} (hq : q ∈ g.nbrShared) (hj : q.robot = j) (hij : j ≠ i) :
    NeededBy j i g' q := by
  obtain ⟨m, hm, rfl⟩ := ((Props.C05_public_ids i r d g h.reach).2.1 q).1 hq
  rw [h.lists.2.2, List.mem_filter] at hm
  obtain ⟨hm, hs⟩ := hm
  unfold foreignPose at hj
  simp only [isShared, Bool.or_eq_true, Bool.and_eq_true, beq_iff_eq, bne_iff_ne] at hs
  refine ⟨m, ?_, ?_, ?_⟩
  · rw [h'.lists.2.2, List.mem_filter]
    refine ⟨hm, ?_⟩
    simp only [isShared, Bool.or_eq_true, Bool.and_eq_true, beq_iff_eq, bne_iff_ne]
    split at hj <;> simp only at hj <;> omega
  · unfold foreignPose
    rcases hs with ⟨h1, h2⟩ | ⟨h1, h2⟩
    · rw [if_pos h1] at hj
      simp only at hj
      rw [if_neg (by omega)]
      exact h1
    · rw [if_neg h1] at hj
      simp only at hj
      rw [if_pos hj]
      exact h2
  · unfold ownPose foreignPose
    rcases hs with ⟨h1, h2⟩ | ⟨h1, h2⟩
    · rw [if_neg (by omega), if_pos h1]
    · rw [if_neg h1] at hj ⊢
      rw [if_pos hj]

theorem Member.outgoing (h : Member o p E sh j l b) {dst : Option Nat} (hd : dst ≠ some j) :
    ∃ dict, outgoing b dst = ok (some dict) ∧ InOrder p E j dst b.X ⟨j, b.getStatus.1, dict⟩ := by
  have own : ∀ {ids : PoseID → Prop} {m : PoseDict ℝ}, DictOf p.r p.d ids b.X m →
      (∀ q, ids q → IsPublic j b.graph q) → (∀ i g, TeamInv p.r p.d E i g → i ≠ j →
        (dst = none ∨ dst = some i) → ∀ q ∈ g.nbrShared, q.robot = j → ids q) →
      InOrder p E j dst b.X ⟨j, b.getStatus.1, m⟩ := by
    intro ids m hm hi hE
    refine ⟨rfl, h.id, h.state, hm.1, ?_, fun kv hkv => hm.2.2 kv.1 kv.2 hkv, ?_⟩
    · intro kv hkv
      obtain ⟨e, he, hk⟩ := hi _ ((hm.2.1 kv.1).1 ⟨kv.2, hkv⟩)
      have := (own_lt h.team.reach he).1
      rwa [hk] at this
    · intro i g hg hij hdst q hq hj
      exact (hm.2.1 q).2 (hE i g hg hij hdst q hq hj)
  cases dst with
  | none =>
    obtain ⟨dict, e, hm⟩ := (Props.C37_dict h.reach h.state).1
    exact ⟨dict, e, own hm (fun _ hq => hq) fun i g hg hij _ q hq hj => hg.public h.team hq hj (Ne.symm hij)⟩
  | some i =>
    obtain ⟨dict, e, hm⟩ := (Props.C37_neighbor h.reach h.state (j := i) (fun c => hd (by rw [c]))).1
    refine ⟨dict, e, own hm ?_ ?_⟩
    · rintro q ⟨m, h1, -, h2⟩
      exact ⟨m, h1, h2⟩
    · rintro i' g hg hij (c | c) q hq hj
      · cases c
      · cases c
        exact hg.needed h.team hq hj (Ne.symm hij)

theorem Member.deliver (h : Member o p E sh i k a) {dst : Option Nat} {B : PArr ℝ} {x : Letter}
    (hx : InOrder p E j dst B x) (hij : j ≠ i) :
    ∃ a', (a.setNeighborStatus x.status).updateNeighborPoses o x.src x.dict = ok a' ∧
      Member o p E sh i k a' ∧ a'.X = a.X ∧ a'.graph = a.graph ∧
      (dst = none ∨ dst = some i → ∀ q ∈ a.graph.nbrShared, q.robot = j →
        ∃ P, OMap.find? ltPoseID q a'.neighborPoses = some P ∧ Copies p.r p.d B q.frame P) ∧
      (∀ q, q.robot ≠ j → OMap.find? ltPoseID q a'.neighborPoses = OMap.find? ltPoseID q a.neighborPoses) := by
  have ai := agReach_inv h.reach
  have hkv : ∀ kv ∈ x.dict, kv.1.robot = x.src ∧ kv.2.r = a.r ∧ kv.2.d = a.d := by
    intro kv hkv
    obtain ⟨⟨hr, hd, -⟩, -⟩ := hx.copies kv hkv
    exact ⟨(hx.robot kv hkv).trans hx.src.symm, hr.trans ai.r.symm, hd.trans ai.d.symm⟩
  have hacc : (a.setNeighborStatus x.status).acceptsFrom x.src = true := by
    rw [Agent.acceptsFrom_iff]
    refine ⟨h.lift, x.status, ?_, hx.state⟩
    show OMap.find? ltNat x.src (OMap.insert ltNat x.status.agentID x.status a.teamStatus) = _
    rw [OMap.find?_insert strictTotal_ltNat, if_pos (by rw [hx.src, hx.id])]
  have e' : (a.setNeighborStatus x.status).updateNeighborPoses o x.src x.dict =
      ok { a.setNeighborStatus x.status with
        neighborPoses := Agent.stored a.graph a.neighborPoses x.dict } := by
    unfold Agent.updateNeighborPoses
    have hne : (x.src != (a.setNeighborStatus x.status).id) = true := by
      rw [bne_iff_ne, hx.src]
      exact fun c => hij (c.trans h.id)
    have hst : (a.setNeighborStatus x.status).state = .INITIALIZED := h.state
    have ht : (a.setNeighborStatus x.status).tryInitialize o x.src x.dict =
        ok (a.setNeighborStatus x.status) := by
      unfold Agent.tryInitialize
      rw [if_neg (by rw [hst]; decide)]
    rw [hne, check_true, ok_bind, hacc]
    simp only [Bool.not_true, Bool.false_eq_true, if_false, ht, ok_bind]
    rw [if_neg (by rw [hst]; decide)]
    have hs := storePoses_ok (a := a.setNeighborStatus x.status) (nid := x.src)
      (store := (a.setNeighborStatus x.status).neighborPoses) hkv
    rw [hs, ok_bind]
    rfl
  have hr1 : AgReach o i p (a.setNeighborStatus x.status) :=
    agReach_snoc (op := .setNeighborStatus x.status) h.reach trivial rfl
  have hwf : DictWF x.dict := by
    refine ⟨hx.sorted, fun kv hkv => ?_⟩
    obtain ⟨hA, -⟩ := hx.copies kv hkv
    rw [hA.1, hA.2.1]; exact hA
  have hr2 := agReach_snoc (op := .updateNeighborPoses x.src x.dict) hr1 hwf e'
  refine ⟨_, e', ⟨hr2, h.team, h.state, h.inst, h.iter, h.lift, h.noSelf, h.covered, h.size⟩, rfl,
    rfl, ?_, ?_⟩
  · intro hdst q hq hj
    obtain ⟨P, hP⟩ := hx.enough i a.graph h.team (Ne.symm hij) hdst q hq hj
    refine ⟨P, ?_, hx.copies _ hP⟩
    show OMap.find? ltPoseID q (Agent.stored a.graph a.neighborPoses x.dict) = some P
    rw [stored_find q P hx.sorted]
    exact Or.inl ⟨(OSet.contains_iff strictTotal_ltPoseID _ _).2 hq, hP⟩
  · intro q hq
    have no : ¬ ∃ P', a.graph.requireNeighborPose q = true ∧ (q, P') ∈ x.dict := by
      rintro ⟨P', -, hP⟩
      exact hq (hx.robot _ hP)
    show OMap.find? ltPoseID q (Agent.stored a.graph a.neighborPoses x.dict) = _
    refine Option.ext fun P => ?_
    rw [stored_find q P hx.sorted]
    constructor
    · rintro (⟨h1, h2⟩ | ⟨-, h2⟩)
      · exact absurd ⟨P, h1, h2⟩ no
      · exact h2
    · exact fun h2 => Or.inr ⟨no, h2⟩

end

/-! ### Teams -/

/-- What holds after every schedule. -/
structure NetInv (o : AgentOracles) (p : AgentParams) (E : List (Meas ℝ)) (sh : Nat → Nat) (N : Nat)
    (s : Net) (ops : List NetOp) (t : Net) : Prop where
  run : netRun o s ops = ok t
  member : ∀ i < N, ∃ k, Member o p E sh i k (t.agents i)
  len : t.mail.length = (Clock.after ops).sent.length
  mail : ∀ (k : Nat) x j dst v, t.mail[k]? = some x → (Clock.after ops).sent[k]? = some (j, dst, v) →
    ∃ B, Was o s ops j v B ∧ InOrder p E j dst B x
  seen : ∀ i < N, ∀ j v, (Clock.after ops).seen i j = some v → ∃ B, Was o s ops j v B ∧
    ∀ q ∈ (t.agents i).graph.nbrShared, q.robot = j →
      ∃ P, OMap.find? ltPoseID q (t.agents i).neighborPoses = some P ∧ Copies p.r p.d B q.frame P
  still : p.acceleration = false → ∀ j B, Was o s ops j ((Clock.after ops).moves j) B → B = (t.agents j).X

section
variable {o : AgentOracles} {p : AgentParams} {E : List (Meas ℝ)} {sh : Nat → Nat} {N : Nat} {s t t' : Net}
  {ops : List NetOp} {op : NetOp}

theorem NetInv.start (h : ∀ i < N, OnDuty o p E i (s.agents i)) (hm : s.mail = []) :
    NetInv o p E (fun i => (s.agents i).graph.n) N s [] s := by
  refine ⟨rfl, fun i hi => ⟨_, (h i hi).member rfl⟩, by rw [hm]; rfl, ?_, ?_, ?_⟩
  · intro k x j dst v hk
    rw [hm] at hk; simp at hk
  · intro i hi j v hv
    cases hv
  · rintro - j B ⟨b, t, h1, h2, -, rfl⟩
    rw [List.prefix_nil] at h1
    subst h1
    cases h2
    rfl

/-- An estimate that is not moved. -/
theorem NetInv.keep (h : NetInv o p E sh N s ops t) (e : netRun o s (ops ++ [op]) = ok t')
    (hX : ∀ j, op ≠ .iterate j true → p.acceleration = false → (t'.agents j).X = (t.agents j).X)
    (hp : p.acceleration = false) (j : Nat) (B : PArr ℝ)
    (hw : Was o s (ops ++ [op]) j ((Clock.after (ops ++ [op])).moves j) B) : B = (t'.agents j).X := by
  obtain ⟨b, u, h1, h2, h3, rfl⟩ := hw
  rcases prefix_snoc h1 with rfl | h1
  · rw [e] at h2
    cases h2
    rfl
  · rw [Clock.after_snoc, Clock.moves_tick] at h3
    by_cases c : op = .iterate j true
    · rw [if_pos c] at h3
      have := Clock.moves_mono h1 j
      omega
    · rw [if_neg c] at h3
      rw [hX j c hp]
      exact h.still hp j _ ⟨b, u, h1, h2, h3, rfl⟩

theorem NetInv.step_any (hd : 0 < p.d)
    (hl : p.robust.costType ≠ .L2 → ∀ i b, op = .iterate i b → (t.agents i).innerIter + 1 < 2 ^ 31)
    (ho : p.acceleration = true → AccelOk p) (h : NetInv o p E sh N s ops t)
    (hs : Sound N (Clock.after ops) op) :
    ∃ t', netStep o t op = ok t' ∧ NetInv o p E sh N s (ops ++ [op]) t' := by
  have hWas : ∀ i, Was o s ops i ((Clock.after ops).moves i) (t.agents i).X := fun i =>
    ⟨ops, t, List.prefix_rfl, h.run, rfl, rfl⟩
  cases op with
  | send j dst =>
    obtain ⟨hj, hdst⟩ := hs
    obtain ⟨k, hk⟩ := h.member j hj
    obtain ⟨dict, e, hv⟩ := hk.outgoing hdst
    have hag : ∀ i, (Function.update t.agents j (t.agents j).getStatus.2 i).X = (t.agents i).X ∧
        (Function.update t.agents j (t.agents j).getStatus.2 i).graph = (t.agents i).graph ∧
        (Function.update t.agents j (t.agents j).getStatus.2 i).neighborPoses = (t.agents i).neighborPoses := by
      intro i
      by_cases c : i = j
      · subst c
        rw [Function.update_self]
        exact ⟨rfl, rfl, rfl⟩
      · rw [Function.update_of_ne c]
        exact ⟨rfl, rfl, rfl⟩
    have es : netStep o t (.send j dst) = ok ⟨Function.update t.agents j (t.agents j).getStatus.2,
        t.mail ++ [⟨j, (t.agents j).getStatus.1, dict⟩]⟩ := by
      unfold netStep
      simp only [e, ok_bind]
    have er := netRun_snoc.2 ⟨t, h.run, es⟩
    refine ⟨_, es, ⟨er, ?_, ?_, ?_, ?_, h.keep er fun j' _ _ => (hag j').1⟩⟩
    · intro i hi
      by_cases c : i = j
      · subst c
        refine ⟨k, ?_⟩
        show Member o p E sh i k (Function.update t.agents i (t.agents i).getStatus.2 i)
        rw [Function.update_self]
        exact hk.status
      · show ∃ k, Member o p E sh i k (Function.update t.agents j (t.agents j).getStatus.2 i)
        rw [Function.update_of_ne c]
        exact h.member i hi
    · rw [Clock.after_snoc]
      simp only [Clock.tick, List.length_append, h.len, List.length_cons, List.length_nil]
    · intro n x j' dst' v hx hc
      rw [Clock.after_snoc] at hc
      simp only [Clock.tick] at hc hx
      by_cases c : n < t.mail.length
      · rw [List.getElem?_append_left c] at hx
        rw [List.getElem?_append_left (by rw [← h.len]; exact c)] at hc
        obtain ⟨B, hB, hx⟩ := h.mail n x j' dst' v hx hc
        exact ⟨B, hB.mono, hx⟩
      · have hn : n = t.mail.length := by
          have := (List.getElem?_eq_some_iff.1 hx).1
          simp only [List.length_append, List.length_cons, List.length_nil] at this
          omega
        subst hn
        rw [List.getElem?_append_right (le_refl _)] at hx
        rw [h.len, List.getElem?_append_right (le_refl _)] at hc
        simp only [Nat.sub_self, List.getElem?_cons_zero, Option.some.injEq] at hx hc
        subst hx
        simp only [Prod.mk.injEq] at hc
        obtain ⟨rfl, rfl, rfl⟩ := hc
        exact ⟨_, (hWas j).mono, hv⟩
    · intro i hi j' v hv'
      rw [Clock.after_snoc] at hv'
      obtain ⟨B, hB, hq⟩ := h.seen i hi j' v hv'
      refine ⟨B, hB.mono, ?_⟩
      show ∀ q ∈ (Function.update t.agents j (t.agents j).getStatus.2 i).graph.nbrShared, _ → ∃ P,
        OMap.find? ltPoseID q (Function.update t.agents j (t.agents j).getStatus.2 i).neighborPoses = _ ∧ _
      rw [(hag i).2.1, (hag i).2.2]
      exact hq
  | deliver i n =>
    obtain ⟨hi, ⟨j, dst, v⟩, hc, hji⟩ := hs
    have hn : n < t.mail.length := by
      rw [h.len]; exact (List.getElem?_eq_some_iff.1 hc).1
    have hx : t.mail[n]? = some t.mail[n] := List.getElem?_eq_getElem hn
    obtain ⟨B, hB, hv⟩ := h.mail n _ j dst v hx hc
    obtain ⟨k, hk⟩ := h.member i hi
    obtain ⟨a', e, hm', hX, hg, hget, hrest⟩ := hk.deliver hv hji
    have es : netStep o t (.deliver i n) = ok ⟨Function.update t.agents i a', t.mail⟩ := by
      unfold netStep
      simp only [hx, e, ok_bind]
    have er := netRun_snoc.2 ⟨t, h.run, es⟩
    have hag : ∀ i', (Function.update t.agents i a' i').X = (t.agents i').X := by
      intro i'
      by_cases c : i' = i
      · subst c
        rw [Function.update_self]; exact hX
      · rw [Function.update_of_ne c]
    have hclock : (Clock.after (ops ++ [.deliver i n])).seen = Function.update (Clock.after ops).seen i
        (Function.update ((Clock.after ops).seen i) j (if dst = none ∨ dst = some i then some v else none)) := by
      rw [Clock.after_snoc]
      simp only [Clock.tick, hc]
    have hsent : (Clock.after (ops ++ [.deliver i n])).sent = (Clock.after ops).sent := by
      rw [Clock.after_snoc]
      simp only [Clock.tick, hc]
    refine ⟨_, es, ⟨er, ?_, ?_, ?_, ?_, h.keep er fun j' _ _ => hag j'⟩⟩
    · intro i' hi'
      by_cases c : i' = i
      · subst c
        refine ⟨k, ?_⟩
        show Member o p E sh i' k (Function.update t.agents i' a' i')
        rw [Function.update_self]
        exact hm'
      · show ∃ k, Member o p E sh i' k (Function.update t.agents i a' i')
        rw [Function.update_of_ne c]
        exact h.member i' hi'
    · rw [hsent]; exact h.len
    · intro n' x j' dst' v' hx' hc'
      rw [hsent] at hc'
      obtain ⟨B', hB', hx'⟩ := h.mail n' x j' dst' v' hx' hc'
      exact ⟨B', hB'.mono, hx'⟩
    · intro i' hi' j' v' hv'
      rw [hclock] at hv'
      show ∃ B, _ ∧ ∀ q ∈ (Function.update t.agents i a' i').graph.nbrShared, _ → ∃ P,
        OMap.find? ltPoseID q (Function.update t.agents i a' i').neighborPoses = _ ∧ _
      by_cases c : i' = i
      · subst c
        rw [Function.update_self] at hv' ⊢
        rw [hg]
        by_cases c' : j' = j
        · subst c'
          rw [Function.update_self] at hv'
          split at hv'
          · rename_i hdst
            cases hv'
            exact ⟨B, hB.mono, hget hdst⟩
          · cases hv'
        · rw [Function.update_of_ne c'] at hv'
          obtain ⟨B', hB', hq⟩ := h.seen i' hi' j' v' hv'
          refine ⟨B', hB'.mono, fun q hq1 hq2 => ?_⟩
          rw [hrest q (by rw [hq2]; exact c')]
          exact hq q hq1 hq2
      · rw [Function.update_of_ne c] at hv' ⊢
        obtain ⟨B', hB', hq⟩ := h.seen i' hi' j' v' hv'
        exact ⟨B', hB'.mono, hq⟩
  | iterate i doOpt =>
    obtain ⟨k, hk⟩ := h.member i hs
    obtain ⟨b, a', e, hm', hnp, hX⟩ := hk.iterate_any hd (fun c => hl c i doOpt rfl) ho doOpt
    have es : netStep o t (.iterate i doOpt) = ok ⟨Function.update t.agents i a', t.mail⟩ := by
      unfold netStep
      simp only [e, ok_bind]
    have er := netRun_snoc.2 ⟨t, h.run, es⟩
    have hclock : (Clock.after (ops ++ [.iterate i doOpt])).seen = (Clock.after ops).seen ∧
        (Clock.after (ops ++ [.iterate i doOpt])).sent = (Clock.after ops).sent := by
      rw [Clock.after_snoc]
      cases doOpt <;> exact ⟨rfl, rfl⟩
    have hg : a'.graph.nbrShared = (t.agents i).graph.nbrShared := by
      obtain ⟨-, st, -, -⟩ := Agent.iterate_frame e
      exact (updating_book st).nbrShared
    refine ⟨_, es, ⟨er, ?_, ?_, ?_, ?_, h.keep er ?_⟩⟩
    · intro i' hi'
      by_cases c : i' = i
      · subst c
        refine ⟨u32 (k + 1), ?_⟩
        show Member o p E sh i' (u32 (k + 1)) (Function.update t.agents i' a' i')
        rw [Function.update_self]
        exact hm'
      · show ∃ k, Member o p E sh i' k (Function.update t.agents i a' i')
        rw [Function.update_of_ne c]
        exact h.member i' hi'
    · rw [hclock.2]; exact h.len
    · intro n' x j' dst' v' hx' hc'
      rw [hclock.2] at hc'
      obtain ⟨B', hB', hx'⟩ := h.mail n' x j' dst' v' hx' hc'
      exact ⟨B', hB'.mono, hx'⟩
    · intro i' hi' j' v' hv'
      rw [hclock.1] at hv'
      obtain ⟨B', hB', hq⟩ := h.seen i' hi' j' v' hv'
      refine ⟨B', hB'.mono, ?_⟩
      show ∀ q ∈ (Function.update t.agents i a' i').graph.nbrShared, _ → ∃ P,
        OMap.find? ltPoseID q (Function.update t.agents i a' i').neighborPoses = _ ∧ _
      by_cases c : i' = i
      · subst c
        rw [Function.update_self, hg, hnp]
        exact hq
      · rw [Function.update_of_ne c]
        exact hq
    · intro j' hj' hp
      show (Function.update t.agents i a' j').X = _
      by_cases c : j' = i
      · subst c
        rw [Function.update_self]
        refine hX hp ?_
        cases doOpt
        · rfl
        · exact absurd rfl hj'
      · rw [Function.update_of_ne c]

theorem NetInv.step (hd : 0 < p.d) (hl : p.robust.costType = .L2)
    (ho : p.acceleration = true → AccelOk p) (h : NetInv o p E sh N s ops t)
    (hs : Sound N (Clock.after ops) op) :
    ∃ t', netStep o t op = ok t' ∧ NetInv o p E sh N s (ops ++ [op]) t' :=
  h.step_any hd (fun c => absurd hl c) ho hs

theorem NetInv.all (hd : 0 < p.d) (hl : p.robust.costType = .L2)
    (ho : p.acceleration = true → AccelOk p) (h : ∀ i < N, OnDuty o p E i (s.agents i)) (hm : s.mail = [])
    (hs : Always (Sound N) ops) :
    ∃ t, NetInv o p E (fun i => (s.agents i).graph.n) N s ops t := by
  induction ops using List.reverseRecOn with
  | nil => exact ⟨s, .start h hm⟩
  | append_singleton ops op ih =>
    obtain ⟨h1, h2⟩ := hs.init
    obtain ⟨t, ht⟩ := ih h1
    obtain ⟨t', -, ht'⟩ := ht.step hd hl ho h2
    exact ⟨t', ht'⟩

/-- A robot that optimises in time holds the current poses of its neighbours. -/
theorem NetInv.upToDate {i k : Nat} (hp : p.acceleration = false) (h : NetInv o p E sh N s ops t)
    (hE : ∀ m ∈ E, m.r1 < N ∧ m.r2 < N) (hs : i < N) (ht : Timely E (Clock.after ops) (.iterate i true))
    (hk : Member o p E sh i k (t.agents i)) :
    upToDate p.r p.d t.estimate (t.agents i).graph (t.agents i).neighborPoses := by
  intro q hq
  have hlink : Partners E i q.robot := by
    refine ⟨(hk.team.robots hE hq).2.symm, ?_⟩
    obtain ⟨m, hm, rfl⟩ := ((Props.C05_public_ids i p.r p.d _ hk.team.reach).2.1 q).1 hq
    rw [hk.team.lists.2.2, List.mem_filter] at hm
    obtain ⟨hm, hs⟩ := hm
    refine ⟨m, Example.mem_firstWins hm, ?_⟩
    simp only [isShared, Bool.or_eq_true, Bool.and_eq_true, beq_iff_eq, bne_iff_ne] at hs
    unfold foreignPose
    by_cases h1 : m.r1 = i
    · rw [if_pos h1]
      exact Or.inl ⟨h1, rfl⟩
    · rw [if_neg h1]
      exact Or.inr ⟨rfl, by omega⟩
  obtain ⟨B, hB, hq'⟩ := h.seen i hs _ _ (ht _ hlink)
  obtain ⟨P, hP, hc⟩ := hq' q hq rfl
  refine ⟨P, hP, fun ρ c hρ hc' => ?_⟩
  rw [copies_value hc hρ hc', h.still hp _ _ hB]
  rfl

theorem estimate_update {i : Nat} {a : Agent} :
    Function.update t.estimate i a.X.X = Net.estimate ⟨Function.update t.agents i a, t.mail⟩ := by
  funext j
  unfold Net.estimate
  by_cases c : j = i
  · subst c
    rw [Function.update_self]
    show a.X.X = (Function.update t.agents j a j).X.X
    rw [Function.update_self]
  · rw [Function.update_of_ne c]
    show (t.agents j).X.X = (Function.update t.agents i a j).X.X
    rw [Function.update_of_ne c]

/-- One event of a timely schedule. -/
theorem NetInv.descent_any (hd : 0 < p.d) (hp : p.acceleration = false)
    (hl : p.robust.costType ≠ .L2 → ∀ i b, op = .iterate i b → (t.agents i).innerIter + 1 < 2 ^ 31)
    (hm : p.localOpt.method = .RTR) (hrtr : ∀ c, LawfulRtr (o.opt c)) (h : NetInv o p E sh N s ops t)
    (hE : ∀ m ∈ E, m.r1 < N ∧ m.r2 < N)
    (hs : Sound N (Clock.after ops) op) (ht : Timely E (Clock.after ops) op)
    (e : netStep o t op = ok t') :
    teamCost p.r p.d E t'.estimate ≤ teamCost p.r p.d E t.estimate := by
  have same : t'.estimate = t.estimate → teamCost p.r p.d E t'.estimate ≤ teamCost p.r p.d E t.estimate :=
    fun c => by rw [c]
  have ho : p.acceleration = true → AccelOk p := fun c => by rw [hp] at c; cases c
  obtain ⟨t'', e', hi⟩ := h.step_any hd hl ho hs
  rw [e] at e'
  cases e'
  by_cases c : ∃ i, op = .iterate i true
  · obtain ⟨i, rfl⟩ := c
    obtain ⟨k, hk⟩ := h.member i hs
    obtain ⟨b, a', ea, -, -, -⟩ := hk.iterate_any hd (fun c => hl c i true rfl) ho true
    have es : netStep o t (.iterate i true) = ok ⟨Function.update t.agents i a', t.mail⟩ := by
      unfold netStep
      simp only [ea, ok_bind]
    rw [e] at es
    cases es
    have := hk.descent hd hp hm hrtr (X := t.estimate) rfl (h.upToDate hp hE hs ht hk) ea
    rw [estimate_update] at this
    exact this
  · refine same ?_
    funext j
    have hj : op ≠ .iterate j true := fun hc => c ⟨j, hc⟩
    have := hi.still hp j (t.agents j).X
      ⟨ops, t, List.prefix_append _ _, h.run, by rw [Clock.after_snoc, Clock.moves_tick, if_neg hj], rfl⟩
    unfold Net.estimate
    rw [this]

theorem NetInv.descent (hd : 0 < p.d) (hp : p.acceleration = false) (hl : p.robust.costType = .L2)
    (hm : p.localOpt.method = .RTR) (hrtr : ∀ c, LawfulRtr (o.opt c)) (h : NetInv o p E sh N s ops t)
    (hE : ∀ m ∈ E, m.r1 < N ∧ m.r2 < N)
    (hs : Sound N (Clock.after ops) op) (ht : Timely E (Clock.after ops) op)
    (e : netStep o t op = ok t') :
    teamCost p.r p.d E t'.estimate ≤ teamCost p.r p.d E t.estimate :=
  h.descent_any hd hp (fun c => absurd hl c) hm hrtr hE hs ht e

end

end Dpgo
