import Verif.Model.Main
import Verif.Spec.Main
import Verif.Props.G2o
import Verif.Props.Examples

/-! # The example programs from the command line on: lemmas -/

namespace Dpgo.Example

open Res Text Spec Spec.G2o

/-! ### Datasets of files -/

theorem firstWins_filter (P : Meas ℝ → Bool) (hP : ∀ a b, sameEnds a b = true → P a = P b) :
    ∀ l : List (Meas ℝ), (firstWins l).filter P = firstWins (l.filter P)
  | [] => rfl
  | m :: l => by
    have ih := firstWins_filter P hP l
    by_cases c : P m = true
    · rw [firstWins, List.filter_cons_of_pos c, List.filter_cons_of_pos c, firstWins, ← ih, List.filter_filter,
        List.filter_filter]
      congr 2
      funext x
      exact Bool.and_comm _ _
    · rw [firstWins, List.filter_cons_of_neg c, List.filter_cons_of_neg c, ← ih, List.filter_filter]
      refine List.filter_congr fun x _ => ?_
      by_cases e : sameEnds m x = true
      · have := hP m x e
        simp_all
      · simp [e]

theorem endsOf_edges (es : List Entry) : endsOf es = endsOf (es.filter Entry.isEdge) := by
  induction es with
  | nil => rfl
  | cons e es ih =>
    unfold endsOf at ih ⊢
    cases e with
    | vertex => exact ih
    | edge2 i j v =>
      rw [List.filter_cons_of_pos rfl, List.filterMap_cons, List.filterMap_cons, ih]
    | edge3 i j v =>
      rw [List.filter_cons_of_pos rfl, List.filterMap_cons, List.filterMap_cons, ih]

theorem says_ends {e : Entry} {m : Meas ℝ} (h : Says e m) : e.ends = some (m.p1, m.p2) := by
  cases e with
  | vertex => exact h.elim
  | edge2 i j v => obtain ⟨-, -, a, b, -⟩ := h; rw [a, b]; rfl
  | edge3 i j v => obtain ⟨-, -, a, b, -⟩ := h; rw [a, b]; rfl

theorem ends_says {es : List Entry} {D : List (Meas ℝ)} (h : List.Forall₂ Says es D) :
    endsOf es = D.map fun m => (m.p1, m.p2) := by
  induction h with
  | nil => rfl
  | cons h _ ih =>
    unfold endsOf at ih ⊢
    rw [List.filterMap_cons, says_ends h, ih]
    rfl

theorem trace_inv_pos {k : Nat} [NeZero k] {M : Matrix (Fin k) (Fin k) ℝ} (h : M.PosDef) : 0 < M⁻¹.trace :=
  h.inv.trace_pos

theorem det_ne_zero {k : Nat} {M : Matrix (Fin k) (Fin k) ℝ} (h : M.PosDef) : M.det ≠ 0 :=
  ((Matrix.isUnit_iff_isUnit_det _).1 h.isUnit).ne_zero

theorem usable_of {d : Nat} {e : Entry} (h : e.Informed d) (hb : ∀ p, e.ends = some p → p.1 < 2 ^ 53 ∧ p.2 < 2 ^ 53) :
    Usable e := by
  cases e with
  | vertex => trivial
  | edge2 i j v =>
    obtain ⟨-, h, -⟩ := h
    obtain ⟨b1, b2⟩ := hb _ rfl
    exact ⟨b1, b2, det_ne_zero h, (trace_inv_pos h).ne'⟩
  | edge3 i j v =>
    obtain ⟨-, h, h'⟩ := h
    obtain ⟨b1, b2⟩ := hb _ rfl
    exact ⟨b1, b2, det_ne_zero h, (trace_inv_pos h).ne', det_ne_zero h', (trace_inv_pos h').ne'⟩

theorem says_fields {d : Nat} {e : Entry} {m : Meas ℝ} (hi : e.Informed d) (h : Says e m) :
    (d = 2 ∨ d = 3) ∧ (m.r1 = 0 ∧ m.r2 = 0) ∧ MeasDim d m ∧ (0 ≤ m.kappa ∧ 0 ≤ m.tau) ∧ m.weight = 1 := by
  cases e with
  | vertex => exact h.elim
  | edge2 i j v =>
    obtain ⟨rfl, hp, h8⟩ := hi
    obtain ⟨a1, a2, -, -, t1, t2, -, r1, r2, -, ht, hk, -, hw⟩ := h
    refine ⟨Or.inl rfl, ⟨a1, a2⟩, ⟨r1, r2, t1, t2⟩, ⟨by rw [hk]; exact h8, ?_⟩, hw⟩
    rw [ht]
    exact div_nonneg zero_le_two (trace_inv_pos hp).le
  | edge3 i j v =>
    obtain ⟨rfl, hp, hp'⟩ := hi
    obtain ⟨a1, a2, -, -, t1, t2, -, r1, r2, -, ht, hk, -, hw⟩ := h
    refine ⟨Or.inr rfl, ⟨a1, a2⟩, ⟨r1, r2, t1, t2⟩, ⟨?_, ?_⟩, hw⟩
    · rw [hk]
      exact div_nonneg zero_le_three (mul_nonneg zero_le_two (trace_inv_pos hp').le)
    · rw [ht]
      exact div_nonneg zero_le_three (trace_inv_pos hp).le

section
variable {d n : Nat} {es : List Entry} {text : Str}

theorem dataset_of (h : GraphFile d n es text) {D : List (Meas ℝ)}
    (hs : List.Forall₂ Says (es.filter Entry.isEdge) D) : Dataset d n D := by
  have he : endsOf es = D.map fun m => (m.p1, m.p2) := (endsOf_edges es).trans (ends_says hs)
  have hm : ∀ m ∈ D, (m.p1, m.p2) ∈ endsOf es := fun m hm => by
    rw [he]
    exact List.mem_map_of_mem hm
  have hf : ∀ m ∈ D, (d = 2 ∨ d = 3) ∧ (m.r1 = 0 ∧ m.r2 = 0) ∧ MeasDim d m ∧ (0 ≤ m.kappa ∧ 0 ≤ m.tau) ∧
      m.weight = 1 := by
    intro m hm
    obtain ⟨k, hk, rfl⟩ := List.getElem_of_mem hm
    have hk' : k < (es.filter Entry.isEdge).length := by rw [hs.length_eq]; exact hk
    have h1 := (List.forall₂_iff_get.1 hs).2 k hk' hk
    exact says_fields (h.informed _ (List.mem_of_mem_filter (List.getElem_mem hk'))) h1
  have hch : (D.filter fun m => m.p1 + 1 == m.p2).map (fun m => m.p1) = List.range (n - 1) := by
    rw [← h.chain, he, List.filter_map, List.map_map]
    rfl
  have h2 := h.two
  have hlast : ∃ m ∈ D, m.p2 + 1 = n := by
    have : n - 2 ∈ (D.filter fun m => m.p1 + 1 == m.p2).map (fun m => m.p1) := by
      rw [hch]
      exact List.mem_range.2 (by omega)
    obtain ⟨m, hm, e⟩ := List.mem_map.1 this
    obtain ⟨hm, c⟩ := List.mem_filter.1 hm
    simp only [beq_iff_eq] at c
    exact ⟨m, hm, by omega⟩
  obtain ⟨ml, hml, hl⟩ := hlast
  refine ⟨⟨List.ne_nil_of_mem hml, (hf ml hml).1, fun m hm => (hf m hm).2.1, fun m hmD => ?_, fun m hm => (hf m hm).2.2.1,
    fun m hmD => h.noSelf _ (hm m hmD), fun m hmD => h.below _ (hm m hmD), ml, hml, Or.inr hl⟩,
    fun m hm => (hf m hm).2.2.2.1, fun m hm => (hf m hm).2.2.2.2, ?_⟩
  · obtain ⟨b1, b2⟩ := h.below _ (hm m hmD)
    have := h.small
    obtain ⟨-, ⟨r1, r2⟩, -⟩ := hf m hmD
    simp only at b1 b2
    refine ⟨by omega, by omega, by omega, by omega⟩
  · rw [firstWins_filter _ fun a b e => ?_, firstWins_of_pairwise ?_]
    · exact hch
    · have : ((D.filter fun m => m.p1 + 1 == m.p2).map (fun m => m.p1)).Nodup := by
        rw [hch]
        exact List.nodup_range
      rw [List.Nodup, List.pairwise_map] at this
      refine this.imp fun {a b} hab e => hab ?_
      rw [sameEnds_iff] at e
      exact e.2.1
    · rw [sameEnds_iff] at e
      rw [e.2.1, e.2.2.2]

/-- A pose-graph file is read as the dataset it describes. -/
theorem read_graph (h : GraphFile d n es text) :
    ∃ D, G2o.readG2o (some text) = ok (D, n) ∧ Dataset d n D ∧ List.Forall₂ Says (es.filter Entry.isEdge) D := by
  obtain ⟨ls, hf, hw⟩ := h.written
  have hu : ∀ e ∈ es, Usable e := fun e he => usable_of (h.informed e he) fun p hp => by
    have := h.below p (List.mem_filterMap.2 ⟨e, he, hp⟩)
    have := h.small
    omega
  obtain ⟨D, n', e, hs, hn, -⟩ := Props.C58_wellformed_partial hf hw hu
  have hD := dataset_of h hs
  have hn' := hn hD.nonempty
  have : n' = n := by
    obtain ⟨a, m, hm, b⟩ := hn'
    obtain ⟨a', m', hm', b'⟩ := hD.num
    have := a m' hm'
    have := a' m hm
    omega
  subst this
  exact ⟨D, e, hD, hs⟩

theorem linked_dataset {D : List (Meas ℝ)} (h : Dataset d n D) : ∀ i < n, Linked D i := by
  intro i
  induction i with
  | zero => exact fun _ => Linked.zero
  | succ i ih =>
    intro hi
    obtain ⟨m, hm, e1, e2, -⟩ := chain_edge h hi
    have := Linked.fwd (mem_of_firstWins hm) (by rw [e1]; exact ih (by omega))
    rwa [e2] at this

end

/-- The robust example does not reweigh the edges between consecutive poses. -/
theorem gnc_consecutive {es : List Entry} {D ms' : List (Meas ℝ)} {so : SolverOracles} {T : PArr ℝ}
    (hs : List.Forall₂ Says es D) (e : gncProgram so D = ok (T, ms')) :
    ∀ m ∈ ms', m.p1 + 1 = m.p2 → m.weight = 1 := by
  unfold gncProgram at e
  obtain ⟨-, -, e⟩ := bind_eq_ok.1 e
  obtain ⟨g, -, e⟩ := bind_eq_ok.1 e
  obtain ⟨P, -, e⟩ := bind_eq_ok.1 e
  have hw := Props.C27_solver_partial e
  intro m' hm' hc
  obtain ⟨i, hi, rfl⟩ := List.mem_iff_getElem.1 hm'
  have hl := hw.length_eq
  have hl' := hs.length_eq
  have hi' : i < D.length := by omega
  have a := (List.forall₂_iff_get.1 hw).2 i hi' hi
  have b := (List.forall₂_iff_get.1 hs).2 i (by omega) hi'
  simp only [List.get_eq_getElem] at a b
  refine a.2.1 ?_
  have c := a.1
  unfold SameButWeight at c
  have c1 := congrArg Meas.p1 c
  have c2 := congrArg Meas.p2 c
  simp only at c1 c2
  rw [c1, c2] at hc
  obtain ⟨x, hx⟩ : ∃ x, x = es[i]'(by omega) := ⟨_, rfl⟩
  rw [← hx] at b
  cases x with
  | vertex => exact b.elim
  | edge2 p q v =>
    obtain ⟨-, -, e1, e2, -, -, -, -, -, -, -, -, hfix, -⟩ := b
    exact hfix.2 (by omega)
  | edge3 p q v =>
    obtain ⟨-, -, e1, e2, -, -, -, -, -, -, -, -, hfix, -⟩ := b
    exact hfix.2 (by omega)

/-! ### The number of robots -/

theorem span_digits : ∀ {w : Str}, (∀ c ∈ w, c.isDigit = true) → ∀ {rest : Str},
    (∀ c t, rest = c :: t → c.isDigit = false) → ((w ++ rest).span Char.isDigit).1 = w := by
  intro w hw rest hr
  rw [List.span_eq_takeWhile_dropWhile]
  induction w with
  | nil =>
    cases rest with
    | nil => rfl
    | cons c t => simp [hr c t rfl]
  | cons c w ih =>
    have hc := hw c (by simp)
    simp only [List.cons_append, List.takeWhile_cons, hc, if_true]
    exact congrArg (c :: ·) (ih fun x hx => hw x (List.mem_cons_of_mem _ hx))

theorem digit_class {c : Char} (h : c.isDigit = true) : isSpace c = false ∧ c ≠ '-' ∧ c ≠ '+' := by
  refine ⟨?_, by rintro rfl; exact absurd h (by decide), by rintro rfl; exact absurd h (by decide)⟩
  have h1 : 48 ≤ c.toNat := by
    simp only [Char.isDigit, Bool.and_eq_true, decide_eq_true_eq] at h
    exact h.1
  have h2 : c ≠ ' ' := by rintro rfl; exact absurd h (by decide)
  simp only [isSpace, beq_eq_false_iff_ne.2 h2, Bool.false_or, Bool.and_eq_false_iff, decide_eq_false_iff_not]
  right
  omega

theorem sign_digits {w : Str} (h0 : w ≠ []) (hw : ∀ c ∈ w, c.isDigit = true) (rest : Str) :
    sign ((w ++ rest).dropWhile isSpace) = (false, w ++ rest) := by
  cases w with
  | nil => exact absurd rfl h0
  | cons c w =>
    obtain ⟨h1, h2, h3⟩ := digit_class (hw c (by simp))
    rw [List.cons_append, List.dropWhile_cons_of_neg (by simp [h1])]
    unfold sign
    split
    · simp_all
    · simp_all
    · rfl

/-- Digits, possibly followed by something else. -/
theorem atoi_digits {w rest : Str} {N : Nat} (h : IndexText N w) (hr : ∀ c t, rest = c :: t → c.isDigit = false)
    (hN : N < 2 ^ 31) : atoi (w ++ rest) = ok (N : Int) := by
  obtain ⟨h0, hw, hv⟩ := h
  unfold atoi
  simp only [sign_digits h0 hw, span_digits hw hr, natOf_eq, hv, Bool.false_eq_true, if_false]
  rw [if_pos]
  constructor <;> omega

/-- A minus sign and digits. -/
theorem atoi_negative {w : Str} {N : Nat} (h : IndexText N w) (hN : N ≤ 2 ^ 31) : atoi ('-' :: w) = ok (-(N : Int)) := by
  obtain ⟨h0, hw, hv⟩ := h
  have e : sign (List.dropWhile isSpace ('-' :: w)) = (true, w) := by
    rw [List.dropWhile_cons_of_neg (by decide)]
    rfl
  have e' := span_digits hw (rest := []) (by simp)
  rw [List.append_nil] at e'
  unfold atoi
  simp only [e, e', natOf_eq, hv, if_true]
  rw [if_pos]
  constructor <;> omega

/-- A number that is not an `int`. -/
theorem atoi_large {w rest : Str} {N : Nat} (h : IndexText N w) (hr : ∀ c t, rest = c :: t → c.isDigit = false)
    (hN : 2 ^ 31 ≤ N) : atoi (w ++ rest) = ub := by
  obtain ⟨h0, hw, hv⟩ := h
  unfold atoi
  simp only [sign_digits h0 hw, span_digits hw hr, natOf_eq, hv, Bool.false_eq_true, if_false]
  rw [if_neg]
  omega

/-- A plus sign before digits. -/
theorem atoi_plus {w rest : Str} {N : Nat} (h : IndexText N w) :
    atoi ('+' :: (w ++ rest)) = atoi (w ++ rest) := by
  obtain ⟨h0, hw, -⟩ := h
  have e : sign (List.dropWhile isSpace ('+' :: (w ++ rest))) = (false, w ++ rest) := by
    rw [List.dropWhile_cons_of_neg (by decide)]
    rfl
  unfold atoi
  simp only [sign_digits h0 hw, e]

/-- A blank before anything. -/
theorem atoi_blank {c : Char} {t : Str} (h : isSpace c = true) : atoi (c :: t) = atoi t := by
  unfold atoi
  rw [List.dropWhile_cons_of_pos h]

/-- A word that begins with neither blank, sign nor digit. -/
theorem atoi_word {c : Char} {t : Str} (h1 : isSpace c = false) (h2 : c.isDigit = false) (h3 : c ≠ '-') (h4 : c ≠ '+') :
    atoi (c :: t) = ok 0 := by
  unfold atoi
  rw [List.dropWhile_cons_of_neg (by simp [h1])]
  have : sign (c :: t) = (false, c :: t) := by
    unfold sign
    split
    · simp_all
    · simp_all
    · rfl
  simp only [this, List.span_eq_takeWhile_dropWhile, List.takeWhile_cons, h2, Bool.false_eq_true, if_false]
  have : natOf [] = 0 := rfl
  rw [this]
  norm_num

/-! ### Files without measurements -/

theorem single_nil (o : AgentOracles) : singleProgram o [] = abort := by
  obtain ⟨a, e1, ha, -⟩ := new_total (o := o) (p := AgentParams.default 0 0) le_rfl 0
  have e2 : a.setMeasurements [] [] [] = ok a := by
    unfold Agent.setMeasurements
    rw [ha.running, ha.state]
    rfl
  have e3 : a.init o none = ok { a with running := false } := by
    unfold Agent.init
    rw [if_neg (by rw [ha.state]; simp)]
    exact if_pos ha.empty
  have e4 : Agent.localPoseGraphOptimization o { a with running := false } = abort := by
    unfold Agent.localPoseGraphOptimization
    rw [newcomer_local e1]
    rfl
  have e5 : ∃ g, centralGraph [] = ok g := ⟨_, rfl⟩
  obtain ⟨g, e5⟩ := e5
  have ed : dimensionOf [] = 0 := rfl
  unfold singleProgram
  simp only [ed, e5, e1, e2, e3, e4, ok_bind, List.foldl_nil]
  rfl

theorem demo_nil (o : AgentOracles) (oc : OptOracles) (q : Options) (junk : Nat → Nat → ℝ) {N : Int} (hN : 0 < N) :
    demo o oc q junk N 1 [] = abort := by
  obtain ⟨k, rfl⟩ : ∃ k : Nat, N = ((k + 1 : Nat) : Int) := ⟨N.toNat - 1, by omega⟩
  have ed : dimensionOf [] = 0 := rfl
  obtain ⟨g, e1⟩ : ∃ g : PoseGraph ℝ, PoseGraph.new 0 q.r 0 = ok g := by
    unfold PoseGraph.new
    rw [decide_eq_true (Nat.zero_le _), check_true]
    exact ⟨_, rfl⟩
  have e2 : g.setMeasurements [] = ok g.empty := rfl
  have hd : ¬ ((k + 1 : Nat) : Int) ≤ 0 := by omega
  cases k with
  | succ k =>
    have e3 : partition (K := ℝ) ((k + 1 + 1 : Nat) : Int) 1 [] = abort := by
      unfold partition
      rw [if_neg hd]
      have : perRobot (k + 1 + 1) 1 = 0 := by
        rw [perRobot_eq (by norm_num)]
        exact Nat.div_eq_of_lt (by omega)
      simp only [Int.toNat_natCast, this, le_refl, if_true]
    unfold demo demoLoop demoStart
    simp only [ed, e1, e2, e3, ok_bind, abort_bind]
  | zero =>
    obtain ⟨M, s, e3, h1, h2, h3⟩ : ∃ M s, partition (K := ℝ) ((0 + 1 : Nat) : Int) 1 [] = ok (M, s) ∧
        s.odometry = [[]] ∧ s.privateLcs = [[]] ∧ s.sharedLcs = [[]] := ⟨_, _, rfl, rfl, rfl, rfl⟩
    obtain ⟨a, e4, ha, -⟩ := new_total (o := o) (p := agentParams q 0 1) (Nat.zero_le _) 0
    have e5 : a.setMeasurements [] [] [] = ok a := by
      unfold Agent.setMeasurements
      rw [ha.running, ha.state]
      rfl
    have e6 : a.init o none = ok { a with running := false } := by
      unfold Agent.init
      rw [if_neg (by rw [ha.state]; simp)]
      exact if_pos ha.empty
    have e7 : Res.foldl (createAgent o q 0 1 s) [] (List.range 1) = ok [{ a with running := false }] := by
      have : createAgent o q 0 1 s [] 0 = ok [{ a with running := false }] := by
        unfold createAgent at!
        simp only [e4, h1, h2, h3, ok_bind, List.getElem?_cons_zero]
        rw [if_neg (by omega)]
        simp only [ok_bind, e5, e6]
        rfl
      change (createAgent o q 0 1 s [] 0 >>= fun v => Res.foldl (createAgent o q 0 1 s) v []) = _
      rw [this]
      rfl
    have e8 : liftedGuess o q 0 [] = abort := rfl
    unfold demo demoLoop demoStart setupAgents
    simp only [ed, e1, e2, e3, ok_bind]
    have : ((0 + 1 : Nat) : Int).toNat = 1 := rfl
    simp only [this, e7, e8, ok_bind, abort_bind]

end Dpgo.Example
