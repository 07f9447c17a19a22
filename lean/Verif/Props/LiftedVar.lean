import Verif.Lemmas.LiftedVar

/-!
# C78: optimisation variables hold poses by value
-/

namespace Dpgo.Props

open Res Spec

/-- **C78** (statements).  Unless a variable is assigned to itself, a program's variables behave like values:
every sequence of constructions, copies, assignments, writes and destructions has the outcome that it has on
sequences of poses, and if it succeeds, a variable called `x` exists exactly if there is a value called `x`. -/
theorem C78_values_partial {ops : List VOp} (hops : ∀ op ∈ ops, NotSelf op) :
    match valueRun (fun _ => none) ops with
    | ok A => ∃ w, VWorld.empty.run ops = ok w ∧ ∀ x, w.vars x = none ↔ A x = none
    | abort => VWorld.empty.run ops = abort
    | throws => VWorld.empty.run ops = throws
    | ub => VWorld.empty.run ops = ub
    | nonfinite => VWorld.empty.run ops = nonfinite := by
  have h := Rep.empty.run hops
  cases hA : valueRun (fun _ => none) ops with
  | ok A =>
    rw [hA] at h
    obtain ⟨w, e, h⟩ := h
    exact ⟨w, e, h.names⟩
  | abort => rw [hA] at h; exact h
  | throws => rw [hA] at h; exact h
  | ub => rw [hA] at h; exact h
  | nonfinite => rw [hA] at h; exact h

variable {ops : List VOp} {w : VWorld} {A : Values} {x : Nat} {v : SEVar} {S : PoseSeq}

/-- The variables represent the values. -/
private theorem rep_of (hops : ∀ op ∈ ops, NotSelf op) (hA : valueRun (fun _ => none) ops = ok A)
    (hw : VWorld.empty.run ops = ok w) : Rep w A := by
  have h := Rep.empty.run hops
  rw [hA] at h
  obtain ⟨w', e, h⟩ := h
  rw [hw] at e
  cases e
  exact h

/-- **C78** (reading everything).  `getData` returns the poses side by side. -/
theorem C78_data_partial (hops : ∀ op ∈ ops, NotSelf op) (hA : valueRun (fun _ => none) ops = ok A)
    (hw : VWorld.empty.run ops = ok w) (hS : A x = some S) (hv : w.vars x = some v) :
    v.r = S.r ∧ v.d = S.d ∧ v.n = S.n ∧
    ∃ M, v.getData w.mem = ok M ∧ M.rows = S.r ∧ M.cols = (S.d + 1) * S.n ∧
      ∀ k < S.n, ∀ i < S.r, ∀ j < S.d + 1, M.v i (k * (S.d + 1) + j) = S.entry k i j := by
  have h := (rep_of hops hA hw).holds x v S hv hS
  exact ⟨h.r, h.d, h.n, h.getData⟩

/-- Reading columns of a pose. -/
private theorem read_part {m : Mem} (h : HoldsAll m v S) {k o cols : Nat} (hk : k < S.n) (ho : o + cols ≤ S.d + 1) :
    ∃ M, View.read m ⟨v.buf, v.r * (k * (v.d + 1) + o), v.r, cols⟩ = ok M ∧ M.rows = S.r ∧ M.cols = cols ∧
      ∀ i < S.r, ∀ j < cols, M.v i j = S.entry k i (o + j) := by
  rw [h.r, h.d]
  refine View.read_ok h.live ?_ fun i hi c hc => ?_
  · rw [h.len]
    refine Nat.mul_le_mul_left _ ?_
    have : (S.d + 1) * (k + 1) ≤ (S.d + 1) * S.n := Nat.mul_le_mul_left _ hk
    rw [Nat.mul_add, Nat.mul_comm] at this
    omega
  · rw [Nat.add_assoc, h.cell i hi _ (col_lt hk (by omega)), (col_div (by omega)).1, (col_div (by omega)).2]

/-- **C78** (reading one pose).  `pose`, `rotation` and `translation` return the pose, its first `d` columns and
its last column; for a pose that does not exist they abort. -/
theorem C78_parts_partial (hops : ∀ op ∈ ops, NotSelf op) (hA : valueRun (fun _ => none) ops = ok A)
    (hw : VWorld.empty.run ops = ok w) (hS : A x = some S) (hv : w.vars x = some v) (k : Nat) :
    (k < S.n →
      (∃ M, (v.pose k >>= View.read w.mem) = ok M ∧ M.rows = S.r ∧ M.cols = S.d + 1 ∧
        ∀ i < S.r, ∀ j < S.d + 1, M.v i j = S.entry k i j) ∧
      (∃ M, (v.rotation k >>= View.read w.mem) = ok M ∧ M.rows = S.r ∧ M.cols = S.d ∧
        ∀ i < S.r, ∀ j < S.d, M.v i j = S.entry k i j) ∧
      (∃ M, (v.translation k >>= View.read w.mem) = ok M ∧ M.rows = S.r ∧ M.cols = 1 ∧
        ∀ i < S.r, M.v i 0 = S.entry k i S.d)) ∧
    (S.n ≤ k → v.pose k = abort ∧ v.rotation k = abort ∧ v.translation k = abort) := by
  have h := (rep_of hops hA hw).holds x v S hv hS
  refine ⟨fun hk => ⟨?_, ?_, ?_⟩, fun hk => ?_⟩
  · obtain ⟨M, e, h1, h2, h3⟩ := read_part h (o := 0) (cols := S.d + 1) hk (by omega)
    refine ⟨M, ?_, h1, h2, fun i hi j hj => by rw [h3 i hi j hj, Nat.zero_add]⟩
    unfold SEVar.pose
    rw [h.n, decide_eq_true hk, check_true, ok_bind, ok_bind, ← e, h.d]
    rfl
  · obtain ⟨M, e, h1, h2, h3⟩ := read_part h (o := 0) (cols := S.d) hk (by omega)
    refine ⟨M, ?_, h1, h2, fun i hi j hj => by rw [h3 i hi j hj, Nat.zero_add]⟩
    unfold SEVar.rotation
    rw [h.n, decide_eq_true hk, check_true, ok_bind, ok_bind, ← e, h.d]
    rfl
  · obtain ⟨M, e, h1, h2, h3⟩ := read_part h (o := S.d) (cols := 1) hk (by omega)
    refine ⟨M, ?_, h1, h2, fun i hi => by rw [h3 i hi 0 (by omega), Nat.add_zero]⟩
    unfold SEVar.translation
    rw [h.n, decide_eq_true hk, check_true, ok_bind, ok_bind, ← e, h.d]
  · unfold SEVar.pose SEVar.rotation SEVar.translation
    rw [h.n, decide_eq_false (by omega)]
    exact ⟨rfl, rfl, rfl⟩

/-- **C78** (memory).  Every buffer that is alive belongs to exactly one variable: nothing is shared or lost. -/
theorem C78_memory_partial (hops : ∀ op ∈ ops, NotSelf op) (hA : valueRun (fun _ => none) ops = ok A)
    (hw : VWorld.empty.run ops = ok w) :
    (∀ b, w.mem.live b = true → ∃! x, ∃ v, w.vars x = some v ∧ v.buf = b) ∧
    ∀ x v, w.vars x = some v → w.mem.live v.buf = true ∧ w.mem.len v.buf = v.r * ((v.d + 1) * v.n) := by
  have h := rep_of hops hA hw
  refine ⟨fun b hb => ?_, fun x v hv => ?_⟩
  · obtain ⟨x, v, hv, e⟩ := h.owned b hb
    exact ⟨x, ⟨v, hv, e⟩, fun y ⟨u, hu, e'⟩ => h.inj y x u v hu hv (e'.trans e.symm)⟩
  · cases hx : A x with
    | none => rw [(h.names x).2 hx] at hv; cases hv
    | some S =>
      have hS := h.holds x v S hv hx
      exact ⟨hS.live, by rw [hS.len, hS.r, hS.d, hS.n]⟩

/-- **C78** (violated: self-assignment).  Assigning a variable to itself reads numbers that were never written,
unless the variable has none. -/
theorem C78_self (hops : ∀ op ∈ ops, NotSelf op) (hA : valueRun (fun _ => none) ops = ok A)
    (hw : VWorld.empty.run ops = ok w) (hS : A x = some S) (hn : 0 < S.n) (hr : 0 < S.r) :
    VWorld.empty.run (ops ++ [.assign x x]) = ub ∧
    ∃ A', valueRun (fun _ => none) (ops ++ [.assign x x]) = ok A' ∧ A' = A := by
  have h := rep_of hops hA hw
  obtain ⟨v, hv, ev, hh⟩ := h.get hS
  refine ⟨?_, A, ?_, rfl⟩
  · unfold VWorld.run at hw ⊢
    rw [foldl_append, hw]
    simp only [ok_bind', foldl_cons, foldl_nil, VWorld.step]
    have hvn : v.buf ≠ w.mem.next := (h.fresh _ hh.live).ne
    unfold VWorld.assign
    rw [ev]
    simp only [ok_bind, Mem.free]
    have hl : (w.mem.alloc (v.r * ((v.d + 1) * v.n))).live v.buf = true := by
      show (if v.buf = w.mem.next then true else w.mem.live v.buf) = true
      rw [if_neg hvn]
      exact hh.live
    rw [hl]
    simp only [require_true, ok_bind, VWorld.get, VWorld.bind, if_true, SEVar.getData, SEVar.all, View.read]
    have hpos : 0 < v.r * ((v.d + 1) * v.n) := by
      rw [hh.r, hh.n]
      exact Nat.mul_pos hr (Nat.mul_pos (Nat.succ_pos _) hn)
    have hall : ∀ c : Nat → Option ℝ, c 0 = none →
        ((List.range (v.r * ((v.d + 1) * v.n))).all fun k => (c (0 + k)).isSome) = false := by
      intro c hc
      rw [List.all_eq_false]
      exact ⟨0, List.mem_range.2 hpos, by simp [hc]⟩
    rw [hall _ (by simp [Mem.alloc])]
    cases View.valid _ _ <;> rfl
  · unfold valueRun at hA ⊢
    rw [foldl_append, hA]
    simp only [ok_bind', foldl_cons, foldl_nil, valueStep, Values.modify, Values.value, hS, ok_bind]
    congr 1
    funext y
    unfold Values.put
    split
    · next hy => rw [hy]; exact hS.symm
    · rfl

/-- **C78** (limit: references).  A reference obtained before an assignment to the variable must not be used
afterwards: it points to the released buffer. -/
theorem C78_dangling (hv : w.vars x = some v) {y : Nat} {w' : VWorld} (e : w.step (.assign x y) = ok w') {k : Nat}
    {p : View} (hp : v.pose k = ok p ∨ v.rotation k = ok p ∨ v.translation k = ok p) (B : DMat ℝ) :
    p.write w'.mem B = ub ∧ p.read w'.mem = ub := by
  have hb : p.buf = v.buf := by
    rcases hp with hp | hp | hp
    · simp only [SEVar.pose, bind_eq_ok] at hp
      obtain ⟨_, -, hp⟩ := hp
      cases hp; rfl
    · simp only [SEVar.rotation, bind_eq_ok] at hp
      obtain ⟨_, -, hp⟩ := hp
      cases hp; rfl
    · simp only [SEVar.translation, bind_eq_ok] at hp
      obtain ⟨_, -, hp⟩ := hp
      cases hp; rfl
  have hl : w'.mem.live v.buf = false := by
    simp only [VWorld.step, VWorld.assign, bind_eq_ok] at e
    obtain ⟨v0, h0, u, -, m1, f1, u', -, X, -, m2, f2, e⟩ := e
    simp only [VWorld.get, hv] at h0
    cases h0
    cases e
    simp only [Mem.free, bind_eq_ok] at f1
    obtain ⟨_, -, f1⟩ := f1
    simp only [SEVar.setData, View.write, bind_eq_ok] at f2
    obtain ⟨_, -, _, -, _, -, _, -, f2⟩ := f2
    have f1 := Res.ok.inj f1
    have f2 := Res.ok.inj f2
    show m2.live v.buf = false
    rw [← f2]
    show m1.live v.buf = false
    rw [← f1]
    show (if v.buf = v.buf then false else _) = false
    rw [if_pos rfl]
  have hvd : p.valid w'.mem = false := by simp [View.valid, hb, hl]
  unfold View.write View.read
  rw [hvd]
  exact ⟨rfl, rfl⟩

/-- A program: `y` is a copy of `x`; both are changed afterwards, and `x` is assigned to a third variable. -/
def exCopies : List VOp :=
  [.make 0 3 2 2, .setTranslation 0 1 ⟨3, 1, fun i _ => i⟩, .copy 1 0, .setData 0 ⟨3, 6, fun i j => i + 10 * j⟩,
    .setRotation 1 0 ⟨3, 2, fun _ _ => 5⟩, .make 2 2 2 1, .assign 2 0, .setPose 0 1 ⟨3, 3, fun _ _ => 8⟩, .drop 0]

/-- What it leaves. -/
theorem exCopies_values : ∃ A, valueRun (fun _ => none) exCopies = ok A ∧ A 0 = none ∧ ∃ S T, A 1 = some S ∧
    A 2 = some T ∧ S.r = 3 ∧ S.d = 2 ∧ S.n = 2 ∧ T.r = 3 ∧ T.d = 2 ∧ T.n = 2 ∧
    S.entry 0 1 1 = 5 ∧ S.entry 1 1 1 = 1 ∧ S.entry 1 2 2 = 2 ∧ T.entry 1 2 2 = 52 := by
  norm_num [exCopies, valueRun, Res.foldl_cons, valueStep, Values.declare, Values.modify, Values.value, Values.put,
      PoseSeq.fresh, PoseSeq.take, PoseSeq.replace, PoseSeq.start, PoseSeq.ofData]

/-- `C78_values_partial`, `C78_data_partial`, `C78_parts_partial`, `C78_memory_partial`, `C78_self`: the program
above meets the hypotheses, with two variables left. -/
example : (∀ op ∈ exCopies, NotSelf op) ∧ ∃ A w S v, valueRun (fun _ => none) exCopies = ok A ∧
    VWorld.empty.run exCopies = ok w ∧ A 1 = some S ∧ w.vars 1 = some v ∧ 0 < S.n ∧ 0 < S.r := by
  have hops : ∀ op ∈ exCopies, NotSelf op := by simp [exCopies, NotSelf]
  obtain ⟨A, hA, -, S, T, hS, -, h1, -, h2, -⟩ := exCopies_values
  have h := C78_values_partial hops
  rw [hA] at h
  obtain ⟨w, hw, hn⟩ := h
  cases hv : w.vars 1 with
  | none => rw [(hn 1).1 hv] at hS; cases hS
  | some v => exact ⟨hops, A, w, S, v, hA, hw, hS, hv, by omega, by omega⟩

/-- `C78_values_partial`: a matrix of the wrong size aborts, an assignment of the wrong size through a reference
is undefined. -/
example : valueRun (fun _ => none) [.make 0 3 2 2, .setData 0 ⟨3, 5, fun _ _ => 0⟩] = abort ∧
    valueRun (fun _ => none) [.make 0 3 2 2, .setPose 0 1 ⟨3, 2, fun _ _ => 0⟩] = ub ∧
    valueRun (fun _ => none) [.make 0 3 2 2, .setPose 0 2 ⟨3, 3, fun _ _ => 0⟩] = abort := by
  norm_num [valueRun, Res.foldl_cons, valueStep, Values.declare, Values.modify, Values.put, PoseSeq.fresh,
    PoseSeq.take, PoseSeq.replace, PoseSeq.start, Res.bind]

/-- `C78_dangling`: a reference to a pose of a variable that is then assigned. -/
example : ∃ (w w' : VWorld) (v : SEVar) (p : View), w.vars 0 = some v ∧ w.step (.assign 0 1) = ok w' ∧ v.pose 1 = ok p := by
  have hops : ∀ op ∈ [VOp.make 0 3 2 2, .make 1 3 2 1], NotSelf op := by simp [NotSelf]
  have hA : ∃ A, valueRun (fun _ => none) [VOp.make 0 3 2 2, .make 1 3 2 1] = ok A ∧
      A 0 = some (.start 3 2 2) ∧ A 1 = some (.start 3 2 1) := by
    norm_num [valueRun, Res.foldl_cons, valueStep, Values.declare, Values.put, PoseSeq.fresh]
  obtain ⟨A, hA, h0, h1⟩ := hA
  have h := Rep.empty.run hops
  rw [hA] at h
  obtain ⟨w, hw, h⟩ := h
  obtain ⟨v, hv, -, hS⟩ := h.get h0
  have hs := h.assign (x := 0) (y := 1) (by omega)
  have e : valueStep A (.assign 0 1) = ok (A.put 0 (some (.start 3 2 1))) := by
    simp [valueStep, Values.modify, Values.value, h0, h1]
  rw [e] at hs
  obtain ⟨w', e, -⟩ := hs
  have hp : v.pose 1 = ok ⟨v.buf, v.r * (1 * (v.d + 1)), v.r, v.d + 1⟩ := by
    unfold SEVar.pose
    rw [hS.n]
    rfl
  exact ⟨w, w', v, _, hv, e, hp⟩

/-- **C78** (violated).  There is a program whose self-assignment is undefined although it should do nothing. -/
theorem C78_violated : ∃ (ops : List VOp) (x : Nat) (A : Values), valueRun (fun _ => none) ops = ok A ∧
    valueRun (fun _ => none) (ops ++ [.assign x x]) = ok A ∧ VWorld.empty.run (ops ++ [.assign x x]) = ub := by
  have hops : ∀ op ∈ exCopies, NotSelf op := by simp [exCopies, NotSelf]
  obtain ⟨A, hA, -, S, T, hS, -, h1, -, h2, -⟩ := exCopies_values
  have h := C78_values_partial hops
  rw [hA] at h
  obtain ⟨w, hw, hn⟩ := h
  obtain ⟨e, A', e', rfl⟩ := C78_self hops hA hw hS (by omega) (by omega)
  exact ⟨exCopies, 1, A', hA, e', e⟩

end Dpgo.Props
