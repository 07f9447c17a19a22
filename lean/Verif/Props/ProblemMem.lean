import Verif.Lemmas.ProblemMem
import Verif.Props.Solver

/-!
# C85: the optimisation problem in memory
-/

namespace Dpgo.Props

open Res Spec
open scoped Matrix

section
variable {o : OptOracles} {p : OptParams} {g g' : PoseGraph ℝ} {m : Mem} {x i out e h : Nat} {Y : DMat ℝ} {f : ℝ}

/-- **C85.** Reading an element returns the matrix it holds; a matrix of the right shape that is written is what
is read afterwards, and nothing else changes. -/
theorem C85_elements {V : LVar g.r g.d g.n} (hx : Stores m x V) {M : DMat ℝ} (h1 : M.rows = g.r)
    (h2 : M.cols = (g.d + 1) * g.n) :
    (∃ N, g.readElement m x = ok N ∧ Is N V) ∧
    ∃ m' N, g.setElement m x M = ok m' ∧ Only x m m' ∧ g.readElement m' x = ok N ∧
      Is N (M.toMat g.r ((g.d + 1) * g.n)) := by
  refine ⟨?_, ?_⟩
  · obtain ⟨N, e, hN⟩ := hx.read
    refine ⟨N, ?_, hN⟩
    unfold PoseGraph.readElement
    rw [Nat.mul_comm g.n, e]
  · have hv : (g.elem x).valid m = true := by
      unfold View.valid PoseGraph.elem
      simp [hx.room.live, hx.room.len]
    have hs : g.r * (g.d + 1) * g.n ≤ M.rows * M.cols := by rw [h1, h2, Nat.mul_assoc]
    have hw : g.setElement m x M = ok { m with cell := fun b' k =>
        if b' = x ∧ k < g.r * (g.d + 1) * g.n then Option.some (M.v (k % M.rows) (k / M.rows)) else m.cell b' k } := by
      unfold PoseGraph.setElement
      rw [hv, require_true, ok_bind, decide_eq_true hs, require_true, ok_bind]
    have hst : Stores { m with cell := fun b' k =>
        if b' = x ∧ k < g.r * (g.d + 1) * g.n then Option.some (M.v (k % M.rows) (k / M.rows)) else m.cell b' k } x
        (M.toMat g.r ((g.d + 1) * g.n) : LVar g.r g.d g.n) := by
      refine ⟨⟨hx.room.live, hx.room.len⟩, fun a c => ?_⟩
      have hlt : g.r * c + a < g.r * (g.d + 1) * g.n := by
        have : g.r * (c + 1) ≤ g.r * ((g.d + 1) * g.n) := Nat.mul_le_mul_left _ c.2
        rw [Nat.mul_assoc]
        rw [Nat.mul_add, Nat.mul_one] at this
        omega
      have hr : 0 < g.r := Nat.lt_of_le_of_lt (Nat.zero_le _) a.2
      show (if x = x ∧ g.r * c + a < g.r * (g.d + 1) * g.n then
        Option.some (M.v ((g.r * c + a) % M.rows) ((g.r * c + a) / M.rows)) else m.cell x (g.r * c + a)) = _
      rw [if_pos ⟨rfl, hlt⟩, h1, Nat.mul_add_mod, Nat.mod_eq_of_lt a.2, Nat.mul_add_div hr,
        Nat.div_eq_of_lt a.2, Nat.add_zero]
      rfl
    obtain ⟨N, e, hN⟩ := hst.read
    refine ⟨_, N, hw, ⟨rfl, rfl, rfl, fun b hb => ?_⟩, ?_, hN⟩
    · funext k
      exact if_neg fun c => hb c.1
    · unfold PoseGraph.readElement
      rw [Nat.mul_comm g.n, e]

/-- **C85.** A `LiftedSEVector` returns what was stored in it, if it has a pose; one that nothing was stored in
reads unwritten memory, and one without poses asks for an element it does not have. -/
theorem C85_vectors (r d n : Nat) :
    (∀ m' M, (SEVec.make m r d n).1.setData (SEVec.make m r d n).2 M = ok m' →
      Only m.next (SEVec.make m r d n).2 m' ∧
      ∃ N, (SEVec.make m r d n).1.getData m' = ok N ∧ Is N (M.toMat r ((d + 1) * n))) ∧
    (0 < n → ∀ M : DMat ℝ, M.rows = r → M.cols = (d + 1) * n →
      ∃ m', (SEVec.make m r d n).1.setData (SEVec.make m r d n).2 M = ok m') ∧
    (0 < r → (SEVec.make m r d n).1.getData (SEVec.make m r d n).2 = ub) ∧
    (n = 0 → ∀ M, (SEVec.make m r d n).1.setData (SEVec.make m r d n).2 M = ub) := by
  obtain ⟨hg, hr, hc⟩ := SEVec.make_grown m r d n
  have hset : ∀ M : DMat ℝ, 0 < n → M.rows = r → M.cols = (d + 1) * n →
      ∃ m', (SEVec.make m r d n).1.setData (SEVec.make m r d n).2 M = ok m' ∧
        SameExcept m.next (SEVec.make m r d n).2 m' ∧ Stores m' m.next (M.toMat r ((d + 1) * n) : LVar r d n) := by
    intro M hn h1 h2
    obtain ⟨m', e, hs, hv⟩ := hr.write h1 h2
    refine ⟨m', ?_, hs, hv⟩
    unfold SEVec.setData
    have q : (SEVec.make m r d n).1 = ⟨r, d, n, m.next⟩ := rfl
    simp only [q, hn, decide_true, require_true, ok_bind, h1, h2, beq_self_eq_true, check_true]
    exact e
  refine ⟨fun m' M e => ?_, fun hn M h1 h2 => ?_, fun h0 => ?_, fun hn M => ?_⟩
  · have e' := e
    unfold SEVec.setData at e'
    rw [bind_eq_ok] at e'
    obtain ⟨_, a1, e'⟩ := e'
    rw [bind_eq_ok] at e'
    obtain ⟨_, a2, e'⟩ := e'
    rw [bind_eq_ok] at e'
    obtain ⟨_, a3, -⟩ := e'
    rw [require_eq_ok, decide_eq_true_iff] at a1
    rw [check_eq_ok, beq_iff_eq] at a2 a3
    obtain ⟨m1, e1, hs, hv⟩ := hset M a1 a2 a3
    rw [e] at e1
    cases e1
    obtain ⟨N, eN, hN⟩ := hv.read
    refine ⟨hs.only, N, ?_, hN⟩
    unfold SEVec.getData
    have a1' : 0 < n := a1
    have q : (SEVec.make m r d n).1 = ⟨r, d, n, m.next⟩ := rfl
    simp only [q, a1', decide_true, require_true, ok_bind]
    rw [Nat.mul_comm n, eN]
  · obtain ⟨m', e, -⟩ := hset M hn h1 h2
    exact ⟨m', e⟩
  · unfold SEVec.getData
    have q : (SEVec.make m r d n).1 = ⟨r, d, n, m.next⟩ := rfl
    simp only [q]
    rcases Nat.eq_zero_or_pos n with rfl | hn
    · rfl
    · simp only [hn, decide_true, require_true, ok_bind]
      rw [Nat.mul_comm n]
      exact hr.unwritten h0 hn (by rw [hc])
  · subst hn
    rfl

/-- **C85.** The objective of an element is the objective of the matrix in it: the same value, the same cached
matrices, or the same failure. -/
theorem C85_evaluate {X : LVar g.r g.d g.n} (hx : Stores m x X) :
    g.fElem m x = problemF g (DMat.ofMat X) := by
  obtain ⟨M, e, hM⟩ := hx.read
  unfold PoseGraph.fElem problemF
  rw [show (DMat.ofMat X).rows = g.r from rfl, show (DMat.ofMat X).cols = (g.d + 1) * g.n from rfl,
    beq_self_eq_true, beq_self_eq_true, check_true, ok_bind, ok_bind]
  cases hq : g.quadraticMatrix with
  | ok q =>
    obtain ⟨Q, g1⟩ := q
    have k1 : g1 = { g with Q := g1.Q } := by
      rcases PoseGraph.quadraticMatrix_ok hq with ⟨-, rfl⟩ | ⟨-, -, rfl⟩ <;> rfl
    simp only [ok_bind]
    cases hl : g1.linearMatrix with
    | ok q =>
      obtain ⟨G, g2⟩ := q
      have k2 : g2 = { g with Q := g1.Q, G := g2.G } := by
        rw [k1] at hl
        rcases PoseGraph.linearMatrix_ok hl with ⟨-, rfl⟩ | ⟨-, -, rfl⟩ <;> rfl
      simp only [ok_bind]
      have e' : (g2.elem x).read m = ok M := by rw [k2]; exact e
      rw [e', ok_bind]
      have hs : g2.sizesOk Q G = (Q.rows == (g.d + 1) * g.n && Q.cols == (g.d + 1) * g.n && G.rows == g.r &&
          G.cols == (g.d + 1) * g.n) := by rw [k2]; rfl
      rw [hs]
      cases hb : (Q.rows == (g.d + 1) * g.n && Q.cols == (g.d + 1) * g.n && G.rows == g.r &&
          G.cols == (g.d + 1) * g.n) with
      | false => rfl
      | true =>
        simp only [Bool.and_eq_true, beq_iff_eq] at hb
        simp only [require_true, ok_bind]
        rw [show 1 / 2 * (M.mul Q).dot M + M.dot G =
          1 / 2 * ((DMat.ofMat X).mul Q).dot (DMat.ofMat X) + (DMat.ofMat X).dot G from
          objective_is hM (Is.ofMat X) hb.1.1.2]
    | abort => rfl
    | throws => rfl
    | ub => rfl
    | nonfinite => rfl
  | abort => rfl
  | throws => rfl
  | ub => rfl
  | nonfinite => rfl

/-- **C85.** When the objective can be evaluated, `EucGrad` writes `X Q + G` and `EucHessianEta` writes `V Q` to the
given vector and change nothing else in memory, also if point or direction and result are one element. -/
theorem C85_gradient (ef : problemF g Y = ok (f, g')) {X V : LVar g.r g.d g.n} (hx : Stores m x X)
    (hv : Stores m i V) (he : Room m e g.r g.d g.n) (hh : Room m h g.r g.d g.n) :
    ∃ Q G, g'.Q = some Q ∧ g'.G = some G ∧
      (∃ m', g.eucGradElem m x e = ok (g', m') ∧ Only e m m' ∧
        Stores m' e (X * Q.toMat _ ((g.d + 1) * g.n) + G.toMat _ _ : LVar g.r g.d g.n)) ∧
      ∃ m', g.eucHessElem m i h = ok ({ g with Q := some Q }, m') ∧ Only h m m' ∧
        Stores m' h (V * Q.toMat _ ((g.d + 1) * g.n) : LVar g.r g.d g.n) := by
  obtain ⟨Q, G, ha, rfl, -⟩ := assembled_of ef
  obtain ⟨q1, q2, q3, q4⟩ := ha.dims
  refine ⟨Q, G, rfl, rfl, ?_, ?_⟩
  · obtain ⟨m', c, hs, hst⟩ := eucGradElem_ok ha hx he
    refine ⟨m', c, hs.only, ?_⟩
    have hE : ((eucGrad Q G (DMat.ofMat X)).toMat g.r ((g.d + 1) * g.n) : LVar g.r g.d g.n) =
        X * Q.toMat _ ((g.d + 1) * g.n) + G.toMat _ _ := by
      ext a b
      simp only [Matrix.add_apply, Matrix.mul_apply, DMat.toMat_apply]
      show (∑ k ∈ Finset.range ((g.d + 1) * g.n), (DMat.ofMat X).v a k * Q.v k b) + G.v a b = _
      rw [Finset.sum_range]
      congr 1
      refine Finset.sum_congr rfl fun k _ => ?_
      simp [DMat.ofMat]
    rw [← hE]
    exact hst
  · obtain ⟨N, c1, hN⟩ := hv.read
    obtain ⟨m', c2, hs, hst⟩ := hh.write (B := N.mul Q) hN.1 q2
    refine ⟨m', ?_, hs.only, ?_⟩
    · unfold PoseGraph.eucHessElem
      rw [ha.quadratic, ok_bind]
      simp only
      have c1' : (PoseGraph.elem { g with Q := some Q } i).read m = ok N := c1
      have c2' : (PoseGraph.elem { g with Q := some Q } h).write m (N.mul Q) = ok m' := c2
      rw [c1', ok_bind, q1, q2, beq_self_eq_true, Bool.and_self, require_true, ok_bind, c2', ok_bind]
    · have hE : ((N.mul Q).toMat g.r ((g.d + 1) * g.n) : LVar g.r g.d g.n) = V * Q.toMat _ ((g.d + 1) * g.n) := by
        ext a b
        simp only [Matrix.mul_apply, DMat.toMat_apply]
        show ∑ k ∈ Finset.range N.cols, N.v a k * Q.v k b = _
        rw [hN.2.1, Finset.sum_range]
        refine Finset.sum_congr rfl fun k _ => ?_
        have := congrFun (congrFun hN.2.2 a) k
        rw [DMat.toMat_apply] at this
        rw [this]
      rw [← hE]
      exact hst

/-- **C85** (preconditioner).  If there is a factorisation, or if the vector is preconditioned in place, the
preconditioner writes to the output what it returns on matrices, and changes nothing else in memory.  The point is
not the output. -/
theorem C85_precond_partial {Q : DMat ℝ} (hQ : g.Q = some Q) {X V W : LVar g.r g.d g.n}
    (ep : preConditioner o g X V = ok (W, g')) (hf : g'.precon ≠ none ∨ out = i) (hx : Stores m x X)
    (hv : Stores m i V) (ho : Room m out g.r g.d g.n) (hne : x ≠ out) :
    ∃ m', g.preconElem o m x i out = ok (g', m') ∧ Only out m m' ∧ Stores m' out W := by
  rcases hf with hf | rfl
  · obtain ⟨m', c, hs, hst⟩ := preconElem_ok hQ hx hv ho hne ep hf
    exact ⟨m', c, hs.only, hst⟩
  · obtain ⟨m', c, hs, hst⟩ := preconElem_same hQ hx hv hne ep
    exact ⟨m', c, hs.only, hst⟩

/-- **C85** is violated for the preconditioner: if the factorisation fails, `PreConditioner` projects an output
vector that nothing was written to. -/
theorem C85_unwritten {Q : DMat ℝ} (hQ : g.Q = some Q) (hP : g.precon = none)
    (hc : o.chol (PoseGraph.precondMatrix Q) = false) {X : LVar g.r g.d g.n} (hx : Stores m x X)
    (ho : Room m out g.r g.d g.n) (hr : 0 < g.r) (hn : 0 < g.n) (hu : m.cell out 0 = none) :
    g.preconElem o m x i out = ub := by
  have e0 : g.hasPreconditioner o.chol = ok (false, g) := by
    have eq : g.quadraticMatrix = ok (Q, g) := by
      unfold PoseGraph.quadraticMatrix
      split
      · rename_i Q' h'; rw [hQ] at h'; cases h'; rfl
      · rename_i h'; rw [hQ] at h'; cases h'
    unfold PoseGraph.hasPreconditioner
    rw [hP]
    simp only
    rw [eq, ok_bind]
    simp only [hc, Bool.false_eq_true, if_false]
  unfold PoseGraph.preconElem
  rw [e0, ok_bind]
  simp only [PoseGraph.applyFactor, ok_bind]
  obtain ⟨N, c, -⟩ := hx.read
  unfold PoseGraph.projElem PoseGraph.elem
  rw [c, ok_bind, ho.unwritten hr hn hu]
  rfl

/-- **C85.** A truthful factorisation succeeds on the matrices of measurements with non-negative weights and
precisions: for these the preconditioner never meets the violation. -/
theorem C85_factorised {id r d : Nat} (hg : Reachable id r d g)
    (hpos : ∀ m ∈ g.measurements, 0 ≤ m.weight ∧ 0 ≤ m.kappa ∧ 0 ≤ m.tau) {Q : DMat ℝ}
    (eQ : g.constructQ = ok (some Q)) (ht : ∀ P : DMat ℝ, Definite P → o.chol P = true) {X V W : LVar g.r g.d g.n}
    {G : DMat ℝ} (ep : preConditioner o { g with Q := some Q, G := some G } X V = ok (W, g')) : g'.precon ≠ none := by
  unfold preConditioner at ep
  rw [bind_eq_ok] at ep
  obtain ⟨⟨has, g1⟩, e0, ep⟩ := ep
  simp only [Res.ok.injEq, Prod.mk.injEq] at ep
  obtain ⟨-, rfl⟩ := ep
  rcases PoseGraph.hasPreconditioner_ok e0 with ⟨P, h1, rfl, -⟩ | ⟨Q1, g2, -, h2, -, h4⟩
  · rw [h1]
    exact Option.some_ne_none _
  · cases h2
    obtain ⟨c1, c2, -, c4⟩ := C13_definite id r d g hg hpos Q eQ
    have hP : Definite (PoseGraph.precondMatrix Q) := by
      refine ⟨c1, fun a b => ?_, c4⟩
      unfold PoseGraph.precondMatrix
      simp only [c2 a b]
      by_cases hab : a = b
      · rw [if_pos hab, if_pos hab.symm]
      · rw [if_neg hab, if_neg (Ne.symm hab)]
    rw [ht _ hP] at h4
    rw [h4]
    exact Option.some_ne_none _

/-- **C85.** `RieGrad` returns the projection of the Euclidean gradient and leaves the memory as it was: the same
elements exist and hold the same numbers. -/
theorem C85_riegrad (ef : problemF g Y = ok (f, g')) (hd : g.d ≤ g.r) (hn : 0 < g.n) (hm : Numbered m) :
    ∃ Q G M m', g'.Q = some Q ∧ g'.G = some G ∧ g.rieGradElem o m Y = ok (M, g', m') ∧
      Is M (o.proj g.r g.d g.n (Y.toMat _ _)
        (Y.toMat g.r ((g.d + 1) * g.n) * Q.toMat _ ((g.d + 1) * g.n) + G.toMat _ _ : LVar g.r g.d g.n)) ∧ Tidy m m' := by
  obtain ⟨Q, G, ha, rfl, -, h1, h2⟩ := assembled_of ef
  obtain ⟨M, m', c, hM, ht⟩ := rieGradElem_ok (o := o) hd hn ha hm h1 h2
  refine ⟨Q, G, M, m', rfl, rfl, c, ?_, ht⟩
  have hE : ((eucGrad Q G Y).toMat g.r ((g.d + 1) * g.n) : LVar g.r g.d g.n) =
      Y.toMat g.r ((g.d + 1) * g.n) * Q.toMat _ ((g.d + 1) * g.n) + G.toMat _ _ := by
    ext a b
    simp only [Matrix.add_apply, Matrix.mul_apply, DMat.toMat_apply]
    show (∑ k ∈ Finset.range Y.cols, Y.v a k * Q.v k b) + G.v a b = _
    rw [h2, Finset.sum_range]
  rw [← hE]
  exact hM

/-- **C85.** A matrix of other sizes stops `RieGrad` before it reads anything. -/
theorem C85_riegrad_sizes (hd : g.d ≤ g.r) (h : Y.rows ≠ g.r ∨ Y.cols ≠ (g.d + 1) * g.n) :
    g.rieGradElem o m Y = abort := by
  obtain ⟨m1, e1, -, -⟩ := SEVar.make_room (m := m) hd
  have e2 : SEVar.setData m1 ⟨g.r, g.d, g.n, m.next⟩ Y = abort := by
    unfold SEVar.setData
    by_cases h1 : Y.rows = g.r
    · have h2 := h.resolve_left (not_not.2 h1)
      simp [h1, h2, check]
    · simp [h1, check]
  unfold PoseGraph.rieGradElem
  rw [e1, ok_bind]
  simp only
  rw [e2]
  rfl

/-- **C85.** `gradientDescent` in memory returns what it returns on matrices, and leaves the memory as it was. -/
theorem C85_descent (ef : problemF g Y = ok (f, g')) (hd : g.d ≤ g.r) (hm : Numbered m) {Q G Z : DMat ℝ}
    {g'' : PoseGraph ℝ} (hQ : g'.Q = some Q) (hG : g'.G = some G)
    (e : gradientDescent o p g' Q G Y = ok (Z, g'')) :
    ∃ M m', g.descentElem o p m Y = ok (M, g'', m') ∧ Is M (Z.toMat g.r ((g.d + 1) * g.n)) ∧ Tidy m m' := by
  obtain ⟨Q', G', ha, rfl, -, h1, h2⟩ := assembled_of ef
  cases hQ
  cases hG
  exact descentElem_ok hd ha hm h1 h2 e

/-- **C85.** `optimize` in memory with the gradient method returns what it returns on matrices, with the same report,
and leaves the memory as it was. -/
theorem C85_optimize (hp : p.method = .RGD) (hd : g.d ≤ g.r) (hn : 0 < g.n) (hm : Numbered m) {Z : DMat ℝ}
    {res : OptResult} (e : optimize o p g Y = ok (Z, res, g')) :
    ∃ M m', g.optimizeElem o p m Y = ok (M, res, g', m') ∧ Is M (Z.toMat g.r ((g.d + 1) * g.n)) ∧ Tidy m m' :=
  optimizeElem_ok hd hn hm hp e

end

/-! ## Examples -/

/-- Three elements for `n` poses; nothing was written to the last. -/
noncomputable def exMem (r d n : Nat) : Mem where
  next := 3
  live b := decide (b < 3)
  len _ := r * ((d + 1) * n)
  cell b _ := if b < 2 then some 1 else none

theorem exMem_numbered (r d n : Nat) : Numbered (exMem r d n) := fun _ h => of_decide_eq_true h

theorem exMem_stores (r d n : Nat) {b : Nat} (hb : b < 2) :
    Stores (exMem r d n) b (fun _ _ => 1 : LVar r d n) :=
  ⟨⟨decide_eq_true (by omega), rfl⟩, fun _ _ => if_pos hb⟩

theorem exMem_room (r d n : Nat) : Room (exMem r d n) 2 r d n := ⟨rfl, rfl⟩

/-- Non-vacuity: on the graph of the square the objective can be evaluated and gradient descent returns, also with
the preconditioner; its factorisation is kept. -/
example : ∃ g g' g'' Z res f W, g.d ≤ g.r ∧ 0 < g.n ∧ problemF g exStart.X = ok (f, g') ∧
    optimize exOpt { OptParams.default with method := .RGD } g exStart.X = ok (Z, res, g'') ∧
    preConditioner exOpt g' (fun _ _ => 1) (fun _ _ => 1) = ok (W, g'') ∧ g''.precon ≠ none := by
  obtain ⟨g₀, g, -, -, hg⟩ := oneGraph exSquare_one le_rfl
  obtain ⟨v, g1, f⟩ := hg.problemF_total (by omega) (X := exStart.X) rfl rfl
  obtain ⟨Q, G, ha, rfl, -, h1, h2⟩ := assembled_of f
  have e1 := hg.team.r_eq
  have e2 := hg.team.d_eq
  have e3 := hg.n_eq
  have hhas : ∃ P, (fill g Q G).hasPreconditioner exOpt.chol = ok (true, { fill g Q G with precon := some P }) := by
    unfold PoseGraph.hasPreconditioner
    cases hP : (fill g Q G).precon with
    | some P => exact ⟨P, by simp only; rw [← hP]⟩
    | none => exact ⟨_, rfl⟩
  obtain ⟨P, hP⟩ := hhas
  have hopt : ∃ Z res, optimize exOpt { OptParams.default with method := .RGD } g exStart.X =
      ok (Z, res, { fill g Q G with precon := some P }) := by
    unfold optimize
    rw [f, ok_bind]
    simp only
    rw [show (fill g Q G).quadraticMatrix = ok (Q, fill g Q G) from rfl, ok_bind]
    simp only
    rw [show (fill g Q G).linearMatrix = ok (G, fill g Q G) from rfl, ok_bind]
    simp only [optimizeWith, gradientDescent, OptParams.default, if_true, preConditioner, hP, ok_bind]
    rw [problemF_fill ha rfl rfl, ok_bind]
    exact ⟨_, _, rfl⟩
  obtain ⟨Z, res, hZ⟩ := hopt
  refine ⟨g, fill g Q G, _, Z, res, v, exOpt.proj g.r g.d g.n (fun _ _ => 1)
    (exOpt.cholSolve g.r g.d g.n P fun _ _ => 1), by omega, by omega, f, hZ, ?_, Option.some_ne_none P⟩
  unfold preConditioner
  rw [hP, ok_bind]
  rfl

/-- A measurement with a negative precision. -/
noncomputable def exBent : Meas ℝ := { exSq 0 1 with tau := -1 }

theorem exBent_one : OneRobot 0 2 2 [exBent] := by
  refine ⟨by simp, Or.inl rfl, ?_, ?_, ?_, ?_, ?_, exBent, by simp, Or.inr rfl⟩ <;>
    · intro m hm
      rw [List.mem_singleton] at hm
      subst hm
      first
        | exact (exSquare_wf.2 (exSq 0 1) (by simp [exSquare])).1
        | norm_num [exBent, exSq, MeasWF, MeasDim]

open Classical in
/-- The violation is reached: with a truthful factorisation, a graph built from a measurement with a negative
precision, and a new vector as output. -/
example : ∃ (o : OptOracles) (g g' : PoseGraph ℝ) (f : ℝ), (∀ P, o.chol P = true ↔ Definite P) ∧
    Reachable 0 2 2 g ∧ problemF g (DMat.ofMat (fun _ _ => 1 : LVar 2 2 2)) = ok (f, g') ∧
    g'.preconElem o (exMem 2 2 2) 0 1 2 = ub := by
  obtain ⟨g₀, g, -, hset, hg⟩ := oneGraph exBent_one le_rfl
  obtain ⟨v, g1, f⟩ := hg.problemF_total (by omega) (X := DMat.ofMat (fun _ _ => 1 : LVar 2 2 2)) rfl rfl
  obtain ⟨Q, G, rfl, -, hr, hc, hQr, hQc, -, -, -, -, hcon, -⟩ := problemF_full f
  have e1 := hg.team.r_eq
  have e2 := hg.team.d_eq
  have e3 := hg.n_eq
  refine ⟨{ exOpt with chol := fun P => decide (Definite P) }, g, _, v, fun P => decide_eq_true_iff,
    hg.team.reach, f, ?_⟩
  have hnot : ¬ Definite (PoseGraph.precondMatrix Q) := by
    intro hD
    obtain ⟨⟨log, hi⟩, -⟩ := PoseGraph.Reachable.inv hg.team.reach
    obtain ⟨-, -, hq⟩ := hi.constructQ_ok (hcon hg.Q)
    have hl : g.localMeasurements = [exBent] := by
      have := hg.team.edges
      unfold PoseGraph.measurements at this
      rw [hg.noShared, List.append_nil] at this
      unfold PoseGraph.localMeasurements
      rw [this]
      simp [buckets, firstWins, touches, isOdo, isPriv, isShared, exBent, exSq]
    let x : Nat → ℝ := fun k => if k = 5 then 1 else 0
    have q6 : Q.rows = 6 := hQr
    have h1 := hq x
    rw [hl, hg.noShared, hg.team.priors, e2, q6] at h1
    have h2 := hD.pos ⟨1, 6, fun _ => x⟩ (by show 6 = Q.rows; rw [q6]) ⟨0, 5, by simp, by simp, by simp [x]⟩
    rw [dot_mul_qform _ _ (by show Q.cols = 6; exact hQc)] at h2
    simp [qform, Finset.sum_range_succ, x, edgeSq, edgeForm, exBent, exSq] at h1
    simp [qform, Finset.sum_range_succ, x, PoseGraph.precondMatrix] at h2
    linarith
  obtain ⟨r0, d0, n0⟩ : g.r = 2 ∧ g.d = 2 ∧ g.n = 2 := ⟨e1, e2, e3⟩
  have hx := exMem_stores g.r g.d g.n (b := 0) (by omega)
  have ho := exMem_room g.r g.d g.n
  have := C85_unwritten (g := fill g Q G) (o := { exOpt with chol := fun P => decide (Definite P) })
    (i := 1) rfl ?_ (decide_eq_false hnot) hx ho (show 0 < g.r by omega) (show 0 < g.n by omega) rfl
  · rw [r0, d0, n0] at this
    exact this
  · exact (PoseGraph.setMeasurements_caches hset).2.2.1

end Dpgo.Props
