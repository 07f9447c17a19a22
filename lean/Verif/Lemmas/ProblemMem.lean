import Verif.Spec.ProblemMem
import Verif.Lemmas.LiftedVar
import Verif.Lemmas.Optimizer

/-!
# Lemmas on the optimisation problem in memory
-/

namespace Dpgo

open Res Spec

section
variable {m m' m'' : Mem} {b b' r d n k : Nat}

theorem SameExcept.only (h : SameExcept b m m') : Only b m m' := ⟨h.next, h.live, h.len, h.cell⟩

theorem Spec.Room.keep (h : Room m b r d n) (h' : SameExcept b' m m') : Room m' b r d n :=
  ⟨by rw [h'.live]; exact h.live, by rw [h'.len]; exact h.len⟩

theorem Spec.Stores.keep {V : LVar r d n} (h : Stores m b V) (h' : SameExcept b' m m') (hb : b ≠ b') :
    Stores m' b V :=
  ⟨h.room.keep h', fun i j => by rw [h'.cell b hb]; exact h.cell i j⟩

theorem Is.ofMat (V : LVar r d n) : Is (DMat.ofMat V) V := by
  refine ⟨rfl, rfl, ?_⟩
  ext i j
  simp [DMat.ofMat]

/-- Reading an element. -/
theorem Spec.Stores.read {V : LVar r d n} (h : Stores m b V) :
    ∃ M, View.read m ⟨b, 0, r, (d + 1) * n⟩ = ok M ∧ Is M V := by
  obtain ⟨M, e, h1, h2, h3⟩ := View.read_ok (c0 := 0) (cols := (d + 1) * n) h.room.live
    (by rw [Nat.zero_add, h.room.len])
    (f := fun i c => if hb : i < r ∧ c < (d + 1) * n then V ⟨i, hb.1⟩ ⟨c, hb.2⟩ else 0)
    (fun i hi c hc => by
      rw [Nat.zero_add, dif_pos ⟨hi, hc⟩]
      exact h.cell ⟨i, hi⟩ ⟨c, hc⟩)
  refine ⟨M, by rw [Nat.mul_zero] at e; exact e, h1, h2, ?_⟩
  ext i j
  rw [DMat.toMat_apply, h3 i i.2 j j.2, dif_pos ⟨i.2, j.2⟩]

/-- Writing an element. -/
theorem Spec.Room.write (h : Room m b r d n) {B : DMat ℝ} (h1 : B.rows = r) (h2 : B.cols = (d + 1) * n) :
    ∃ m', View.write m ⟨b, 0, r, (d + 1) * n⟩ B = ok m' ∧ SameExcept b m m' ∧
      Stores m' b (B.toMat r ((d + 1) * n) : LVar r d n) := by
  obtain ⟨m', e, hs, hc⟩ := View.write_ok (c0 := 0) (cols := (d + 1) * n) h.live
    (by rw [Nat.zero_add, h.len]) h1 h2
  refine ⟨m', by rw [Nat.mul_zero] at e; exact e, hs, h.keep hs, fun i j => ?_⟩
  rw [hc i i.2, if_pos ⟨by omega, by rw [Nat.zero_add]; exact j.2⟩]
  rfl

theorem Spec.Room.writeMat (h : Room m b r d n) (V : LVar r d n) :
    ∃ m', View.write m ⟨b, 0, r, (d + 1) * n⟩ (DMat.ofMat V) = ok m' ∧ SameExcept b m m' ∧ Stores m' b V := by
  obtain ⟨m', e, hs, h'⟩ := h.write (B := DMat.ofMat V) rfl rfl
  rw [(Is.ofMat V).2.2] at h'
  exact ⟨m', e, hs, h'⟩

/-- Reading what was not written. -/
theorem Spec.Room.unwritten (_ : Room m b r d n) (hr : 0 < r) (hn : 0 < n)
    (hc : m.cell b 0 = none) : View.read m ⟨b, 0, r, (d + 1) * n⟩ = ub := by
  have hpos : 0 < r * ((d + 1) * n) := Nat.mul_pos hr (Nat.mul_pos (Nat.succ_pos _) hn)
  have hall : ((List.range (r * ((d + 1) * n))).all fun k => (m.cell b (0 + k)).isSome) = false := by
    rw [List.all_eq_false]
    exact ⟨0, List.mem_range.2 hpos, by simp [hc]⟩
  unfold View.read
  simp only
  rw [hall]
  cases View.valid _ _ <;> rfl

/-! ### Local objects -/

/-- `k` buffers were added and nothing else changed. -/
structure Added (k : Nat) (m m' : Mem) : Prop where
  next : m'.next = m.next + k
  live : ∀ b, m'.live b = if m.next ≤ b ∧ b < m.next + k then true else m.live b
  len : ∀ b < m.next, m'.len b = m.len b
  cell : ∀ b < m.next, m'.cell b = m.cell b

theorem Added.zero (m : Mem) : Added 0 m m :=
  ⟨rfl, fun b => by rw [if_neg (by omega)], fun _ _ => rfl, fun _ _ => rfl⟩

theorem Added.grow (h : Added k m m') (h' : Grown m' m'') : Added (k + 1) m m'' := by
  refine ⟨by rw [h'.next, h.next]; omega, fun b => ?_, fun b hb => ?_, fun b hb => ?_⟩
  · rw [h'.live, h.live, h.next]
    split_ifs <;> first | rfl | omega
  · rw [h'.len b (by rw [h.next]; omega), h.len b hb]
  · rw [h'.cell b (by rw [h.next]; omega), h.cell b hb]

theorem Added.write (h : Added k m m') (hb : m.next ≤ b) (h' : SameExcept b m' m'') : Added k m m'' := by
  refine ⟨h'.next.trans h.next, fun c => by rw [h'.live]; exact h.live c, fun c hc => ?_, fun c hc => ?_⟩
  · rw [h'.len]; exact h.len c hc
  · rw [h'.cell c (by omega)]; exact h.cell c hc

/-- A `LiftedSEVector` is constructed. -/
theorem SEVec.make_grown (m : Mem) (r d n : Nat) :
    Grown m (SEVec.make m r d n).2 ∧ Room (SEVec.make m r d n).2 m.next r d n ∧
      (SEVec.make m r d n).2.cell m.next = fun _ => none := by
  refine ⟨⟨rfl, fun b => rfl, fun b hb => ?_, fun b hb => ?_⟩, ⟨?_, ?_⟩, ?_⟩ <;>
    simp_all [SEVec.make, Mem.alloc]

theorem Mem.free_ok (h : m.live b = true) :
    m.free b = ok { m with live := fun b' => if b' = b then false else m.live b' } := by
  unfold Mem.free
  rw [h, require_true, ok_bind]

/-- Three local objects are destroyed. -/
theorem Added.release (h : Added 3 m m') (hm : Numbered m) :
    ∃ m1 m2 m3, m'.free (m.next + 2) = ok m1 ∧ m1.free (m.next + 1) = ok m2 ∧ m2.free m.next = ok m3 ∧
      Tidy m m3 := by
  have l0 : m'.live m.next = true := by rw [h.live, if_pos (by omega)]
  have l1 : m'.live (m.next + 1) = true := by rw [h.live, if_pos (by omega)]
  have l2 : m'.live (m.next + 2) = true := by rw [h.live, if_pos (by omega)]
  refine ⟨_, _, _, Mem.free_ok l2, Mem.free_ok ?_, Mem.free_ok ?_, ?_⟩
  · simp [l1]
  · simp [l0]
  · have hl : (fun b' => if b' = m.next then false else if b' = m.next + 1 then false
        else if b' = m.next + 2 then false else m'.live b') = m.live := by
      funext c
      rw [h.live]
      have hf : m.next ≤ c → m.live c = false := fun hc => by
        cases e : m.live c with
        | false => rfl
        | true => exact absurd (hm c e) (by omega)
      split_ifs with q1 q2 q3 q4
      · exact (hf (by omega)).symm
      · exact (hf (by omega)).symm
      · exact (hf (by omega)).symm
      · omega
      · rfl
    refine ⟨hl, fun c hc => h.len c (hm c hc), fun c hc => h.cell c (hm c hc), fun c hc => ?_⟩
    have hc' : m.live c = true := by
      rw [← hl]
      exact hc
    have := hm c hc'
    show c < m'.next
    rw [h.next]
    omega

theorem SEVar.make_room {g : PoseGraph ℝ} (hd : g.d ≤ g.r) :
    ∃ m', SEVar.make m g.r g.d g.n = ok (⟨g.r, g.d, g.n, m.next⟩, m') ∧ Grown m m' ∧
      Room m' m.next g.r g.d g.n := by
  obtain ⟨m', e, hg, hh⟩ := SEVar.make_ok (m := m) (n := g.n) hd
  exact ⟨m', e, hg, hh.live, hh.len⟩

end

/-! ### The functions of the problem -/

section
variable {o : OptOracles} {p : OptParams} {g : PoseGraph ℝ} {Q G Y : DMat ℝ} {m : Mem} {x e b : Nat}

/-- The graph with its data matrices in the caches. -/
def fill (g : PoseGraph ℝ) (Q G : DMat ℝ) : PoseGraph ℝ := { g with Q := some Q, G := some G }

/-- The data matrices are `Q` and `G` and have the right sizes. -/
structure Assembled (g : PoseGraph ℝ) (Q G : DMat ℝ) : Prop where
  quadratic : g.quadraticMatrix = ok (Q, { g with Q := some Q })
  linear : ({ g with Q := some Q } : PoseGraph ℝ).linearMatrix = ok (G, fill g Q G)
  sizes : g.sizesOk Q G = true

theorem Assembled.dims (h : Assembled g Q G) : Q.rows = (g.d + 1) * g.n ∧ Q.cols = (g.d + 1) * g.n ∧
    G.rows = g.r ∧ G.cols = (g.d + 1) * g.n := by
  have := h.sizes
  simp only [PoseGraph.sizesOk, Bool.and_eq_true, beq_iff_eq] at this
  tauto

theorem Assembled.filled (h : Assembled g Q G) : Assembled (fill g Q G) Q G := ⟨rfl, rfl, h.sizes⟩

theorem eucGrad_is {r c : Nat} {X X' : DMat ℝ} {V : Matrix (Fin r) (Fin c) ℝ} (h : Is X V) (h' : Is X' V)
    (hQ : Q.cols = c) : (eucGrad Q G X).rows = r ∧ (eucGrad Q G X).cols = c ∧
      (eucGrad Q G X).toMat r c = (eucGrad Q G X').toMat r c := by
  refine ⟨h.1, hQ, ?_⟩
  ext i j
  simp only [DMat.toMat_apply, eucGrad, DMat.add, DMat.mul]
  rw [h.2.1, h'.2.1]
  congr 1
  refine Finset.sum_congr rfl fun k hk => ?_
  have e1 := congrFun (congrFun h.2.2 i) ⟨k, Finset.mem_range.1 hk⟩
  have e2 := congrFun (congrFun h'.2.2 i) ⟨k, Finset.mem_range.1 hk⟩
  rw [DMat.toMat_apply] at e1 e2
  rw [show X.v i k = X'.v i k from e1.trans e2.symm]

theorem objective_is {r c : Nat} {X X' : DMat ℝ} {V : Matrix (Fin r) (Fin c) ℝ} (h : Is X V) (h' : Is X' V)
    (hQ : Q.cols = c) : objective Q G X = objective Q G X' := by
  rw [← objective_ofMat h.1 h.2.1 (hQ.trans h.2.1.symm), ← objective_ofMat h'.1 h'.2.1 (hQ.trans h'.2.1.symm),
    h.2.2, h'.2.2]

theorem eucGradElem_ok (h : Assembled g Q G) {X : LVar g.r g.d g.n} (hx : Stores m x X)
    (he : Room m e g.r g.d g.n) :
    ∃ m', g.eucGradElem m x e = ok (fill g Q G, m') ∧ SameExcept e m m' ∧
      Stores m' e ((eucGrad Q G (DMat.ofMat X)).toMat g.r ((g.d + 1) * g.n) : LVar g.r g.d g.n) := by
  obtain ⟨M, e1, hM⟩ := hx.read
  obtain ⟨q1, q2, q3⟩ := eucGrad_is (G := G) hM (Is.ofMat X) h.dims.2.1
  obtain ⟨m', e2, hs, hv⟩ := he.write q1 q2
  rw [q3] at hv
  refine ⟨m', ?_, hs, hv⟩
  unfold PoseGraph.eucGradElem
  simp only [h.quadratic, h.linear, ok_bind]
  have e1' : ((fill g Q G).elem x).read m = ok M := e1
  have e2' : ((fill g Q G).elem e).write m ((M.mul Q).add G) = ok m' := e2
  rw [e1', ok_bind, show (fill g Q G).sizesOk Q G = true from h.sizes, require_true, ok_bind, e2', ok_bind]

theorem projElem_ok {X V : LVar g.r g.d g.n} {v out : Nat} (hx : Stores m x X) (hv : Stores m v V)
    (ho : Room m out g.r g.d g.n) :
    ∃ m', g.projElem o m x v out = ok m' ∧ SameExcept out m m' ∧ Stores m' out (o.proj g.r g.d g.n X V) := by
  obtain ⟨M, e1, hM⟩ := hx.read
  obtain ⟨N, e2, hN⟩ := hv.read
  obtain ⟨m', e3, hs, h'⟩ := ho.writeMat (o.proj g.r g.d g.n X V)
  refine ⟨m', ?_, hs, h'⟩
  unfold PoseGraph.projElem PoseGraph.elem
  rw [e1, ok_bind, e2, ok_bind, hM.2.2, hN.2.2]
  exact e3

theorem moveElem_ok {c : ℝ} {X V : LVar g.r g.d g.n} {v out : Nat} (hx : Stores m x X) (hv : Stores m v V)
    (ho : Room m out g.r g.d g.n) (h1 : x ≠ v) :
    ∃ m' m'', g.moveElem o c m x v out = ok m'' ∧ SameExcept v m m' ∧ SameExcept out m' m'' ∧
      Stores m'' out (o.retr g.r g.d g.n X (c • V)) := by
  obtain ⟨N, e1, hN⟩ := hv.read
  obtain ⟨m', e2, s2, h2⟩ := hv.room.writeMat (c • V)
  have hx' := hx.keep s2 h1
  obtain ⟨M, e3, hM⟩ := hx'.read
  obtain ⟨N', e4, hN'⟩ := h2.read
  obtain ⟨m'', e5, s5, h5⟩ := (ho.keep s2).writeMat (o.retr g.r g.d g.n X (c • V))
  refine ⟨m', m'', ?_, s2, s5, h5⟩
  unfold PoseGraph.moveElem PoseGraph.elem
  rw [e1, ok_bind, hN.2.2, e2, ok_bind, e3, ok_bind, e4, ok_bind, hM.2.2, hN'.2.2]
  exact e5

/-- `PreConditioner` for one vector as input and output. -/
theorem preconElem_same {g' : PoseGraph ℝ} {X V W : LVar g.r g.d g.n} {v : Nat} {Q : DMat ℝ} (hQ : g.Q = some Q)
    (hx : Stores m x X) (hv : Stores m v V) (hne : x ≠ v) (hp : preConditioner o g X V = ok (W, g')) :
    ∃ m', g.preconElem o m x v v = ok (g', m') ∧ SameExcept v m m' ∧ Stores m' v W := by
  unfold preConditioner at hp
  rw [bind_eq_ok] at hp
  obtain ⟨⟨has, g1⟩, e0, hp⟩ := hp
  have hk := hasPreconditioner_keeps hQ e0
  have hg : g1.r = g.r ∧ g1.d = g.d ∧ g1.n = g.n := by rw [hk]; exact ⟨rfl, rfl, rfl⟩
  simp only [Res.ok.injEq, Prod.mk.injEq] at hp
  obtain ⟨hW, rfl⟩ := hp
  unfold PoseGraph.preconElem
  rw [e0, ok_bind]
  simp only
  rw [hk] at hW ⊢
  generalize g1.precon = P at hW ⊢
  have key : ∀ V' : LVar g.r g.d g.n, ∀ m1, SameExcept v m m1 → Stores m1 v V' → W = o.proj g.r g.d g.n X V' →
      ∃ m', (PoseGraph.projElem o { g with precon := P } m1 x v v) = ok m' ∧ SameExcept v m m' ∧ Stores m' v W := by
    intro V' m1 s1 h1 hW
    obtain ⟨m', e, s, h⟩ := projElem_ok (g := { g with precon := P }) (o := o) (hx.keep s1 hne) h1 h1.room
    exact ⟨m', e, s1.trans s, by rw [hW]; exact h⟩
  cases has with
  | false =>
    obtain ⟨m', e, s, h⟩ := key V m ⟨rfl, rfl, rfl, fun _ _ => rfl⟩ hv hW.symm
    refine ⟨m', ?_, s, h⟩
    simp only [PoseGraph.applyFactor, ok_bind, e]
  | true =>
    cases P with
    | none =>
      obtain ⟨m', e, s, h⟩ := key V m ⟨rfl, rfl, rfl, fun _ _ => rfl⟩ hv hW.symm
      refine ⟨m', ?_, s, h⟩
      simp only [PoseGraph.applyFactor, ok_bind, e]
    | some P =>
      obtain ⟨N, e1, hN⟩ := hv.read
      obtain ⟨m1, e2, s1, h1⟩ := hv.room.writeMat (o.cholSolve g.r g.d g.n P V)
      obtain ⟨m', e, s, h⟩ := key _ m1 s1 h1 hW.symm
      refine ⟨m', ?_, s, h⟩
      simp only [PoseGraph.applyFactor, PoseGraph.elem, e1, ok_bind]
      rw [hN.2.2, e2, ok_bind, e]
      rfl

/-- `PreConditioner` with a factorisation. -/
theorem preconElem_ok {g' : PoseGraph ℝ} {X V W : LVar g.r g.d g.n} {i out : Nat} {Q : DMat ℝ} (hQ : g.Q = some Q)
    (hx : Stores m x X) (hv : Stores m i V) (ho : Room m out g.r g.d g.n) (hne : x ≠ out)
    (hp : preConditioner o g X V = ok (W, g')) (hf : g'.precon ≠ none) :
    ∃ m', g.preconElem o m x i out = ok (g', m') ∧ SameExcept out m m' ∧ Stores m' out W := by
  unfold preConditioner at hp
  rw [bind_eq_ok] at hp
  obtain ⟨⟨has, g1⟩, e0, hp⟩ := hp
  have hk := hasPreconditioner_keeps hQ e0
  simp only [Res.ok.injEq, Prod.mk.injEq] at hp
  obtain ⟨hW, rfl⟩ := hp
  have hhas : has = true := by
    rcases PoseGraph.hasPreconditioner_ok e0 with ⟨-, -, -, h⟩ | ⟨Q1, g2, h1, h2, h3, h4⟩
    · exact h
    · cases hc : o.chol (PoseGraph.precondMatrix Q1) with
      | true => rw [h3, hc]
      | false =>
        rw [hc] at h4
        subst h4
        exfalso
        apply hf
        rcases PoseGraph.quadraticMatrix_ok h2 with ⟨-, rfl⟩ | ⟨-, -, rfl⟩ <;> exact h1
  subst hhas
  unfold PoseGraph.preconElem
  rw [e0, ok_bind]
  simp only
  rw [hk] at hW hf ⊢
  generalize g1.precon = P at hW hf ⊢
  cases P with
  | none => exact absurd rfl hf
  | some P =>
    obtain ⟨N, e1, hN⟩ := hv.read
    obtain ⟨m1, e2, s1, h1⟩ := ho.writeMat (o.cholSolve g.r g.d g.n P V)
    obtain ⟨m', e, s, h⟩ := projElem_ok (g := { g with precon := some P }) (o := o) (hx.keep s1 hne) h1 h1.room
    refine ⟨m', ?_, s1.trans s, by rw [← hW]; exact h⟩
    simp only [PoseGraph.applyFactor, PoseGraph.elem, e1, ok_bind]
    rw [hN.2.2, e2, ok_bind, e]
    rfl

/-- The estimate is written to a new variable. -/
theorem setData_room {v : SEVar} (hr : v.r = g.r) (hdd : v.d = g.d) (hn : v.n = g.n)
    (h : Room m v.buf g.r g.d g.n) (h1 : Y.rows = g.r) (h2 : Y.cols = (g.d + 1) * g.n) :
    ∃ m', v.setData m Y = ok m' ∧ SameExcept v.buf m m' ∧
      Stores m' v.buf (Y.toMat g.r ((g.d + 1) * g.n) : LVar g.r g.d g.n) := by
  obtain ⟨m', e, s, hs⟩ := h.write h1 h2
  refine ⟨m', ?_, s, hs⟩
  unfold SEVar.setData SEVar.all
  rw [hr, hdd, hn, h1, h2, e]
  simp

theorem getData_stores {V : LVar g.r g.d g.n} {v : SEVec} (hr : v.r = g.r) (hdd : v.d = g.d) (hn : v.n = g.n)
    (hpos : 0 < g.n) (h : Stores m v.buf V) : ∃ M, v.getData m = ok M ∧ Is M V := by
  obtain ⟨M, e, hM⟩ := h.read
  refine ⟨M, ?_, hM⟩
  unfold SEVec.getData
  rw [hr, hdd, hn, decide_eq_true hpos, require_true, ok_bind, Nat.mul_comm g.n, e]

theorem rieGradElem_ok (hd : g.d ≤ g.r) (hn : 0 < g.n) (h : Assembled g Q G) (hm : Numbered m)
    (h1 : Y.rows = g.r) (h2 : Y.cols = (g.d + 1) * g.n) :
    ∃ M m', g.rieGradElem o m Y = ok (M, fill g Q G, m') ∧ Is M (rieGrad o g Q G Y) ∧ Tidy m m' := by
  obtain ⟨m1, e1, g1, r1⟩ := SEVar.make_room (m := m) hd
  have a1 := (Added.zero m).grow g1
  obtain ⟨m2, e2, s2, v2⟩ := setData_room (v := ⟨g.r, g.d, g.n, m.next⟩) rfl rfl rfl r1 h1 h2
  have a2 := a1.write (b := m.next) le_rfl s2
  have n2 : m2.next = m.next + 1 := a2.next
  obtain ⟨g3, r3, -⟩ := SEVec.make_grown m2 g.r g.d g.n
  have a3 := a2.grow g3
  have n3 : (SEVec.make m2 g.r g.d g.n).2.next = m.next + 2 := a3.next
  set m3 := (SEVec.make m2 g.r g.d g.n).2 with hm3
  obtain ⟨g4, r4, -⟩ := SEVec.make_grown m3 g.r g.d g.n
  have a4 := a3.grow g4
  set m4 := (SEVec.make m3 g.r g.d g.n).2 with hm4
  rw [n2] at r3
  rw [n3] at r4
  have v4 : Stores m4 m.next (Y.toMat g.r ((g.d + 1) * g.n) : LVar g.r g.d g.n) := by
    refine ⟨⟨?_, ?_⟩, fun i j => ?_⟩
    · rw [a4.live, if_pos (by omega)]
    · rw [g4.len _ (by rw [n3]; omega), g3.len _ (by rw [n2]; omega)]; exact v2.room.len
    · rw [g4.cell _ (by rw [n3]; omega), g3.cell _ (by rw [n2]; omega)]; exact v2.cell i j
  have r3' : Room m4 (m.next + 1) g.r g.d g.n := by
    refine ⟨?_, ?_⟩
    · rw [a4.live, if_pos (by omega)]
    · rw [g4.len _ (by rw [n3]; omega)]; exact r3.len
  obtain ⟨m5, e5, s5, v5⟩ := eucGradElem_ok h v4 r3'
  have a5 := a4.write (b := m.next + 1) (by omega) s5
  obtain ⟨m6, e6, s6, v6⟩ := projElem_ok (g := fill g Q G) (o := o) (v4.keep s5 (by omega)) v5 (r4.keep s5)
  have a6 := a5.write (b := m.next + 2) (by omega) s6
  obtain ⟨M, e7, hM⟩ := getData_stores (v := ⟨g.r, g.d, g.n, m.next + 2⟩) rfl rfl rfl hn v6
  obtain ⟨m7, m8, m9, f7, f8, f9, ht⟩ := a6.release hm
  refine ⟨M, m9, ?_, ?_, ht⟩
  · unfold PoseGraph.rieGradElem
    rw [e1, ok_bind]
    simp only
    rw [e2, ok_bind]
    have q3 : SEVec.make m2 g.r g.d g.n = (⟨g.r, g.d, g.n, m.next + 1⟩, m3) := by
      rw [hm3, ← n2]; rfl
    rw [q3]
    simp only
    have q4 : SEVec.make m3 g.r g.d g.n = (⟨g.r, g.d, g.n, m.next + 2⟩, m4) := by
      rw [hm4, ← n3]; rfl
    rw [q4]
    simp only
    rw [e5, ok_bind]
    simp only
    rw [e6, ok_bind, e7, ok_bind, f7, ok_bind, f8, ok_bind, f9, ok_bind]
  · rw [show rieGrad o g Q G Y = o.proj g.r g.d g.n (Y.toMat g.r ((g.d + 1) * g.n))
      ((eucGrad Q G (DMat.ofMat (Y.toMat g.r ((g.d + 1) * g.n)))).toMat g.r ((g.d + 1) * g.n)) from ?_]
    · exact hM
    · unfold rieGrad
      rw [(eucGrad_is (G := G) (X := Y) ⟨h1, h2, rfl⟩ (Is.ofMat _) h.dims.2.1).2.2]

theorem descentElem_ok (hd : g.d ≤ g.r) (h : Assembled g Q G) (hm : Numbered m)
    (h1 : Y.rows = g.r) (h2 : Y.cols = (g.d + 1) * g.n) {Z : DMat ℝ} {g' : PoseGraph ℝ}
    (e : gradientDescent o p (fill g Q G) Q G Y = ok (Z, g')) :
    ∃ M m', g.descentElem o p m Y = ok (M, g', m') ∧ Is M (Z.toMat g.r ((g.d + 1) * g.n)) ∧ Tidy m m' := by
  obtain ⟨m1, e1, g1, r1⟩ := SEVar.make_room (m := m) hd
  have a1 := (Added.zero m).grow g1
  have n1 : m1.next = m.next + 1 := a1.next
  obtain ⟨m2, e2, g2, r2⟩ := SEVar.make_room (m := m1) hd
  have a2 := a1.grow g2
  have n2 : m2.next = m.next + 2 := a2.next
  rw [n1] at r2 e2
  obtain ⟨g3, r3, -⟩ := SEVec.make_grown m2 g.r g.d g.n
  have a3 := a2.grow g3
  have q3 : SEVec.make m2 g.r g.d g.n = (⟨g.r, g.d, g.n, m.next + 2⟩, (SEVec.make m2 g.r g.d g.n).2) := by
    rw [← n2]; rfl
  set m3 := (SEVec.make m2 g.r g.d g.n).2 with hm3
  rw [n2] at r3
  have hne : m.next ≠ m.next + 2 := by omega
  have r1' : Room m3 m.next g.r g.d g.n := by
    refine ⟨by rw [a3.live, if_pos (by omega)], ?_⟩
    rw [g3.len _ (by omega), g2.len _ (by omega)]
    exact r1.len
  have r2' : Room m3 (m.next + 1) g.r g.d g.n := by
    refine ⟨by rw [a3.live, if_pos (by omega)], ?_⟩
    rw [g3.len _ (by omega)]
    exact r2.len
  obtain ⟨m4, e4, s4, v4⟩ := setData_room (v := ⟨g.r, g.d, g.n, m.next⟩) rfl rfl rfl r1' h1 h2
  have a4 := a3.write (b := m.next) le_rfl s4
  obtain ⟨m5, e5, s5, v5⟩ := eucGradElem_ok h v4 (r3.keep s4)
  have a5 := a4.write (b := m.next + 2) (by omega) s5
  have x5 := v4.keep s5 (by show m.next ≠ m.next + 2; omega)
  obtain ⟨m6, e6, s6, v6⟩ := projElem_ok (g := fill g Q G) (o := o) x5 v5 v5.room
  have a6 := a5.write (b := m.next + 2) (by omega) s6
  have x6 := x5.keep s6 (by show m.next ≠ m.next + 2; omega)
  have hrg : o.proj (fill g Q G).r (fill g Q G).d (fill g Q G).n (Y.toMat g.r ((g.d + 1) * g.n))
      ((eucGrad Q G (DMat.ofMat (Y.toMat g.r ((g.d + 1) * g.n)))).toMat g.r ((g.d + 1) * g.n)) =
      rieGrad o (fill g Q G) Q G Y := by
    unfold rieGrad
    rw [show ((eucGrad Q G Y).toMat (fill g Q G).r (((fill g Q G).d + 1) * (fill g Q G).n)) =
      (eucGrad Q G (DMat.ofMat (Y.toMat g.r ((g.d + 1) * g.n)))).toMat g.r ((g.d + 1) * g.n) from
      (eucGrad_is (G := G) (X := Y) ⟨h1, h2, rfl⟩ (Is.ofMat _) h.dims.2.1).2.2]
    rfl
  rw [hrg] at v6
  have hsplit : ∃ W g'', (if p.RGDUsePreconditioner then
      preConditioner o (fill g Q G) (Y.toMat g.r ((g.d + 1) * g.n)) (rieGrad o (fill g Q G) Q G Y)
      else ok (rieGrad o (fill g Q G) Q G Y, fill g Q G)) = ok (W, g'') ∧
      DMat.ofMat (o.retr g.r g.d g.n (Y.toMat g.r ((g.d + 1) * g.n)) (-p.RGDStepsize • W)) = Z ∧ g'' = g' := by
    unfold gradientDescent at e
    cases hu : p.RGDUsePreconditioner with
    | false =>
      rw [hu] at e
      simp only [Bool.false_eq_true, if_false, ok_bind, Res.ok.injEq, Prod.mk.injEq] at e
      exact ⟨_, _, rfl, e.1, e.2⟩
    | true =>
      rw [hu] at e
      simp only [if_true] at e
      rw [bind_eq_ok] at e
      obtain ⟨⟨W, g''⟩, ep, e⟩ := e
      simp only [Res.ok.injEq, Prod.mk.injEq] at e
      exact ⟨W, g'', ep, e.1, e.2⟩
  obtain ⟨W, g'', ep, hZ, rfl⟩ := hsplit
  have hpre : ∃ m7, PoseGraph.preconStep o p (fill g Q G) m6 m.next (m.next + 2) = ok (g'', m7) ∧
      SameExcept (m.next + 2) m6 m7 ∧ Stores m7 (m.next + 2) W ∧
      g'' = { fill g Q G with precon := g''.precon } := by
    unfold PoseGraph.preconStep
    cases hu : p.RGDUsePreconditioner with
    | false =>
      rw [hu] at ep
      cases ep
      exact ⟨m6, rfl, ⟨rfl, rfl, rfl, fun _ _ => rfl⟩, v6, rfl⟩
    | true =>
      rw [hu] at ep
      simp only [if_true] at ep ⊢
      obtain ⟨m7, q1, q2, q3⟩ := preconElem_same (g := fill g Q G) (Q := Q) rfl x6 v6 hne ep
      refine ⟨m7, q1, q2, q3, ?_⟩
      unfold preConditioner at ep
      rw [bind_eq_ok] at ep
      obtain ⟨⟨has, g1⟩, e0, ep⟩ := ep
      simp only [Res.ok.injEq, Prod.mk.injEq] at ep
      obtain ⟨-, rfl⟩ := ep
      exact hasPreconditioner_keeps (Q := Q) rfl e0
  obtain ⟨m7, e7, s7, v7, hk⟩ := hpre
  have a7 := a6.write (b := m.next + 2) (by omega) s7
  have x7 := x6.keep s7 (by show m.next ≠ m.next + 2; omega)
  have n7 : Room m7 (m.next + 1) g.r g.d g.n := (((r2'.keep s4).keep s5).keep s6).keep s7
  generalize g''.precon = P at hk
  subst hk
  obtain ⟨m8, m9, e9, s8, s9, v9⟩ := moveElem_ok (g := { fill g Q G with precon := P }) (o := o)
    (c := -p.RGDStepsize) x7 v7 n7 hne
  have a9 := (a7.write (b := m.next + 2) (by omega) s8).write (b := m.next + 1) (by omega) s9
  obtain ⟨M, e10, hM⟩ := v9.read
  obtain ⟨m10, m11, m12, f1, f2, f3, ht⟩ := a9.release hm
  refine ⟨M, m12, ?_, ?_, ht⟩
  · unfold PoseGraph.descentElem
    rw [e1, ok_bind]
    simp only
    rw [e2, ok_bind]
    simp only
    rw [q3]
    simp only
    rw [e4, ok_bind, e5, ok_bind]
    simp only
    rw [e6, ok_bind, e7, ok_bind]
    simp only
    rw [e9, ok_bind, show SEVar.getData m9 ⟨g.r, g.d, g.n, m.next + 1⟩ = ok M from e10, ok_bind, f1, ok_bind,
      f2, ok_bind, f3, ok_bind]
  · rw [← hZ]
    refine ⟨hM.1, hM.2.1, hM.2.2.trans ?_⟩
    exact ((Is.ofMat (r := g.r) (d := g.d) (n := g.n) _).2.2).symm

theorem rieGrad_is {X X' : DMat ℝ} {V : LVar g.r g.d g.n} (h : Is X V) (h' : Is X' V)
    (hQ : Q.cols = (g.d + 1) * g.n) : rieGrad o g Q G X = rieGrad o g Q G X' := by
  unfold rieGrad
  rw [(eucGrad_is (G := G) h h' hQ).2.2, h.2.2, h'.2.2]

theorem norm_is {r c : Nat} {X X' : DMat ℝ} {V : Matrix (Fin r) (Fin c) ℝ} (h : Is X V) (h' : Is X' V) :
    PArr.norm X = PArr.norm X' := by
  unfold PArr.norm DMat.normSq
  rw [h.1, h.2.1, h'.1, h'.2.1]
  congr 1
  refine Finset.sum_congr rfl fun i hi => Finset.sum_congr rfl fun j hj => ?_
  have e1 := congrFun (congrFun h.2.2 ⟨i, Finset.mem_range.1 hi⟩) ⟨j, Finset.mem_range.1 hj⟩
  have e2 := congrFun (congrFun h'.2.2 ⟨i, Finset.mem_range.1 hi⟩) ⟨j, Finset.mem_range.1 hj⟩
  rw [DMat.toMat_apply] at e1 e2
  rw [show X.v i j = X'.v i j from e1.trans e2.symm]

/-- The objective can be evaluated at one point. -/
theorem assembled_of {v : ℝ} {g' : PoseGraph ℝ} (e : problemF g Y = ok (v, g')) :
    ∃ Q G, Assembled g Q G ∧ g' = fill g Q G ∧ v = objective Q G Y ∧ Y.rows = g.r ∧ Y.cols = (g.d + 1) * g.n := by
  obtain ⟨Q, G, rfl, hv, h1, h2, h3, h4, h5, h6, h7, h8, h9, h10⟩ := problemF_full e
  refine ⟨Q, G, ⟨?_, ?_, ?_⟩, rfl, hv, h1, h2⟩
  · unfold PoseGraph.quadraticMatrix
    cases hq : g.Q with
    | none => simp only [h9 hq, ok_bind]
    | some Q' =>
      simp only
      have hq' := h7 Q' hq
      subst hq'
      rw [← hq]
  · unfold PoseGraph.linearMatrix fill
    cases hq : g.G with
    | none =>
      have := (PoseGraph.sameData_caches g (some Q) g.G g.precon).constructG.trans (h10 hq)
      rw [hq] at this
      simp only
      rw [this, ok_bind]
    | some G' =>
      simp only
      have hq' := h8 G' hq
      subst hq'
      rw [← hq]
  · unfold PoseGraph.sizesOk
    simp [h3, h4, h5, h6, h1, h2]

theorem problemF_fill {P : Option (DMat ℝ)} (h : Assembled g Q G) (h1 : Y.rows = g.r)
    (h2 : Y.cols = (g.d + 1) * g.n) :
    problemF { fill g Q G with precon := P } Y = ok (objective Q G Y, { fill g Q G with precon := P }) := by
  obtain ⟨q1, q2, q3, q4⟩ := h.dims
  unfold problemF objective
  simp only [fill, h1, h2, beq_self_eq_true, check_true, ok_bind, PoseGraph.quadraticMatrix,
    PoseGraph.linearMatrix, q1, q2, q3, q4, Bool.and_self, require_true]

theorem Assembled.precon (h : Assembled g Q G) (P : Option (DMat ℝ)) :
    Assembled { fill g Q G with precon := P } Q G := ⟨rfl, rfl, h.sizes⟩

theorem Spec.Tidy.trans {m m' m'' : Mem} (h : Tidy m m') (h' : Tidy m' m'') : Tidy m m'' :=
  ⟨h'.live.trans h.live,
    fun b hb => (h'.len b (by rw [h.live]; exact hb)).trans (h.len b hb),
    fun b hb => (h'.cell b (by rw [h.live]; exact hb)).trans (h.cell b hb), h'.numbered⟩

theorem optimizeElem_ok (hd : g.d ≤ g.r) (hn : 0 < g.n) (hm : Numbered m) (hp : p.method = .RGD) {Z : DMat ℝ}
    {res : OptResult} {g' : PoseGraph ℝ} (e : optimize o p g Y = ok (Z, res, g')) :
    ∃ M m', g.optimizeElem o p m Y = ok (M, res, g', m') ∧ Is M (Z.toMat g.r ((g.d + 1) * g.n)) ∧ Tidy m m' := by
  unfold optimize at e
  rw [bind_eq_ok] at e
  obtain ⟨⟨f0, g1⟩, e0, e⟩ := e
  obtain ⟨Q, G, ha, rfl, -, h1, h2⟩ := assembled_of e0
  simp only at e
  rw [show (fill g Q G).quadraticMatrix = ok (Q, fill g Q G) from rfl, ok_bind] at e
  simp only at e
  rw [show (fill g Q G).linearMatrix = ok (G, fill g Q G) from rfl, ok_bind] at e
  simp only [bind_eq_ok] at e
  obtain ⟨⟨Z', g2⟩, e2, ⟨f1, g3⟩, e3, e⟩ := e
  have hk := optimizeWith_keeps (Q := Q) rfl e2
  unfold optimizeWith at e2
  rw [hp] at e2
  simp only at e2
  obtain ⟨R, m1, c1, hR, t1⟩ := rieGradElem_ok (o := o) (g := fill g Q G) hd hn ha.filled hm h1 h2
  obtain ⟨M, m2, c2, hM, t2⟩ := descentElem_ok (g := fill g Q G) hd ha.filled t1.numbered h1 h2 e2
  generalize g2.precon = P at hk
  subst hk
  have hZ : Z'.rows = g.r ∧ Z'.cols = (g.d + 1) * g.n := by
    obtain ⟨-, -, -, -, -, z1, z2⟩ := assembled_of e3
    exact ⟨z1, z2⟩
  have hZ' : Is Z' (Z'.toMat g.r ((g.d + 1) * g.n)) := ⟨hZ.1, hZ.2, rfl⟩
  rw [problemF_fill ha hZ.1 hZ.2] at e3
  cases e3
  cases e
  obtain ⟨R', m3, c3, hR', t3⟩ := rieGradElem_ok (o := o) (g := { fill g Q G with precon := P }) hd hn
    (ha.precon P) t2.numbered hM.1 hM.2.1
  refine ⟨M, m3, ?_, hM, (t1.trans t2).trans t3⟩
  unfold PoseGraph.optimizeElem
  rw [e0, ok_bind]
  simp only
  rw [c1, ok_bind]
  simp only
  rw [show fill (fill g Q G) Q G = fill g Q G from rfl, c2, ok_bind]
  simp only
  rw [problemF_fill ha hM.1 hM.2.1, ok_bind]
  simp only
  rw [c3, ok_bind]
  simp only
  rw [objective_is (G := G) hM hZ' ha.dims.2.1, norm_is hR (Is.ofMat _), norm_is hR' (Is.ofMat _),
    rieGrad_is (g := { fill g Q G with precon := P }) hM hZ' ha.dims.2.1]
  rfl

end

end Dpgo
