import Verif.Lemmas.Chordal
import Verif.Lemmas.ProjModel

/-! # Chordal initialisation as a whole -/

namespace Dpgo

open Finset Res Spec Matrix

variable {d n : Nat}

theorem transCost_congr {ms : List (Meas ℝ)} (hn : NumPoses ms n)
    {R R' : Nat → Matrix (Fin d) (Fin d) ℝ} {t t' : Nat → Fin d → ℝ}
    (hR : ∀ i < n, R i = R' i) (ht : ∀ i < n, t i = t' i) :
    transCost d ms R t = transCost d ms R' t' := by
  unfold transCost
  congr 1
  refine List.map_congr_left fun m hm => ?_
  obtain ⟨a, b⟩ := hn.1 m hm
  rw [hR _ a, ht _ a, ht _ b]

theorem rotCost_congr {ms : List (Meas ℝ)} (hn : NumPoses ms n)
    {R R' : Nat → Matrix (Fin d) (Fin d) ℝ} (hR : ∀ i < n, R i = R' i) :
    rotCost d ms R = rotCost d ms R' := by
  unfold rotCost
  congr 1
  refine List.map_congr_left fun m hm => ?_
  obtain ⟨a, b⟩ := hn.1 m hm
  rw [hR _ a, hR _ b]

/-- Value of a stacked vector at a block position. -/
theorem div_mod_block {i r : Nat} (hr : r < d) : (i * d + r) / d = i ∧ (i * d + r) % d = r := by
  have hd : 0 < d := by omega
  constructor
  · rw [Nat.mul_comm, Nat.mul_add_div hd, Nat.div_eq_of_lt hr, Nat.add_zero]
  · rw [Nat.mul_comm, Nat.mul_add_mod, Nat.mod_eq_of_lt hr]

theorem recover_spec {qr : LsqOracle} (hq : LawfulLsq qr) {ms : List (Meas ℝ)} {B : BMats}
    (hd : 0 < d) (hdm : measDim ms = d) (hn : NumPoses ms n) (hB : constructBMatrices ms = ok B)
    {R : DMat ℝ} (hR : R.rows = d ∧ R.cols = d * n) :
    ∃ t, recoverTranslations qr B.B1 B.B2 R = ok t ∧ t.rows = d ∧ t.cols = n ∧
      (∀ a, t.v a 0 = 0) ∧
      ∀ t' : Nat → Fin d → ℝ, t' 0 = 0 →
        transCost d ms (fun i => (R.block 0 (i * d) d d).toMat d d) (fun i a => t.v a i) ≤
        transCost d ms (fun i => (R.block 0 (i * d) d d).toMat d d) t' := by
  have hpos : 0 < n := by obtain ⟨-, m, -, h⟩ := hn; omega
  obtain ⟨⟨r1, c1⟩, ⟨r2, c2⟩, -⟩ := bmats_ok hB
  have hcost := bmats_transCost hB
  simp only [hdm, maxPoseIndex_eq hn] at r1 c1 r2 c2
  rw [hdm] at hcost
  have hdn : R.cols / R.rows = n := by rw [hR.1, hR.2, Nat.mul_div_cancel_left _ hd]
  have hcols : B.B1.cols = d + d * (n - 1) := by
    rw [c1]
    obtain ⟨k, rfl⟩ : ∃ k, n = k + 1 := ⟨n - 1, by omega⟩
    simp only [Nat.add_sub_cancel]; ring
  set rvec : Nat → ℝ := fun a => R.v (a % d) (a / d) with hrv
  set c := B.B2.mulVec rvec with hc
  set tred := solveRight qr B.B1 (d * (n - 1)) c with htr
  have eR : unvecR d rvec = fun i => (R.block 0 (i * d) d d).toMat d d := by
    funext i
    ext r k
    simp only [unvecR, Matrix.of_apply, hrv, DMat.toMat, DMat.block]
    have := div_mod_block (d := d) (i := i * d + k) r.2
    rw [show i * (d * d) + (k * d + r) = (i * d + k) * d + r by ring, this.1, this.2, Nat.zero_add]
  refine ⟨⟨d, n, fun r i => if i = 0 then 0 else tred ((i - 1) * d + r)⟩, ?_, rfl, rfl, fun a => rfl, ?_⟩
  · unfold recoverTranslations
    simp only [hdn]
    rw [hR.1, decide_eq_true hd, decide_eq_true hpos,
      decide_eq_true (show d * (n - 1) ≤ B.B1.cols by omega), c2, r2, r1]
    simp only [require_true, ok_bind, beq_self_eq_true, Bool.and_self]
    rfl
  · intro t' ht'
    set y : Nat → ℝ := fun a => if a < d then 0 else tred (a - d) with hy
    set z : Nat → ℝ := fun a => if h : 0 < d then t' (a / d) ⟨a % d, Nat.mod_lt _ h⟩ else 0 with hz
    have ey : unvecT d y = fun i (a : Fin d) => if i = 0 then 0 else tred ((i - 1) * d + a) := by
      funext i r
      simp only [unvecT, hy]
      rcases Nat.eq_zero_or_pos i with rfl | hi
      · simp
      · obtain ⟨k, rfl⟩ : ∃ k, i = k + 1 := ⟨i - 1, by omega⟩
        rw [if_neg (by nlinarith), if_neg (by omega),
          show (k + 1) * d + r - d = (k + 1 - 1) * d + r from by
            rw [Nat.add_sub_cancel, Nat.succ_mul]; omega]
    have ez : unvecT d z = t' := by
      funext i r
      simp only [unvecT, hz]
      have := div_mod_block (d := d) (i := i) r.2
      rw [dif_pos hd]
      simp only [this.1, this.2, Fin.eta]
    rw [← eR, ← ez]
    change transCost d ms (unvecR d rvec) (fun i (a : Fin d) => if i = 0 then 0 else tred ((i - 1) * d + a)) ≤ _
    rw [← ey, ← hcost, ← hcost]
    have ex : ∀ (w : Nat → ℝ), (∀ b < d, w b = 0) → ∀ a, B.B1.mulVec w a + B.B2.mulVec rvec a =
        c a + ∑ j ∈ range (d * (n - 1)), B.B1.coeff a (d + j) * w (d + j) := by
      intro w hw a
      rw [SpMat.mulVec_split _ hcols, Finset.sum_eq_zero, zero_add, add_comm]
      intro b hb
      rw [hw b (Finset.mem_range.1 hb), mul_zero]
    simp only [ex y (fun b hb => if_pos hb), ex z (fun b hb => by
      simp only [hz, dif_pos hd, Nat.div_eq_of_lt hb, ht']; rfl)]
    refine le_trans (le_of_eq ?_) (solveRight_opt hq B.B1 hcols c (fun j => z (d + j)))
    refine Finset.sum_congr rfl fun a _ => ?_
    congr 2
    refine Finset.sum_congr rfl fun j _ => ?_
    simp only [hy]
    rw [if_neg (by omega), Nat.add_sub_cancel_left]

/-- Chordal solution for the rotations. -/
theorem chordal_rot {qr : LsqOracle} (hq : LawfulLsq qr) {ms : List (Meas ℝ)} {B : BMats}
    (hd : 0 < d) (hdm : measDim ms = d) (hn : NumPoses ms n) (hB : constructBMatrices ms = ok B)
    (rvec : Nat → ℝ) (hrv : rvec = solveRight qr B.B3 (d * d * (n - 1)) (fun a =>
      ∑ b ∈ range (d * d), B.B3.coeff a b * if b < d * d ∧ b % d = b / d then 1 else 0))
    (Rc : DMat ℝ) (hRc : Rc = ⟨d, d * n, fun r j =>
      if j < d then (if r = j then 1 else 0) else rvec ((j - d) * d + r)⟩) :
    (Rc.block 0 (0 * d) d d).toMat d d = 1 ∧
    ∀ R' : Nat → Matrix (Fin d) (Fin d) ℝ, R' 0 = 1 →
      rotCost d ms (fun i => (Rc.block 0 (i * d) d d).toMat d d) ≤ rotCost d ms R' := by
  have hpos : 0 < n := by obtain ⟨-, m, -, h⟩ := hn; omega
  obtain ⟨-, -, ⟨r3, c3⟩, -⟩ := bmats_ok hB
  have hcost := bmats_rotCost hB
  simp only [hdm, maxPoseIndex_eq hn] at r3 c3
  rw [hdm] at hcost
  have hcols : B.B3.cols = d * d + d * d * (n - 1) := by
    rw [c3]
    obtain ⟨k, rfl⟩ : ∃ k, n = k + 1 := ⟨n - 1, by omega⟩
    simp only [Nat.add_sub_cancel]; ring
  set idv : Nat → ℝ := fun b => if b < d * d ∧ b % d = b / d then 1 else 0 with hid
  set cR : Nat → ℝ := fun a => ∑ b ∈ range (d * d), B.B3.coeff a b * idv b with hcR
  set y : Nat → ℝ := fun a => if a < d * d then idv a else rvec (a - d * d) with hy
  have hidv : ∀ k r : Nat, k < d → r < d → idv (k * d + r) = if r = k then 1 else 0 := by
    intro k r hk hr
    have := div_mod_block (d := d) (i := k) hr
    simp only [hid, this.1, this.2, block_lt hr hk, true_and]
  have ey : unvecR d y = fun i => (Rc.block 0 (i * d) d d).toMat d d := by
    funext i
    ext r k
    simp only [unvecR, Matrix.of_apply, DMat.toMat, DMat.block, hRc, Nat.zero_add]
    have hkr := block_lt r.2 k.2
    rcases Nat.eq_zero_or_pos i with rfl | hi
    · simp only [hy, Nat.zero_mul, Nat.zero_add]
      rw [if_pos hkr, if_pos k.2, hidv k r k.2 r.2]
    · obtain ⟨l, rfl⟩ : ∃ l, i = l + 1 := ⟨i - 1, by omega⟩
      simp only [hy]
      have h1 : (l + 1) * (d * d) = l * (d * d) + d * d := Nat.succ_mul _ _
      have h2 : (l + 1) * d = l * d + d := Nat.succ_mul _ _
      rw [if_neg (by omega), if_neg (by omega)]
      congr 1
      rw [h1, h2, show l * d + d + k - d = l * d + k by omega,
        show l * (d * d) + d * d + (k * d + r) - d * d = l * (d * d) + (k * d + r) by omega]
      ring
  constructor
  · ext r k
    simp only [DMat.toMat, DMat.block, Matrix.of_apply, hRc, Nat.zero_mul, Nat.zero_add]
    rw [if_pos k.2, Matrix.one_apply]
    simp [Fin.ext_iff]
  · intro R' hR'
    set z : Nat → ℝ := fun a => if h : 0 < d then
      R' (a / (d * d)) ⟨a % d, Nat.mod_lt _ h⟩ ⟨a / d % d, Nat.mod_lt _ h⟩ else 0 with hz
    have ezv : ∀ i (k r : Fin d), z (i * (d * d) + (k * d + r)) = R' i r k := by
      intro i k r
      simp only [hz, dif_pos hd]
      have e1 := div_mod_block (d := d) (i := i * d + k) r.2
      have e2 := div_mod_block (d := d) (i := i) k.2
      have e3 := div_mod_block (d := d * d) (i := i) (block_lt r.2 k.2)
      have e4 : i * (d * d) + (k * d + r) = (i * d + k) * d + r := by ring
      have e5 : (i * (d * d) + (k * d + r)) % d = r := by rw [e4]; exact e1.2
      have e6 : (i * (d * d) + (k * d + r)) / d % d = k := by rw [e4, e1.1]; exact e2.2
      simp only [e5, e6, e3.1, Fin.eta]
    have ez : unvecR d z = R' := by
      funext i
      ext r k
      exact ezv i k r
    rw [← ey, ← ez, ← hcost, ← hcost]
    have ex : ∀ (w : Nat → ℝ), (∀ b < d * d, w b = idv b) → ∀ a, B.B3.mulVec w a =
        cR a + ∑ j ∈ range (d * d * (n - 1)), B.B3.coeff a (d * d + j) * w (d * d + j) := by
      intro w hw a
      rw [SpMat.mulVec_split _ hcols]
      congr 1
      refine Finset.sum_congr rfl fun b hb => ?_
      rw [hw b (Finset.mem_range.1 hb)]
    have hz0 : ∀ b < d * d, z b = idv b := by
      intro b hb
      have hk : b / d < d := by rw [Nat.div_lt_iff_lt_mul hd]; exact hb
      have hr : b % d < d := Nat.mod_lt _ hd
      have e := ezv 0 ⟨b / d, hk⟩ ⟨b % d, hr⟩
      simp only [Nat.zero_mul, Nat.zero_add] at e
      rw [Nat.mul_comm (b / d) d, Nat.div_add_mod, hR', Matrix.one_apply] at e
      rw [e]
      simp only [hid, hb, true_and, Fin.mk.injEq]
    simp only [ex y (fun b hb => if_pos hb), ex z hz0]
    refine le_trans (le_of_eq ?_) (solveRight_opt hq B.B3 hcols cR (fun j => z (d * d + j)))
    refine Finset.sum_congr rfl fun a _ => ?_
    congr 2
    refine Finset.sum_congr rfl fun j _ => ?_
    simp only [hy]
    rw [if_neg (by omega), Nat.add_sub_cancel_left, hrv]

/-- The projection loop. -/
theorem chordalProject_loop (svd : SvdOracle) {N : Nat} : ∀ (k next : Nat) (Rc : DMat ℝ),
    Rc.rows = d ∧ Rc.cols = d * N → next + k ≤ N →
    ∃ Rc', Res.foldl (chordalProject svd d) Rc (List.range' next k) = ok Rc' ∧
      Rc'.rows = d ∧ Rc'.cols = d * N ∧
      ∀ i, (Rc'.block 0 (i * d) d d).toMat d d = if next ≤ i ∧ i < next + k then
        rotProj (svd d d ((Rc.block 0 (i * d) d d).toMat d d))
        else (Rc.block 0 (i * d) d d).toMat d d
  | 0, next, Rc, h, _ => ⟨Rc, rfl, h.1, h.2, fun i => by rw [if_neg (by omega)]⟩
  | k + 1, next, Rc, h, hk => by
    set P := rotProj (svd d d ((Rc.block 0 (next * d) d d).toMat d d)) with hP
    have hstep : chordalProject svd d Rc next = ok (Rc.setBlock 0 (next * d) (DMat.ofMat P)) := by
      unfold chordalProject
      have hin : Rc.inRange 0 (next * d) d d = true := by
        unfold DMat.inRange
        have : next * d + d ≤ d * N := by
          calc next * d + d = d * (next + 1) := by ring
            _ ≤ d * N := Nat.mul_le_mul_left _ (by omega)
        simp [h.1, h.2, this]
      rw [hin, require_true, ok_bind,
        rotation_ok (M := Rc.block 0 (next * d) d d) (d := d) ⟨rfl, rfl⟩, ok_bind]
    set Rc1 := Rc.setBlock 0 (next * d) (DMat.ofMat P) with hRc1
    have hblk : ∀ i, (Rc1.block 0 (i * d) d d).toMat d d =
        if i = next then P else (Rc.block 0 (i * d) d d).toMat d d := by
      intro i
      ext a c
      simp only [hRc1, DMat.toMat, DMat.block, Matrix.of_apply, DMat.setBlock, Nat.zero_add,
        Nat.zero_le, true_and, Nat.sub_zero]
      change (if (a : Nat) < d ∧ next * d ≤ i * d + c ∧ i * d + c < next * d + d then
        (DMat.ofMat P).v a (i * d + c - next * d) else _) = _
      by_cases hi : i = next
      · subst hi
        rw [if_pos ⟨a.2, by omega, by omega⟩, if_pos rfl, Nat.add_sub_cancel_left]
        simp [DMat.ofMat]
      · rw [if_neg hi, if_neg]
        · rfl
        · rintro ⟨-, h1, h2⟩
          have e : i * d + c = next * d + (i * d + c - next * d) := by omega
          exact hi ((block_eq_iff c.2 (by omega)).1 e).1
    obtain ⟨Rc', e, r, c, hv⟩ := chordalProject_loop svd k (next + 1) Rc1 h (by omega)
    refine ⟨Rc', ?_, r, c, fun i => ?_⟩
    · rw [List.range'_succ, foldl_cons, hstep, ok_bind', e]
    · rw [hv i, hblk i]
      by_cases h1 : i = next
      · subst h1
        rw [if_neg (by omega), if_pos rfl, if_pos (by omega)]
      · rw [if_neg h1]
        by_cases h2 : next + 1 ≤ i ∧ i < next + 1 + k
        · rw [if_pos h2, if_pos (by omega)]
        · rw [if_neg h2, if_neg (by omega)]

/-- The assembly loop. -/
theorem chordalAssemble_loop (Rc tc T : DMat ℝ) (k : Nat) :
    ((List.range k).foldl (chordalAssemble d Rc tc) T).rows = T.rows ∧
    ((List.range k).foldl (chordalAssemble d Rc tc) T).cols = T.cols ∧
    ∀ i < k, (∀ a c, a < d → c < d →
      ((List.range k).foldl (chordalAssemble d Rc tc) T).v a (i * (d + 1) + c) = Rc.v a (i * d + c)) ∧
      ∀ a < d, ((List.range k).foldl (chordalAssemble d Rc tc) T).v a (i * (d + 1) + d) = tc.v a i := by
  induction k with
  | zero => exact ⟨rfl, rfl, fun i hi => by omega⟩
  | succ k ih =>
    rw [List.range_succ, List.foldl_append]
    simp only [List.foldl_cons, List.foldl_nil]
    set T' := (List.range k).foldl (chordalAssemble d Rc tc) T
    refine ⟨ih.1, ih.2.1, fun i hi => ⟨fun a c ha hc => ?_, fun a ha => ?_⟩⟩
    · simp only [chordalAssemble, DMat.setBlock, DMat.block, Nat.zero_add, Nat.zero_le, true_and,
        Nat.sub_zero]
      rw [if_neg]
      · by_cases h : i = k
        · subst h
          rw [if_pos ⟨ha, by omega, by omega⟩, Nat.add_sub_cancel_left]
        · rw [if_neg]
          · exact (ih.2.2 i (by omega)).1 a c ha hc
          · rintro ⟨-, h1, h2⟩
            have e : i * (d + 1) + c = k * (d + 1) + (i * (d + 1) + c - k * (d + 1)) := by omega
            exact h ((block_eq_iff (by omega) (by omega)).1 e).1
      · rintro ⟨-, h1, h2⟩
        have e : i * (d + 1) + c = k * (d + 1) + d := by omega
        have := ((block_eq_iff (by omega) (by omega)).1 e).2
        omega
    · simp only [chordalAssemble, DMat.setBlock, DMat.block, Nat.zero_add, Nat.zero_le, true_and,
        Nat.sub_zero]
      by_cases h : i = k
      · subst h
        rw [if_pos ⟨ha, by omega, by omega⟩, Nat.sub_self, Nat.add_zero]
      · rw [if_neg]
        · rw [if_neg]
          · exact (ih.2.2 i (by omega)).2 a ha
          · rintro ⟨-, h1, h2⟩
            have e : i * (d + 1) + d = k * (d + 1) + (i * (d + 1) + d - k * (d + 1)) := by omega
            exact h ((block_eq_iff (by omega) (by omega)).1 e).1
        · rintro ⟨-, h1, h2⟩
          have e : i * (d + 1) + d = k * (d + 1) + d := by omega
          exact h ((block_eq_iff (by omega) (by omega)).1 e).1

/-- Chordal initialisation: least-squares rotations anchored at the identity, projected one by one, then
optimal translations anchored at the origin. -/
theorem chordal_spec (svd : SvdOracle) {qr : LsqOracle} (hq : LawfulLsq qr) {ms : List (Meas ℝ)}
    (hd : d = 2 ∨ d = 3) (hwf : ChordalWF d ms) (hn : NumPoses ms n) :
    ∃ (T : PArr ℝ) (Rc : Nat → Matrix (Fin d) (Fin d) ℝ),
      chordalInitialization svd qr ms = ok T ∧ ArrOk d d n T ∧
      Rc 0 = 1 ∧ (∀ R', R' 0 = 1 → rotCost d ms Rc ≤ rotCost d ms R') ∧
      rotM d d T 0 = 1 ∧
      (∀ i, 0 < i → i < n → rotM d d T i = rotProj (svd d d (Rc i))) ∧
      traV d d T 0 = 0 ∧
      ∀ t', t' 0 = 0 → transCost d ms (rotM d d T) (traV d d T) ≤ transCost d ms (rotM d d T) t' := by
  have hpos : 0 < n := by obtain ⟨-, m, -, h⟩ := hn; omega
  have hd0 : 0 < d := by omega
  have hdm := measDim_eq hwf
  obtain ⟨B, hB⟩ := bmats_total hwf hn
  obtain ⟨-, -, ⟨-, c3⟩, -⟩ := bmats_ok hB
  simp only [hdm, maxPoseIndex_eq hn] at c3
  obtain ⟨hR0, hRopt⟩ := chordal_rot hq hd0 hdm hn hB _ rfl _ rfl
  set Rc : DMat ℝ := ⟨d, d * n, fun r j => if j < d then (if r = j then 1 else 0) else
    solveRight qr B.B3 (d * d * (n - 1)) (fun a =>
      ∑ b ∈ range (d * d), B.B3.coeff a b * if b < d * d ∧ b % d = b / d then 1 else 0)
      ((j - d) * d + r)⟩ with hRc
  obtain ⟨Rc', e1, r1, c1, hv⟩ := chordalProject_loop svd (n - 1) 1 Rc (N := n) ⟨rfl, rfl⟩ (by omega)
  obtain ⟨tc, e2, r2, c2, ht0, htopt⟩ := recover_spec hq hd0 hdm hn hB ⟨r1, c1⟩
  obtain ⟨out, e3, hout, -⟩ := PArr.make_ok (K := ℝ) (n := n) (le_refl d)
  set T := (List.range n).foldl (chordalAssemble d Rc' tc) (DMat.zero d (n * (d + 1))) with hT
  obtain ⟨q1, q2, q3⟩ := chordalAssemble_loop (d := d) Rc' tc (DMat.zero d (n * (d + 1))) n
  have hTs : T.rows = d ∧ T.cols = (d + 1) * n := ⟨q1, by rw [hT, q2]; exact Nat.mul_comm _ _⟩
  have hrot : ∀ i < n, rotM d d { out with X := T } i = (Rc'.block 0 (i * d) d d).toMat d d := by
    intro i hi
    ext a c
    simp only [rotM, Matrix.of_apply, DMat.toMat, DMat.block, Nat.zero_add]
    exact (q3 i hi).1 a c a.2 c.2
  have htra : ∀ i < n, traV d d { out with X := T } i = fun a : Fin d => tc.v a i := by
    intro i hi
    funext a
    exact (q3 i hi).2 a a.2
  refine ⟨{ out with X := T }, fun i => (Rc.block 0 (i * d) d d).toMat d d, ?_, ?_, hR0, hRopt,
    ?_, ?_, ?_, ?_⟩
  · unfold chordalInitialization
    rw [getDim_ok hwf.1 hd (fun m hm => (hwf.2 m hm).1),
      numPoses_eq hn (fun m hm => (hwf.2 m hm).2.2.2), ok_bind]
    simp only [hB, ok_bind]
    rw [c3, Nat.mul_div_cancel_left _ (Nat.mul_pos hd0 hd0), beq_self_eq_true, check_true, ok_bind]
    change ((Res.foldl (chordalProject svd d) Rc (List.range' 1 (n - 1))).bind fun Rc => _) = _
    rw [e1, ok_bind']
    simp only [e2, ok_bind, r2, c2, beq_self_eq_true, check_true, e3]
    exact PArr.setData_ok hout hTs
  · exact ⟨hout.1, hout.2.1, hout.2.2.1, hTs.1, hTs.2⟩
  · rw [hrot 0 hpos, hv 0, if_neg (by omega)]
    exact hR0
  · intro i h0 hi
    rw [hrot i hi, hv i, if_pos (by omega)]
  · rw [htra 0 hpos]
    funext a; exact ht0 a
  · intro t' ht'
    have := htopt t' ht'
    rw [transCost_congr hn hrot htra, transCost_congr hn (R' := fun i =>
      (Rc'.block 0 (i * d) d d).toMat d d) (t' := t') hrot (fun _ _ => rfl)]
    exact this

end Dpgo
