import Verif.Lemmas.Odometry
import Verif.Props.PoseGraph
import Mathlib.Data.Rat.Defs

/-! # C28: odometry initialisation -/

namespace Dpgo.Props

open Res Spec Matrix PArr

variable {K : Type} [Field K] {d : Nat}

/-- Consecutive odometry edges: the result has one more pose than edges, starts at the identity and
satisfies every measurement exactly. -/
theorem C28_chain {odo : List (Meas K)} (h0 : odo ≠ []) (hd : d = 2 ∨ d = 3)
    (hdim : ∀ m ∈ odo, MeasDim d m) (hcon : Consecutive odo) (hlen : odo.length + 1 < 2 ^ 64) :
    ∃ T, odometryInitialization odo none = ok T ∧ ArrOk d d (odo.length + 1) T ∧
      rotM d d T 0 = 1 ∧ traV d d T 0 = 0 ∧
      ∀ i m, odo[i]? = some m → Satisfied d T i (i + 1) m := by
  have hn : ∀ j, 1 ≤ j → j < odo.length + 1 →
      ∃ m, odo[j - 1]? = some m ∧ m.p1 = j - 1 ∧ m.p2 = j := fun j h1 h2 => by
    have hj : j - 1 < odo.length := by omega
    obtain ⟨a, b⟩ := hcon (j - 1) odo[j - 1] (by simp [hj])
    exact ⟨odo[j - 1], by simp [hj], a, by omega⟩
  obtain ⟨T0, e0, ok0, hr0, ht0⟩ := start_none (K := K) (d := d) (n := odo.length + 1)
    (Nat.succ_pos _) none (by simp)
  obtain ⟨T, eT⟩ := odometryLoop_total hdim hn odo.length 1 T0 le_rfl (by omega) ok0
  obtain ⟨okT, hpre, hch⟩ := odometryLoop_inv odo.length 1 T0 T le_rfl ok0 eT
  refine ⟨T, ?_, okT, (hpre 0 zero_lt_one).1.trans hr0, (hpre 0 zero_lt_one).2.trans ht0, ?_⟩
  · unfold odometryInitialization
    rw [getDim_ok h0 hd hdim, consecutive_numPoses hcon h0 hlen, ok_bind]
    simp only [e0, ok_bind, Nat.add_sub_cancel]
    exact eT
  · intro i m hm
    have hi : i < odo.length := by
      by_contra h
      simp [List.getElem?_eq_none (not_lt.1 h)] at hm
    obtain ⟨-, m', hm', -, -, -, hs⟩ := hch (i + 1) (by omega) (by omega)
    simp only [Nat.add_sub_cancel] at hm' hs
    rw [hm, Option.some.injEq] at hm'
    rw [hm']; exact hs

/-- With a partial trajectory: the given prefix is kept and the remaining measurements are satisfied
exactly. -/
theorem C28_prefix {odo : List (Meas K)} (h0 : odo ≠ []) (hd : d = 2 ∨ d = 3)
    (hdim : ∀ m ∈ odo, MeasDim d m) (hcon : Consecutive odo) (hlen : odo.length + 1 < 2 ^ 64)
    {P : PArr K} {nP : Nat} (hP : ArrOk d d nP P) (hpos : 0 < nP) :
    ∃ T, odometryInitialization odo (some P) = ok T ∧ ArrOk d d (odo.length + 1) T ∧
      (∀ j < min nP (odo.length + 1), rotM d d T j = rotM d d P j ∧ traV d d T j = traV d d P j) ∧
      ∀ i m, odo[i]? = some m → nP ≤ i + 1 → Satisfied d T i (i + 1) m := by
  have hn : ∀ j, 1 ≤ j → j < odo.length + 1 →
      ∃ m, odo[j - 1]? = some m ∧ m.p1 = j - 1 ∧ m.p2 = j := fun j h1 h2 => by
    have hj : j - 1 < odo.length := by omega
    obtain ⟨a, b⟩ := hcon (j - 1) odo[j - 1] (by simp [hj])
    exact ⟨odo[j - 1], by simp [hj], a, by omega⟩
  obtain ⟨T0, e0, ok0, hv⟩ := start_some (n := odo.length + 1) hP hpos
  obtain ⟨T, eT⟩ := odometryLoop_total hdim hn (odo.length + 1 - min nP (odo.length + 1))
    (min nP (odo.length + 1)) T0 (by omega) (by omega) ok0
  obtain ⟨okT, hpre, hch⟩ := odometryLoop_inv _ _ T0 T (by omega) ok0 eT
  refine ⟨T, ?_, okT, fun j hj => ?_, ?_⟩
  · unfold odometryInitialization
    rw [getDim_ok h0 hd hdim, consecutive_numPoses hcon h0 hlen, ok_bind]
    simp only [e0, ok_bind]
    exact eT
  · rw [(hpre j hj).1, (hpre j hj).2]
    exact hv j hj
  · intro i m hm hi'
    have hi : i < odo.length := by
      by_contra h
      simp [List.getElem?_eq_none (not_lt.1 h)] at hm
    obtain ⟨-, m', hm', -, -, -, hs⟩ := hch (i + 1) (by omega) (by omega)
    simp only [Nat.add_sub_cancel] at hm' hs
    rw [hm, Option.some.injEq] at hm'
    rw [hm']; exact hs

/-- Part of "anything else aborts": without a partial trajectory a list of well-sized measurements either
aborts or yields a trajectory that starts at the identity and in which every pose after the first comes
from its own consecutive edge.  Missing: rejection of the edges beyond the number of poses, see
`C28_duplicate_ignored`. -/
theorem C28_sound_partial {odo : List (Meas K)} (hdim : ∀ m ∈ odo, MeasDim d m) :
    odometryInitialization odo none = abort ∨
    ∃ T n, odometryInitialization odo none = ok T ∧ ArrOk d d n T ∧
      rotM d d T 0 = 1 ∧ traV d d T 0 = 0 ∧
      ∀ j, j + 1 < n → ∃ m, odo[j]? = some m ∧ m.p1 = j ∧ m.p2 = j + 1 ∧
        Satisfied d T j (j + 1) m := by
  unfold odometryInitialization
  by_cases h0 : odo = []
  · subst h0; exact Or.inl rfl
  by_cases hd : d = 2 ∨ d = 3
  · set n := odo.foldl (fun n m => max (max n (u64 (m.p1 + 1))) (u64 (m.p2 + 1))) 0 with hn
    rw [getDim_ok h0 hd hdim, ok_bind]
    rcases Nat.eq_zero_or_pos n with hz | hpos
    · left
      simp only [← hn, hz]
      obtain ⟨T, e, hT, -⟩ := make_ok (K := K) (n := 0) (le_refl d)
      obtain ⟨I, e', -, -⟩ := make_ok (K := K) (n := 1) (le_refl d)
      unfold odometryStart PArr.identity PArr.setPose
      rw [e, ok_bind]
      simp only [e', ok_bind, hT.2.2.1]
      rfl
    · obtain ⟨T0, e0, ok0, hr0, ht0⟩ := start_none (K := K) (d := d) hpos none (by simp)
      simp only [← hn, e0, ok_bind]
      rcases odometryLoop_cases hdim (n - 1) 1 T0 le_rfl (by omega) ok0
        (fun j h1 h2 => absurd h2 (by omega)) with ⟨T, eT⟩ | h | ⟨e, h1, h2, h3, h4⟩
      · right
        obtain ⟨okT, hpre, hch⟩ := odometryLoop_inv _ 1 T0 T le_rfl ok0 eT
        refine ⟨T, n, eT, okT, (hpre 0 zero_lt_one).1.trans hr0,
          (hpre 0 zero_lt_one).2.trans ht0, fun j hj => ?_⟩
        obtain ⟨-, m, hm, a, b, -, hs⟩ := hch (j + 1) (by omega) (by omega)
        exact ⟨m, hm, a, b, hs⟩
      · exact Or.inl h
      · exact absurd (by omega) (no_gap h1 h3 h4 h0)
  · left
    cases odo with
    | nil => exact absurd rfl h0
    | cons m l =>
      have hm := hdim m (by simp)
      simp only [getDimensionAndNumPoses, hm.2.2.1, hm.2.2.2, Nat.mul_one]
      rw [show (d == 2 || d == 3) = false from by simpa using hd]
      rfl

/-- An edge of the planar examples: rotation by a quarter turn, translation `(t, 0)`. -/
def exOdo (p1 p2 : Nat) (t : ℚ) : Meas ℚ :=
  { ex 0 0 p1 p2 with
    R := ⟨2, 2, fun i j => if i = 1 ∧ j = 0 then 1 else if i = 0 ∧ j = 1 then -1 else 0⟩
    t := ⟨2, 1, fun i _ => if i = 0 then t else 0⟩ }

theorem exOdo_dim (a b : Nat) (t : ℚ) : MeasDim 2 (exOdo a b t) := ⟨rfl, rfl, rfl, rfl⟩

/-- Violation of "anything else aborts": a second edge between the same poses is silently ignored, and
the trajectory returned contradicts it. -/
theorem C28_duplicate_ignored :
    ∃ odo : List (Meas ℚ), (∀ m ∈ odo, MeasDim 2 m) ∧ ¬ Consecutive odo ∧
      ∃ T, odometryInitialization odo none = ok T ∧
        ∃ m ∈ odo, ¬ Satisfied 2 T m.p1 m.p2 m := by
  refine ⟨[exOdo 0 1 1, exOdo 0 1 5], ?_, ?_, _, rfl, exOdo 0 1 5, by simp, ?_⟩
  · intro m hm
    simp only [List.mem_cons, List.not_mem_nil, or_false] at hm
    rcases hm with rfl | rfl <;> exact exOdo_dim _ _ _
  · intro h
    exact absurd (h 1 (exOdo 0 1 5) rfl).1 (by decide)
  · rintro ⟨-, h⟩
    have h0 := congrFun h 0
    revert h0
    simp only [traV, rotM, Pi.add_apply, mulVec, dotProduct, Fin.sum_univ_two, colV, Matrix.of_apply]
    decide +kernel

/-- Violation of "anything else aborts" in the presence of a partial trajectory: the odometry list is
read past its end. -/
theorem C28_partial_undefined :
    ∃ (odo : List (Meas ℚ)) (P : PArr ℚ), (∀ m ∈ odo, MeasDim 2 m) ∧ ArrOk 2 2 3 P ∧
      odometryInitialization odo (some P) = ub := by
  refine ⟨[exOdo 0 9 1], ⟨2, 2, 3, ⟨2, 9, fun i j => if i = j % 3 then 1 else 0⟩⟩, ?_,
    ⟨rfl, rfl, rfl, rfl, rfl⟩, rfl⟩
  intro m hm
  simp only [List.mem_cons, List.not_mem_nil, or_false] at hm
  subst hm; exact exOdo_dim _ _ _

theorem exOdo_con : Consecutive [exOdo 0 1 1, exOdo 1 2 3] := by
  intro i m hm
  match i with
  | 0 => simp only [List.getElem?_cons_zero, Option.some.injEq] at hm; subst hm; exact ⟨rfl, rfl⟩
  | 1 => simp only [List.getElem?_cons_succ, List.getElem?_cons_zero, Option.some.injEq] at hm
         subst hm; exact ⟨rfl, rfl⟩
  | i + 2 => simp at hm

/-- Non-vacuity of `C28_chain` and `C28_prefix`: two quarter turns. -/
example : ∃ T, odometryInitialization [exOdo 0 1 1, exOdo 1 2 3] none = ok T ∧ ArrOk 2 2 3 T ∧
    Satisfied 2 T 1 2 (exOdo 1 2 3) := by
  obtain ⟨T, h1, h2, -, -, h⟩ := C28_chain (odo := [exOdo 0 1 1, exOdo 1 2 3]) (d := 2) (by simp)
    (Or.inl rfl) (by simp [exOdo_dim]) exOdo_con (by norm_num)
  exact ⟨T, h1, h2, h 1 _ rfl⟩

example : ∃ T, odometryInitialization [exOdo 0 1 1, exOdo 1 2 3]
      (some ⟨2, 2, 2, ⟨2, 6, fun i j => if i = j % 3 then 1 else 7⟩⟩) = ok T ∧
    traV 2 2 T 1 = ![7, 7] ∧ Satisfied 2 T 1 2 (exOdo 1 2 3) := by
  obtain ⟨T, h1, h2, h3, h⟩ := C28_prefix (odo := [exOdo 0 1 1, exOdo 1 2 3]) (d := 2) (by simp)
    (Or.inl rfl) (by simp [exOdo_dim]) exOdo_con (by norm_num)
    (P := ⟨2, 2, 2, ⟨2, 6, fun i j => if i = j % 3 then 1 else 7⟩⟩) (nP := 2)
    ⟨rfl, rfl, rfl, rfl, rfl⟩ (by norm_num)
  refine ⟨T, h1, ?_, h 1 _ rfl le_rfl⟩
  rw [(h3 1 (by simp)).2]
  ext a; fin_cases a <;> simp [traV]

/-- Non-vacuity of `C28_sound_partial`: both outcomes occur. -/
example : odometryInitialization [exOdo 1 2 3, exOdo 0 1 1] none = abort ∧
    ∃ T, odometryInitialization [exOdo 0 1 1, exOdo 0 1 5] none = ok T := ⟨rfl, _, rfl⟩

end Dpgo.Props
