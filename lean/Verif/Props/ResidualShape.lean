import Verif.Model.Solver
import Verif.Lemmas.Poses
import Verif.Spec.Agent

/-! # Residuals of measurements of another dimension (C27) -/

namespace Dpgo.Props

open Res Spec

/-- **C27.** The residual of the local robust initialisation is a number only for a measurement of the dimension of the
trajectory between poses that it has; any other measurement leaves defined behaviour or stops the program. -/
theorem C27_misfit {d n : Nat} {T : PArr ℝ} (hT : ArrOk d d n T) {m : Meas ℝ} {x : ℝ} (h : pgoResidual T m = ok x) :
    m.p1 < n ∧ m.p2 < n ∧ m.R.rows = d ∧ m.R.cols = d ∧ m.t.rows = d ∧ m.t.cols = 1 := by
  unfold pgoResidual at h
  have hp : ∀ {i y}, T.rotationAt i = ok y → i < n := by
    intro i y e
    unfold PArr.rotationAt at e
    rw [hT.2.2.1] at e
    by_contra hc
    simp [hc] at e
  simp only [bind_eq_ok] at h
  obtain ⟨R1, e1, t1, e2, R2, e3, t2, e4, u, e5, -⟩ := h
  have h1 := hp e1
  have h2 := hp e3
  rw [PArr.rotationAt_ok hT h1] at e1
  rw [PArr.rotationAt_ok hT h2] at e3
  cases e1
  cases e3
  have c : ∀ i, ((T.X.block 0 (i * (d + 1)) d (d + 1)).block 0 0 d d).cols = d := fun _ => rfl
  simp only [c, require_eq_ok, Bool.and_eq_true, beq_iff_eq] at e5
  exact ⟨h1, h2, e5.1.1.1.symm, e5.1.1.2.symm, e5.1.2.symm, e5.2⟩

/-- Two planar poses. -/
noncomputable def exPair : PArr ℝ := ⟨2, 2, 2, ⟨2, 6, fun i j => if i = j % 3 then 1 else 0⟩⟩

/-- The planar edge between them has a residual, an edge in space has none. -/
example : (∃ x, pgoResidual exPair (Meas.make 0 0 0 1 (DMat.one 2 2) (DMat.zero 2 1) 1 1) = ok x) ∧
    ∀ x, pgoResidual exPair (Meas.make 0 0 0 1 (DMat.one 3 3) (DMat.zero 3 1) 1 1) ≠ ok x := by
  refine ⟨⟨_, rfl⟩, fun x h => ?_⟩
  have := (C27_misfit (d := 2) (n := 2) ⟨rfl, rfl, rfl, rfl, rfl⟩ h).2.2.1
  exact absurd this (by decide)

end Dpgo.Props
