import Verif.Spec.Demo

/-! # What the single-robot example programs are meant to do -/

namespace Dpgo.Spec

open Matrix

/-- The measurements are those of the trajectory `Rs`, `ts`, without noise and with positive precisions. -/
structure NoiseFree (d n : Nat) (D : List (Meas ℝ)) (Rs : Nat → Matrix (Fin d) (Fin d) ℝ)
    (ts : Nat → Fin d → ℝ) : Prop where
  pos : ∀ m ∈ D, 0 < m.kappa ∧ 0 < m.tau
  rot : ∀ i < n, IsRot (Rs i)
  R : ∀ m ∈ D, Rs m.p2 = Rs m.p1 * m.R.toMat d d
  t : ∀ m ∈ D, ts m.p2 = ts m.p1 + Rs m.p1 *ᵥ colV d m.t

/-- The edges of the list, each counted once, those between consecutive poses first. -/
def odometryFirst (D : List (Meas ℝ)) : List (Meas ℝ) :=
  (firstWins D).filter (fun m => m.p1 + 1 == m.p2) ++ (firstWins D).filter (fun m => m.p1 + 1 != m.p2)

end Dpgo.Spec
