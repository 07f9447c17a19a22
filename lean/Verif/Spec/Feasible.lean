import Verif.Spec.History
import Verif.Spec.LocalInit
import Verif.Spec.Projection

/-! # Feasible estimates -/

namespace Dpgo.Spec

open Res Matrix

/-- The retraction of the product manifold returns points of the manifold. -/
def RetractsToManifold (o : OptOracles) : Prop :=
  ∀ (r d n : Nat) (Y V : LVar r d n), Orthonormal r d n ⟨r, d, n, DMat.ofMat Y⟩ →
    Orthonormal r d n ⟨r, d, n, DMat.ofMat (o.retr r d n Y V)⟩

/-- The solver configured for the agent stays on the manifold; so does the trust-region solver of the robust
local initialisation. -/
structure FeasibleSolver (o : AgentOracles) (p : AgentParams) : Prop where
  rtr : p.localOpt.method = .RTR ∨ p.initMethod = .GNC_TLS → ∀ k, StaysOnManifold (o.opt k)
  rgd : p.localOpt.method = .RGD → ∀ k, RetractsToManifold (o.opt k)

/-- What the caller hands over consists of rotations (reflections included).  Nothing is asked of poses
received from neighbours. -/
def FeasibleCall (p : AgentParams) : AgOp → Prop
  | .addMeasurement m => OrthoCols (m.R.toMat p.d p.d)
  | .setMeasurements odo priv shared => ∀ m ∈ odo ++ priv ++ shared, OrthoCols (m.R.toMat p.d p.d)
  | .init T => ∀ P, T = some P → Orthonormal p.d p.d P.n P
  | .initializeInGlobalFrame T => OrthoCols (rotM p.d p.d T 0)
  | .setX M => ∀ n, M.cols = (p.d + 1) * n → Orthonormal p.r p.d n ⟨p.r, p.d, n, M⟩
  | .setLiftingMatrix M => OrthoCols (M.toMat p.r p.d)
  | _ => True

end Dpgo.Spec
