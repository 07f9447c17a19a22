import Verif.Spec.Agent
import Verif.Spec.Assembly
import Verif.Spec.Solver
import Verif.Spec.Optimizer

/-! # Local initialisation of a trajectory -/

namespace Dpgo.Spec

open Res Matrix

/-- The robot's own measurements describe one complete trajectory: odometry runs from pose 0 through
every pose, edges between own poses join different poses, with non-negative precisions. -/
structure Complete (d : Nat) (g : PoseGraph ℝ) : Prop where
  dim : d = 2 ∨ d = 3
  nonempty : g.odometry ≠ []
  con : Consecutive g.odometry
  all : g.odometry.length + 1 = g.n
  noSelf : ¬ hasSelfLoop g
  precise : Precise g.localMeasurements

/-- The rotation part of every pose has orthonormal columns. -/
def Orthonormal (r d n : Nat) (T : PArr ℝ) : Prop := ∀ i < n, (rotM r d T i)ᵀ * rotM r d T i = 1

/-- The trust-region solver stays on the manifold: started at poses with orthonormal columns, it
returns such poses. -/
def StaysOnManifold (o : OptOracles) : Prop :=
  ∀ (r d n : Nat) (Q G : DMat ℝ) (p : OptParams) (k : Nat) (Δ Δmax : ℝ) (Y : LVar r d n),
    Orthonormal r d n ⟨r, d, n, DMat.ofMat Y⟩ →
    Orthonormal r d n ⟨r, d, n, DMat.ofMat (o.rtr r d n Q G p k Δ Δmax Y).X⟩

/-- The poses of `S` relative to each other are those of `T`. -/
def SameRelative (d n : Nat) (S T : PArr ℝ) : Prop :=
  ∀ i < n, ∀ j < n, (rotM d d S i)⁻¹ * rotM d d S j = (rotM d d T i)⁻¹ * rotM d d T j ∧
    (rotM d d S i)⁻¹ *ᵥ (traV d d S j - traV d d S i) =
      (rotM d d T i)⁻¹ *ᵥ (traV d d T j - traV d d T i)

end Dpgo.Spec
