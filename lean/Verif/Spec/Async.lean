import Verif.Spec.Convergence

/-!
# Stale messages

Schedules in which robots optimise with old poses of their neighbours, as long as the poses are not too old; and
what is asked of the geometry of single gradient steps.
-/

namespace Dpgo.Spec

open Res

/-- The robots that have optimised, latest first. -/
def optimisers : List NetOp → List Nat
  | [] => []
  | .iterate i true :: ops => optimisers ops ++ [i]
  | _ :: ops => optimisers ops

/-- When a robot optimises after the events `before`, every optimisation of a neighbour that it has not heard of is
among the last `B` optimisations of the team. -/
def Recent (E : List (Meas ℝ)) (B : Nat) (before : List NetOp) : NetOp → Prop
  | .iterate i true => ∀ j, Partners E i j → ∃ v, (Clock.after before).seen i j = some v ∧
      (Clock.after before).moves j ≤ v + ((optimisers before).take B).count j
  | _ => True

/-- Every event of the schedule is as required after the events before it. -/
def Throughout (P : List NetOp → NetOp → Prop) (ops : List NetOp) : Prop :=
  ∀ before op after, ops = before ++ op :: after → P before op

noncomputable section

/-- Gradient steps behave as on a smooth manifold: the projection is orthogonal, and a retraction along a projected
direction stays within `α` times its length and differs from the straight step by at most `β` times the square of its
length. -/
structure Tame (α β : ℝ) (o : OptOracles) : Prop where
  orthogonal : ∀ (r d n : Nat) (Y U V : LVar r d n), Orthonormal r d n ⟨r, d, n, DMat.ofMat Y⟩ →
    (DMat.ofMat U).dot (DMat.ofMat (o.proj r d n Y V)) =
      (DMat.ofMat (o.proj r d n Y U)).dot (DMat.ofMat (o.proj r d n Y V))
  near : ∀ (r d n : Nat) (Y V : LVar r d n) (s : ℝ), Orthonormal r d n ⟨r, d, n, DMat.ofMat Y⟩ →
    PArr.norm (DMat.ofMat (o.retr r d n Y (s • o.proj r d n Y V) - Y)) ≤
      α * PArr.norm (DMat.ofMat (s • o.proj r d n Y V))
  second : ∀ (r d n : Nat) (Y V : LVar r d n) (s : ℝ), Orthonormal r d n ⟨r, d, n, DMat.ofMat Y⟩ →
    PArr.norm (DMat.ofMat (o.retr r d n Y (s • o.proj r d n Y V) - Y - s • o.proj r d n Y V)) ≤
      β * (DMat.ofMat (s • o.proj r d n Y V)).normSq

/-- Solving with the preconditioner is exact: for symmetric positive definite `P`, the solution `W` has `W P = V`. -/
def ExactSolve (o : OptOracles) : Prop :=
  ∀ (r d n : Nat) (P : DMat ℝ) (V : LVar r d n), P.rows = (d + 1) * n → P.cols = (d + 1) * n →
    (∀ i j, P.v i j = P.v j i) →
    (∀ U : DMat ℝ, U.rows = r → U.cols = (d + 1) * n → (∃ i < r, ∃ j < (d + 1) * n, U.v i j ≠ 0) →
      0 < (U.mul P).dot U) →
    o.cholSolve r d n P V * P.toMat _ _ = V

/-! ### The manifold of rotations and translations -/

/-- Rotation part of a pose. -/
def rotPart {r d : Nat} (P : Matrix (Fin r) (Fin (d + 1)) ℝ) : Matrix (Fin r) (Fin d) ℝ :=
  Matrix.of fun ρ c => P ρ c.castSucc

/-- A pose from its parts. -/
def mkPose {r d : Nat} (R : Matrix (Fin r) (Fin d) ℝ) (t : Fin r → ℝ) : Matrix (Fin r) (Fin (d + 1)) ℝ :=
  Matrix.of fun ρ => Fin.lastCases (t ρ) fun c => R ρ c

/-- Orthogonal projection to the tangent space of the manifold of poses: `A - R sym(Rᵀ A)` for the rotation. -/
def tangent : PoseProj := fun _ d Y V =>
  mkPose (rotPart V - rotPart Y * ((1 / 2 : ℝ) • ((rotPart Y).transpose * rotPart V + (rotPart V).transpose * rotPart Y)))
    fun ρ => V ρ (Fin.last d)

/-- Retraction of poses: add, and project the rotation (the nearest matrix with orthonormal columns). -/
def polar (svd : SvdOracle) {r d : Nat} (Y V : Matrix (Fin r) (Fin (d + 1)) ℝ) : Matrix (Fin r) (Fin (d + 1)) ℝ :=
  mkPose ((svd r d (rotPart Y + rotPart V)).U * (svd r d (rotPart Y + rotPart V)).V.transpose)
    fun ρ => Y ρ (Fin.last d) + V ρ (Fin.last d)

/-- All poses, each by itself. -/
def eachPose {r d n : Nat} (f : Nat → Matrix (Fin r) (Fin (d + 1)) ℝ) : LVar r d n :=
  Matrix.of fun ρ j => f ((j : Nat) / (d + 1)) ρ ⟨(j : Nat) % (d + 1), Nat.mod_lt _ d.succ_pos⟩

/-- The projection and retraction of the product manifold. -/
def onManifold (svd : SvdOracle) (o : OptOracles) : OptOracles :=
  { o with
    proj := fun r d _ Y V => eachPose fun k => tangent r d (poseOf r d (DMat.ofMat Y) k) (poseOf r d (DMat.ofMat V) k)
    retr := fun r d _ Y V => eachPose fun k => polar svd (poseOf r d (DMat.ofMat Y) k) (poseOf r d (DMat.ofMat V) k) }

end

end Dpgo.Spec
