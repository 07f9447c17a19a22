import Verif.Spec.Chordal
import Mathlib.Analysis.InnerProductSpace.PiL2
import Mathlib.Analysis.InnerProductSpace.Projection.Basic

/-! # Least-squares solutions exist for every matrix and right-hand side -/

namespace Dpgo

open Spec Matrix WithLp

theorem norm2_eq {m : Nat} (v : Fin m → ℝ) : norm2 v = ‖toLp 2 v‖ ^ 2 := by
  rw [EuclideanSpace.norm_sq_eq]
  unfold norm2
  simp

theorem exists_lsq {m k : Nat} (A : Matrix (Fin m) (Fin k) ℝ) (b : Fin m → ℝ) :
    ∃ x, ∀ y, norm2 (A *ᵥ x - b) ≤ norm2 (A *ᵥ y - b) := by
  set U := LinearMap.range (Matrix.toEuclideanLin A)
  obtain ⟨z, hz⟩ := (U.starProjection_apply_mem (toLp 2 b))
  refine ⟨ofLp z, fun y => ?_⟩
  have h1 : toLp 2 (A *ᵥ ofLp z - b) = -(toLp 2 b - U.starProjection (toLp 2 b)) := by
    rw [← hz, neg_sub]
    rfl
  have hmem : toLp 2 (A *ᵥ y) ∈ U := ⟨toLp 2 y, rfl⟩
  have h2 : toLp 2 (A *ᵥ y - b) = -(toLp 2 b - toLp 2 (A *ᵥ y)) := by
    rw [neg_sub]; rfl
  rw [norm2_eq, norm2_eq, h1, h2, norm_neg, norm_neg, Submodule.starProjection_minimal]
  refine pow_le_pow_left₀ (Real.iInf_nonneg fun _ => norm_nonneg _) ?_ 2
  exact ciInf_le ⟨0, by rintro _ ⟨w, rfl⟩; exact norm_nonneg _⟩ (⟨toLp 2 (A *ᵥ y), hmem⟩ : U)

theorem exists_lawfulLsq : ∃ qr, LawfulLsq qr := by
  choose f hf using @exists_lsq
  exact ⟨fun m k A b => f A b, fun m k A b x => hf A b x⟩

end Dpgo
