import Verif.Lemmas.Projection
import Mathlib.Analysis.InnerProductSpace.Spectrum
import Mathlib.Analysis.InnerProductSpace.Adjoint
import Mathlib.Analysis.InnerProductSpace.PiL2

/-! # Every tall matrix has a singular value decomposition -/

namespace Dpgo.Spec

open Matrix

variable {r d : Nat}

theorem orthoCols_of_orthonormal {m n : Nat} {f : Fin n → EuclideanSpace ℝ (Fin m)}
    (h : Orthonormal ℝ f) : OrthoCols (Matrix.of fun i j => f j i) := by
  ext i j
  have := orthonormal_iff_ite.1 h i j
  rw [PiLp.inner_apply] at this
  rw [Matrix.mul_apply, Matrix.one_apply, ← this]
  refine Finset.sum_congr rfl fun k _ => ?_
  rw [real_inner_eq_re_inner, Matrix.transpose_apply, Matrix.of_apply, Matrix.of_apply, mul_comm]
  rfl

theorem exists_svd (hrd : d ≤ r) (M : Matrix (Fin r) (Fin d) ℝ) :
    ∃ U s V, IsSvd M U s V := by
  let L : EuclideanSpace ℝ (Fin d) →ₗ[ℝ] EuclideanSpace ℝ (Fin r) := Matrix.toEuclideanLin M
  let T := L.adjoint ∘ₗ L
  have hT : T.IsSymmetric := L.isSymmetric_adjoint_comp_self
  have hd : Module.finrank ℝ (EuclideanSpace ℝ (Fin d)) = d := finrank_euclideanSpace_fin
  let b := hT.eigenvectorBasis hd
  let lam := hT.eigenvalues hd
  have hin : ∀ i j, inner ℝ (L (b i)) (L (b j)) = if i = j then lam j else 0 := by
    intro i j
    have h1 : inner ℝ (L (b i)) (L (b j)) = inner ℝ (b i) (T (b j)) :=
      (LinearMap.adjoint_inner_right L (b i) (L (b j))).symm
    have h2 : T (b j) = (lam j : ℝ) • b j := hT.apply_eigenvectorBasis hd j
    rw [h1, h2, inner_smul_right, orthonormal_iff_ite.1 b.orthonormal i j]
    split <;> simp
  have hlam : ∀ i, 0 ≤ lam i := by
    intro i
    have := hin i i
    rw [if_pos rfl] at this
    rw [← this]
    exact real_inner_self_nonneg
  let s : Fin d → ℝ := fun i => Real.sqrt (lam i)
  have hss : ∀ i, s i * s i = lam i := fun i => Real.mul_self_sqrt (hlam i)
  let v : Fin r → EuclideanSpace ℝ (Fin r) := fun k =>
    if h : (k : Nat) < d then (s ⟨k, h⟩)⁻¹ • L (b ⟨k, h⟩) else 0
  let S : Set (Fin r) := {k | ∃ h : (k : Nat) < d, s ⟨k, h⟩ ≠ 0}
  have hv : Orthonormal ℝ (S.domRestrict v) := by
    rw [orthonormal_iff_ite]
    rintro ⟨k, hk, hsk⟩ ⟨l, hl, hsl⟩
    simp only [Set.domRestrict_apply, v, dif_pos hk, dif_pos hl, inner_smul_left, inner_smul_right,
      hin, Subtype.mk.injEq, Fin.ext_iff]
    by_cases e : (k : Nat) = l
    · have e' : k = l := Fin.ext e
      subst e'
      simp only [if_pos, RCLike.conj_to_real]
      rw [← hss]
      field_simp
    · simp [e]
  obtain ⟨b', hb'⟩ := hv.exists_orthonormalBasis_extension_of_card_eq
    (by rw [finrank_euclideanSpace_fin, Fintype.card_fin])
  have hkey : ∀ j : Fin d, L (b j) = s j • b' (Fin.castLE hrd j) := by
    intro j
    by_cases e : s j = 0
    · have h0 := hin j j
      rw [if_pos rfl, ← hss, e, zero_mul] at h0
      rw [inner_self_eq_zero.1 h0, e, zero_smul]
    · rw [hb' (Fin.castLE hrd j) ⟨j.2, e⟩]
      have hj : ((Fin.castLE hrd j : Fin r) : Nat) < d := j.2
      have e2 : v (Fin.castLE hrd j) = (s j)⁻¹ • L (b j) := dif_pos hj
      rw [e2, smul_smul, mul_inv_cancel₀ e, one_smul]
  let U : Matrix (Fin r) (Fin d) ℝ := Matrix.of fun i j => b' (Fin.castLE hrd j) i
  let V : Matrix (Fin d) (Fin d) ℝ := Matrix.of fun i j => b j i
  have hU : OrthoCols U := orthoCols_of_orthonormal
    (b'.orthonormal.comp _ (Fin.castLE_injective hrd))
  have hV : OrthoCols V := orthoCols_of_orthonormal b.orthonormal
  have hMV : M * V = U * Matrix.diagonal s := by
    ext i j
    have := congrArg (fun x : EuclideanSpace ℝ (Fin r) => x i) (hkey j)
    rw [Matrix.mul_diagonal, Matrix.mul_apply]
    simp only [PiLp.smul_apply, smul_eq_mul] at this
    rw [show U i j * s j = s j * b' (Fin.castLE hrd j) i from mul_comm _ _, ← this]
    rfl
  refine ⟨U, s, V, hU, hV, fun i => Real.sqrt_nonneg _, fun i j hij => ?_, ?_⟩
  · exact Real.sqrt_le_sqrt (hT.eigenvalues_antitone hd hij)
  · rw [← hMV, Matrix.mul_assoc, hV.comm, Matrix.mul_one]

open Classical in
/-- There is a lawful SVD oracle. -/
theorem exists_lawfulSvd : ∃ svd, LawfulSvd svd := by
  have h : ∀ (r d : Nat) (M : Matrix (Fin r) (Fin d) ℝ), ∃ o : SvdOut r d, d ≤ r →
      IsSvd M o.U o.s o.V := by
    intro r d M
    by_cases hc : d ≤ r
    · obtain ⟨U, s, V, h⟩ := exists_svd hc M
      exact ⟨⟨U, s, V⟩, fun _ => h⟩
    · exact ⟨⟨M, fun _ => 0, 1⟩, fun h => absurd h hc⟩
  choose f hf using h
  exact ⟨f, hf⟩

end Dpgo.Spec
