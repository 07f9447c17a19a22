import Verif.Lemmas.Optimizer
import Verif.Props.Objective

/-! # The gradient of the optimiser -/

namespace Dpgo

open Res Spec PoseGraph Finset

theorem problemF_resize {g g1 : PoseGraph ℝ} {Y Z : DMat ℝ} {f : ℝ} (e : problemF g Y = ok (f, g1))
    (h1 : Z.rows = Y.rows) (h2 : Z.cols = Y.cols) : ∃ f', problemF g Z = ok (f', g1) := by
  unfold problemF at e ⊢
  rw [h1, h2]
  simp only [bind_eq_ok] at e
  obtain ⟨_, c1, _, c2, ⟨Q, ga⟩, c3, ⟨G, gb⟩, c4, _, c5, e⟩ := e
  cases e
  simp only at c4 c5
  refine ⟨1 / 2 * (Z.mul Q).dot Z + Z.dot G, ?_⟩
  rw [c1, c2]
  simp only [ok_bind, c3, c4, c5]

/-- The matrix `Y Q + G` is the gradient of the cost. -/
theorem graph_gradient {id r d : Nat} {g g1 : PoseGraph ℝ} {Y Q G : DMat ℝ} {f : ℝ} (hg : Reachable id r d g)
    (hQ : g.Q = none) (hG : g.G = none) (e : problemF g Y = ok (f, g1)) (h1 : g1.Q = some Q)
    (h2 : g1.G = some G) : GraphGradient g Y (eucGrad Q G Y) := by
  obtain ⟨Q', G', g2, g3, eQ, eG, -, y1, y2, -, hQc, -, -⟩ := problemF_gen e
  obtain ⟨Q'', G'', hg1, -, -, -, -, -, -, -, -, -, cQ, cG⟩ := problemF_full e
  have hQ' : Q' = Q := by
    rw [hg1] at h1
    have h1 : some Q'' = some Q := h1
    rcases quadraticMatrix_ok eQ with ⟨a, -⟩ | ⟨-, b, -⟩
    · rw [hQ] at a; cases a
    · have := cQ hQ
      rw [b] at this
      cases this
      exact Option.some.inj h1
  have hG' : G' = G := by
    rw [hg1] at h2
    have h2 : some G'' = some G := h2
    rcases linearMatrix_ok eG with ⟨a, -⟩ | ⟨-, b, -⟩
    · rw [hG] at a; cases a
    · have := cG hG
      rw [b] at this
      cases this
      exact Option.some.inj h2
  subst hQ' hG'
  refine ⟨y1, by show Q'.cols = _; rw [hQc, y2], fun V v1 v2 => ⟨1 / 2 * (eucHess Q' V).dot V, fun t => ?_⟩⟩
  obtain ⟨f', e'⟩ := problemF_resize (Z := Y.add (V.smul t)) e rfl rfl
  have hx := Props.C12_expansion two_ne_zero id r d g g1 g1 g2 g3 hg Y (V.smul t) Q' G' f f'
    (by rw [y1]; exact v1) (by rw [y2]; exact v2) eQ eG e e'
  have hd := Props.C11_difference two_ne_zero id r d g g1 g1 hg hQ hG _ _ _ _ e e'
  have e1 : (eucGrad Q' G' Y).dot (V.smul t) = t * (eucGrad Q' G' Y).dot V := by
    simp only [DMat.dot, DMat.smul, Finset.mul_sum]
    exact Finset.sum_congr rfl fun _ _ => Finset.sum_congr rfl fun _ _ => by ring
  have e2 : (eucHess Q' (V.smul t)).dot (V.smul t) = t ^ 2 * (eucHess Q' V).dot V := by
    simp only [DMat.dot, DMat.smul, eucHess, DMat.mul, Finset.mul_sum, Finset.sum_mul]
    exact Finset.sum_congr rfl fun _ _ => Finset.sum_congr rfl fun _ _ => Finset.sum_congr rfl fun _ _ => by ring
  rw [e1, e2] at hx
  linarith

end Dpgo
