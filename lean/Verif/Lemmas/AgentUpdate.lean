import Verif.Lemmas.AgentResidual
import Verif.Props.Robust

/-! # Weight updates succeed; both ends of a shared loop closure see the same residual -/

namespace Dpgo

open Res Spec PoseGraph

variable {ID : Nat} {p : AgentParams} {a a' : Agent}

theorem rotRes_congr {r d : Nat} {m m' : Meas ℝ} {A A' B B' : DMat ℝ} {i i' j j' : Nat}
    (hR : m'.R = m.R)
    (hA : ∀ ρ < r, ∀ c < d + 1, A.v ρ (i * (d + 1) + c) = A'.v ρ (i' * (d + 1) + c))
    (hB : ∀ ρ < r, ∀ c < d + 1, B.v ρ (j * (d + 1) + c) = B'.v ρ (j' * (d + 1) + c)) :
    rotRes r d m A i B j = rotRes r d m' A' i' B' j' := by
  unfold rotRes rot
  refine Finset.sum_congr rfl fun ρ hρ => Finset.sum_congr rfl fun c hc => ?_
  rw [Finset.mem_range] at hρ hc
  rw [hB ρ hρ c (by omega), hR]
  congr 2
  refine Finset.sum_congr rfl fun s hs => ?_
  rw [Finset.mem_range] at hs
  rw [hA ρ hρ s (by omega)]

theorem traRes_congr {r d : Nat} {m m' : Meas ℝ} {A A' B B' : DMat ℝ} {i i' j j' : Nat}
    (ht : m'.t = m.t)
    (hA : ∀ ρ < r, ∀ c < d + 1, A.v ρ (i * (d + 1) + c) = A'.v ρ (i' * (d + 1) + c))
    (hB : ∀ ρ < r, ∀ c < d + 1, B.v ρ (j * (d + 1) + c) = B'.v ρ (j' * (d + 1) + c)) :
    traRes r d m A i B j = traRes r d m' A' i' B' j' := by
  unfold traRes tra rot
  refine Finset.sum_congr rfl fun ρ hρ => ?_
  rw [Finset.mem_range] at hρ
  rw [hB ρ hρ d (by omega), hA ρ hρ d (by omega), ht]
  congr 2
  refine Finset.sum_congr rfl fun s hs => ?_
  rw [Finset.mem_range] at hs
  rw [hA ρ hρ s (by omega)]

theorem resid_congr {r d : Nat} {m m' : Meas ℝ} {A A' B B' : DMat ℝ} {i i' j j' : Nat}
    (hR : m'.R = m.R) (ht : m'.t = m.t) (hk : m'.kappa = m.kappa) (hτ : m'.tau = m.tau)
    (hA : ∀ ρ < r, ∀ c < d + 1, A.v ρ (i * (d + 1) + c) = A'.v ρ (i' * (d + 1) + c))
    (hB : ∀ ρ < r, ∀ c < d + 1, B.v ρ (j * (d + 1) + c) = B'.v ρ (j' * (d + 1) + c)) :
    resid r d m A i B j = resid r d m' A' i' B' j' := by
  unfold resid
  rw [rotRes_congr hR hA hB, traRes_congr ht hA hB, hk, hτ]

theorem forall₂_mem {α β : Type} {R : α → β → Prop} {l : List α} {l' : List β}
    (h : List.Forall₂ R l l') {x : α} (hx : x ∈ l) : ∃ y ∈ l', R x y := by
  induction h with
  | nil => cases hx
  | cons hr _ ih =>
    rcases List.mem_cons.1 hx with rfl | hx
    · exact ⟨_, by simp, hr⟩
    · obtain ⟨y, hy, h⟩ := ih hx
      exact ⟨y, by simp [hy], h⟩

/-- Weights of non-negative residuals are defined. -/
theorem weight_total (h : AgInv ID p a) (hp : ParamsOk p.robust) (hL1 : p.robust.costType ≠ .L1)
    {x : ℝ} (hx : 0 ≤ x) : ∃ w, a.cost.weight x = ok w ∧ 0 ≤ w ∧ w ≤ 1 := by
  obtain ⟨ops, hc⟩ := h.cost
  rw [hc]
  exact Props.C22_range p.robust hp hL1 ops x hx

theorem newWeight_total (h : AgInv ID p a) (hs : a.state = .INITIALIZED) {log : List (Meas ℝ)}
    (hinv : Inv a.graph log) {m : Meas ℝ} (hm : m ∈ log) (hp : ParamsOk p.robust)
    (hL1 : p.robust.costType ≠ .L1) : ∃ w, a.newWeight m = ok w := by
  obtain ⟨h1, h2⟩ := residual_spec h hs hinv hm
  unfold Agent.newWeight
  by_cases hk : EndsKnown ID a m
  · obtain ⟨⟨A, i, hA⟩, B, j, hB⟩ := hk
    rw [h1 A i B j hA hB, ok_bind]
    obtain ⟨w, hw, -⟩ := weight_total h hp hL1 (x := resid p.r p.d m A i B j) (Real.sqrt_nonneg _)
    exact ⟨some w, by simp [hw]⟩
  · rw [h2 hk, ok_bind]
    exact ⟨none, rfl⟩

theorem updateWeights_total (h : AgInv ID p a) (hp : ParamsOk p.robust)
    (hL1 : p.robust.costType ≠ .L1) (hk : a.weightUpdateCount + 1 < 2 ^ 31)
    (hr : a.trajectoryResetCount < p.numResets →
      a.trajectoryResetCount + 1 < 2 ^ 31 ∧ ∃ X, a.XInit = some X) :
    ∃ a', a.updateMeasurementWeights = ok a' := by
  unfold Agent.updateMeasurementWeights
  by_cases hs : a.state = .INITIALIZED
  · rw [if_neg (by simp [hs])]
    obtain ⟨⟨log, hinv⟩, hid⟩ := Reachable.inv h.reach
    have e := hinv.active_eq
    obtain ⟨g, hg⟩ := Agent.wloop_total (W := a.newWeight) (Agent.active_nodup h.reach e) fun q hq => by
      obtain ⟨m, hm, hv⟩ := Agent.active_valid h.reach e hq
      refine ⟨m, hm, newWeight_total h hs hinv ?_ hp hL1⟩
      rcases hv with ⟨i, -, hi⟩ | ⟨i, -, hi, -⟩ <;> have hi := List.mem_of_getElem? hi
      · rw [hinv.priv] at hi; exact (List.mem_filter.1 hi).1
      · rw [hinv.shared] at hi; exact (List.mem_filter.1 hi).1
    rw [← Agent.reweightStep_wstep] at hg
    rw [e, ok_bind, hg, ok_bind]
    unfold incInt
    rw [if_pos hk, ok_bind]
    simp only [Agent.resetAcceleration_eq]
    unfold Agent.resetTrajectory
    by_cases hc : a.trajectoryResetCount < a.params.numResets
    · obtain ⟨h1, X, hX⟩ := hr (by rw [← h.params]; exact hc)
      unfold incInt Agent.setXToInitialGuess
      simp only [hc, if_true, h1, ok_bind, hs, hX, bne]
      exact ⟨_, rfl⟩
    · simp only [hc, if_false, ok_bind]
      exact ⟨_, rfl⟩
  · exact ⟨a, if_pos hs⟩

end Dpgo
