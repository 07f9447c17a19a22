import Verif.Lemmas.RestExact
import Verif.Props.Demo

/-! # The demo on exact data -/

namespace Dpgo.Props

open Res Spec PoseGraph Example

section
variable {o : AgentOracles} {oc : OptOracles} {q : Options} {d N n : Nat} {D : List (Meas ℝ)}

/-- A demo whose first line has no positive cost prints nothing else. -/
theorem exact_lines (hN : 2 ≤ N) (hNn : 2 * N ≤ n) (hn : n * (d + 1) < 2 ^ 32) (hD : Dataset d n D) (hrd : d ≤ q.r)
    (hacc : q.acceleration = true → u32 (2 * N) ≠ 0) (ho : LawfulLsq o.qr)
    (hq : 0 < q.numIters) (hq' : q.numIters < 2 ^ 32) (hz : KeepsZero oc) {junk : Nat → Nat → ℝ} {s : LoopState}
    (e : demo o oc q junk (N : Int) n D = ok s) (h0 : ∀ l, s.lines[0]? = some l → l.cost ≤ 0) :
    s.lines = [⟨0, 0, 0, 0⟩] := by
  have hN0 : 0 < N := by omega
  obtain ⟨h1, h2, h3, h4, h5⟩ := C68_output hN0 hNn hn hD hrd hacc ho hq' junk e
  have hne : s.lines ≠ [] := by
    intro c
    obtain ⟨l, hl, -⟩ := h5 (by rw [c]; exact hq)
    rw [c] at hl
    cases hl
  obtain ⟨l, rest, hs⟩ := List.exists_cons_of_ne_nil hne
  have hl0 : s.lines[0]? = some l := by rw [hs]; rfl
  obtain ⟨sk, ek, hc, -⟩ := C69_cost hN0 hNn hn hD hrd hacc ho hq' junk e hl0
  have hpos : ∀ Y, 0 ≤ teamCost q.r d D Y := teamCost_nonneg hD.precise fun m hm => by
    rw [hD.unit m hm]; exact zero_le_one
  have hz0 : teamCost q.r d D (fun _ => sk.Xopt) = 0 := by
    have := h0 l hl0
    have := hpos (fun _ => sk.Xopt)
    linarith
  obtain ⟨Gr, R, hG, hR, hnorm, -⟩ := C70_greedy hNn hn hD hrd hacc ho hN (k := 0) (by norm_num) junk ek
  obtain ⟨l', hl', hr⟩ := (C70_order hN0 hNn hn hD hrd hacc ho junk).1 sk ek
  obtain ⟨s₀, s', e₀, e', hlines, -⟩ := demo_total (oc := oc) hN0 hNn hn hD hrd hacc ho hq' junk
  rw [e] at e'
  cases e'
  obtain ⟨s₁, e₁, ht⟩ := lines_prefix (q := q) hN0 hNn hn hD hrd hacc ho (j := 1) (k := q.numIters) hq hq' e₀
  rw [show (0 + 1 : Nat) = 1 from rfl] at ek
  rw [ek] at e₁
  cases e₁
  rw [← hlines, hs, hl'] at ht
  have hll : l' = l := by simpa using ht
  subst hll
  have hg : l'.gradnorm = 0 := by
    rw [hnorm l' (by rw [hl']; rfl), hR]
    exact norm_projected_zero hz hG.1 (by rw [hG.2.1]; ring) (gradient_zero hpos hz0 hG)
  have hrest : rest = [] := by
    by_contra c
    have := h4 l' (by
      rw [hs, List.dropLast_cons_of_ne_nil c]
      exact List.mem_cons_self)
    rw [hg] at this
    norm_num at this
  subst hrest
  rw [hs] at h1 ⊢
  have hi : l'.iter = 0 := by simpa using h1
  have hcost : l'.cost = 0 := by rw [hc, hz0, mul_zero]
  cases l'
  simp only at hi hcost hg hr
  subst hi hcost hg hr
  rfl

end

end Dpgo.Props
