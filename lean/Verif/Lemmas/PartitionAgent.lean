import Verif.Lemmas.PartitionBlocks
import Verif.Model.Agent

/-!
# Agents fed with the lists of the split
-/

namespace Dpgo.Example

open Res Spec

/-- Assembling from parts only succeeds when the parts have the right sizes. -/
theorem assemble_joins {K : Type} [Field K] {N n d r : Nat} (hN : 0 < N) (hNn : N ≤ n)
    (hn : n * (d + 1) < 2 ^ 32) {X : Joint K} {Y₀ Y : DMat K}
    (hY : Y₀.rows = r ∧ Y₀.cols = n * (d + 1)) (e : assemble r d N n (n / N) X Y₀ = ok Y) :
    Joins r d n (place N (n / N)) X Y := by
  have sizes : ∀ (l : List Nat) (A B : DMat K), Res.foldl (fun (Y : DMat K) robot => do
      let s := startIdx (n / N) robot
      let e := endIdx N n (n / N) robot
      require (Y.inRange 0 (blockCol d s) r (blockCols d s e) &&
        (X robot).rows == r && (X robot).cols == blockCols d s e)
      ok (Y.setBlock 0 (blockCol d s) (X robot))) A l = ok B →
      ∀ a ∈ l, (X a).rows = r ∧
        (X a).cols = blockCols d (startIdx (n / N) a) (endIdx N n (n / N) a) := by
    intro l
    induction l with
    | nil => intro A B _ a ha; exact absurd ha (by simp)
    | cons b l ih =>
      intro A B h a ha
      rw [foldl_cons, bind_eq_ok'] at h
      obtain ⟨C, hC, h⟩ := h
      rcases List.mem_cons.1 ha with rfl | ha
      · simp only [bind_eq_ok, require_eq_ok] at hC
        obtain ⟨_, hC, -⟩ := hC
        simp only [Bool.and_eq_true, beq_iff_eq] at hC
        exact ⟨hC.1.2, hC.2⟩
      · exact ih C B h a ha
  obtain ⟨Y', e', -, -, h⟩ := assemble_ok hN hNn hn (X := X) (r := r) (fun a ha => by
    obtain ⟨h1, h2⟩ := sizes _ _ _ e a (List.mem_range.2 ha)
    exact ⟨h1, h2.trans (cols_eq hn ha).2.1⟩) hY
  rw [e'] at e
  cases e
  exact h

theorem measWF_relabel {K : Type} [Field K] {N n : Nat} (hN : 0 < N) (hNn : N ≤ n) (hn : n < 2 ^ 32)
    {m : Meas K} (hm : EndsBelow n m) : MeasWF (relabel (place N (n / N)) m) := by
  have h1 := place_robot_lt hN (n := n) m.p1
  have h2 := place_robot_lt hN (n := n) m.p2
  have h3 := (place_frame (N := N) (n := n) m.p1).1
  have h4 := (place_frame (N := N) (n := n) m.p2).1
  obtain ⟨h5, h6⟩ := hm
  simp only [MeasWF, relabel]
  omega

section
variable {N n : Nat} (hN : 0 < N) (hNn : N ≤ n) (hn : n < 2 ^ 32)
include hN hNn hn

theorem agent_takes {D : List (Meas ℝ)} (hD : ∀ m ∈ D, EndsBelow n m) {ag : Agent} (hd : ag.d ≤ ag.r)
    (_hid : ag.id < N) (hw : ag.state = .WAIT_FOR_DATA) (hr : ag.running = false)
    (hdim : ∀ m ∈ D, m.R.rows = ag.d ∧ m.R.cols = ag.d ∧ m.t.rows = ag.d ∧ m.t.cols = 1)
    (hne : (D.map (relabel (place N (n / N)))).filter (isOdo ag.id) ≠ []) :
    ∃ ag', ag.setMeasurements ((D.map (relabel (place N (n / N)))).filter (isOdo ag.id))
        ((D.map (relabel (place N (n / N)))).filter (isPriv ag.id))
        ((D.map (relabel (place N (n / N)))).filter (isShared ag.id)) = ok ag' ∧
      ag'.id = ag.id ∧
      TeamInv ag.r ag.d (D.map (relabel (place N (n / N)))) ag.id ag'.graph ∧
      ag'.graph.measurements = buckets ag.id
        (firstWins ((D.map (relabel (place N (n / N)))).filter (touches ag.id))) := by
  generalize hE : D.map (relabel (place N (n / N))) = E at *
  have hwf : ∀ m ∈ E, MeasWF m := by
    intro m hm
    rw [← hE] at hm
    obtain ⟨x, hx, rfl⟩ := List.mem_map.1 hm
    exact measWF_relabel hN hNn hn (hD x hx)
  have hdim' : ∀ m ∈ E, m.R.rows = ag.d ∧ m.R.cols = ag.d ∧ m.t.rows = ag.d ∧ m.t.cols = 1 := by
    intro m hm
    rw [← hE] at hm
    obtain ⟨x, hx, rfl⟩ := List.mem_map.1 hm
    exact hdim x hx
  obtain ⟨g₀, hg₀, hd₀, hid₀⟩ : ∃ g₀ : PoseGraph ℝ, PoseGraph.new ag.id ag.r ag.d = ok g₀ ∧ g₀.d = ag.d ∧
      g₀.id = ag.id := by
    unfold PoseGraph.new
    rw [decide_eq_true hd]
    exact ⟨_, rfl, rfl, rfl⟩
  have hsub : ∀ m ∈ E.filter (isOdo ag.id) ++ E.filter (isPriv ag.id) ++ E.filter (isShared ag.id),
      m ∈ E := by
    intro m hm
    simp only [List.mem_append, List.mem_filter] at hm
    tauto
  obtain ⟨g, hg⟩ := PoseGraph.foldl_addMeasurement_ok (g := g₀.empty)
    (E.filter (isOdo ag.id) ++ E.filter (isPriv ag.id) ++ E.filter (isShared ag.id))
    (fun m hm => by rw [show g₀.empty.d = ag.d from hd₀]; exact hdim' m (hsub m hm))
  have hinv := TeamInv.init (E := E.filter (isOdo ag.id) ++ E.filter (isPriv ag.id) ++
    E.filter (isShared ag.id)) (fun m hm => hwf m (hsub m hm)) hg₀ hg
  have hb := hinv.edges
  rw [buckets_lists] at hb
  refine ⟨{ ag with graph := g }, ?_, rfl, { hinv with edges := hb }, hb⟩
  have hc1 : (!ag.running) = true := by rw [hr]; rfl
  have hc2 : (ag.state == .WAIT_FOR_DATA) = true := by rw [hw]; rfl
  have hc3 : (E.filter (isOdo ag.id)).isEmpty = false := by
    rw [List.isEmpty_eq_false_iff]; exact hne
  have hg' : g₀.setMeasurements (E.filter (isOdo ag.id) ++ E.filter (isPriv ag.id) ++
    E.filter (isShared ag.id)) = ok g := hg
  unfold Agent.setMeasurements
  simp only [hc1, hc2, hc3, hg₀, hg', check_true, ok_bind, Bool.false_eq_true, if_false]

end

/-! ### Counting -/

theorem sum_range_ind (N a : Nat) (ha : a < N) :
    ((List.range N).map fun b => if b = a then 1 else 0).sum = 1 := by
  induction N with
  | zero => omega
  | succ N ih =>
    rw [List.range_succ, List.map_append, List.sum_append]
    by_cases h : a = N
    · subst h
      have : ((List.range a).map fun b => if b = a then 1 else 0) = (List.range a).map fun _ => 0 := by
        apply List.map_congr_left
        intro b hb
        rw [if_neg (by have := List.mem_range.1 hb; omega)]
      rw [this]
      simp
    · rw [ih (by omega)]
      simp [Ne.symm h]

theorem sum_map_add (l : List Nat) (f g : Nat → Nat) :
    (l.map fun a => f a + g a).sum = (l.map f).sum + (l.map g).sum := by
  induction l with
  | nil => rfl
  | cons a l ih => simp only [List.map_cons, List.sum_cons, ih]; omega

theorem count_kinds {K : Type} {N : Nat} : ∀ (E : List (Meas K)),
    (∀ m ∈ E, m.r1 < N ∧ m.r2 < N) →
    2 * (((List.range N).map fun a => E.filter (isOdo a)).map List.length).sum +
      2 * (((List.range N).map fun a => E.filter (isPriv a)).map List.length).sum +
      (((List.range N).map fun a => E.filter (isShared a)).map List.length).sum = 2 * E.length := by
  intro E
  induction E with
  | nil => intro _; simp
  | cons m E ih =>
    intro h
    have ih := ih (fun x hx => h x (by simp [hx]))
    obtain ⟨h1, h2⟩ := h m (by simp)
    simp only [List.map_map, Function.comp_def] at ih ⊢
    have len : ∀ p : Meas K → Bool,
        ((m :: E).filter p).length = (E.filter p).length + if p m = true then 1 else 0 := by
      intro p
      by_cases c : p m = true
      · simp [c]
      · simp [c]
    simp only [len, sum_map_add, List.length_cons]
    have i1 := sum_range_ind N m.r1 h1
    have i2 := sum_range_ind N m.r2 h2
    have point : ∀ a, (2 * (if isOdo a m = true then 1 else 0) + 2 * (if isPriv a m = true then 1 else 0)) +
        (if isShared a m = true then 1 else 0) = (if a = m.r1 then 1 else 0) + if a = m.r2 then 1 else 0 := by
      intro a
      by_cases c1 : m.r1 = a <;> by_cases c2 : m.r2 = a <;> by_cases c3 : m.p1 + 1 = m.p2 <;>
        simp [isOdo, isPriv, isShared, c1, c2, c3, eq_comm (a := a)]
    have tot := congrArg List.sum (List.map_congr_left (l := List.range N) (fun a _ => point a))
    rw [sum_map_add, sum_map_add, sum_map_add, i1, i2] at tot
    have dbl : ∀ f : Nat → Nat, ((List.range N).map fun a => 2 * f a).sum =
        2 * ((List.range N).map f).sum := by
      intro f
      induction List.range N with
      | nil => rfl
      | cons b l ih => simp only [List.map_cons, List.sum_cons, ih]; omega
    rw [dbl, dbl] at tot
    omega

end Dpgo.Example
