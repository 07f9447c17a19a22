import Verif.Lemmas.Caches
import Verif.Spec.Assembly
import Mathlib.Data.List.Nodup
import Mathlib.Data.List.Range

/-! # When the assembly of the data matrices succeeds -/

namespace Dpgo

open Res Spec

variable {K : Type} [Field K]

theorem OMap.mem_insert {κ β : Type} {lt : κ → κ → Bool} (k : κ) (v : β)
    (m : OMap κ β) (p : κ × β) (hp : p ∈ OMap.insert lt k v m) :
    p.2 = v ∨ p ∈ m := by
  induction m with
  | nil => simp [OMap.insert] at hp; left; rw [hp]
  | cons q t ih =>
    obtain ⟨k', v'⟩ := q
    unfold OMap.insert at hp
    split at hp
    · simp only [List.mem_cons] at hp
      rcases hp with rfl | hp | hp
      · left; rfl
      · right; simp [hp]
      · right; simp [hp]
    · split at hp
      · simp only [List.mem_cons] at hp
        rcases hp with rfl | hp
        · right; simp
        · rcases ih hp with h | h
          · left; exact h
          · right; simp [h]
      · simp only [List.mem_cons] at hp
        rcases hp with rfl | hp
        · left; rfl
        · right; simp [hp]

theorem OMap.key_mem_insert {κ β : Type} {lt : κ → κ → Bool} (h : StrictTotal lt) (k : κ) (v : β)
    (m : OMap κ β) (p : κ × β) (hp : p ∈ OMap.insert lt k v m) : p = (k, v) ∨ p ∈ m := by
  induction m with
  | nil => simp [OMap.insert] at hp; left; exact hp
  | cons q t ih =>
    obtain ⟨k', v'⟩ := q
    unfold OMap.insert at hp
    split at hp
    · simp only [List.mem_cons] at hp
      rcases hp with rfl | hp | hp
      · left; rfl
      · right; simp [hp]
      · right; simp [hp]
    · rename_i h1
      split at hp
      · simp only [List.mem_cons] at hp
        rcases hp with rfl | hp
        · right; simp
        · rcases ih hp with h | h
          · left; exact h
          · right; simp [h]
      · rename_i h2
        have : k = k' := h.total _ _ (by simpa using h1) (by simpa using h2)
        subst this
        simp only [List.mem_cons] at hp
        rcases hp with rfl | hp
        · left; rfl
        · right; simp [hp]

/-! ### Sparse insertion -/

omit [Field K] in
/-- Position of a stored entry. -/
def pos (t : Nat × Nat × K) : Nat × Nat := (t.1, t.2.1)

omit [Field K] in
theorem SpMat.insert_cases (A : SpMat K) (t : Nat × Nat × K) :
    (A.insert t = ok { A with trips := A.trips ++ [t] } ∧ t.1 < A.rows ∧ t.2.1 < A.cols ∧
      pos t ∉ A.trips.map pos) ∨ A.insert t = ub := by
  unfold SpMat.insert
  split
  · rename_i h; left; exact ⟨rfl, h⟩
  · right; rfl

omit [Field K] in
theorem SpMat.foldl_insert_cases (l : List (Nat × Nat × K)) (A : SpMat K)
    (hA : (A.trips.map pos).Nodup) :
    (∃ B, Res.foldl SpMat.insert A l = ok B ∧ (B.trips.map pos).Nodup) ∨
      Res.foldl SpMat.insert A l = ub := by
  induction l generalizing A with
  | nil => left; exact ⟨A, rfl, hA⟩
  | cons t l ih =>
    rw [foldl_cons]
    rcases A.insert_cases t with ⟨h1, -, -, h4⟩ | h
    · rw [h1]
      refine ih _ ?_
      simp only [List.map_append, List.map_cons, List.map_nil]
      rw [List.nodup_append]
      refine ⟨hA, by simp, ?_⟩
      intro a ha b hb
      rw [List.mem_singleton] at hb
      subst hb
      intro e
      subst e
      exact h4 ha
    · right; rw [h]; rfl

omit [Field K] in
theorem SpMat.foldl_insert_ok (l : List (Nat × Nat × K)) (A : SpMat K)
    (hr : ∀ t ∈ l, t.1 < A.rows ∧ t.2.1 < A.cols) (hl : (l.map pos).Nodup)
    (hd : ∀ t ∈ l, pos t ∉ A.trips.map pos) :
    ∃ B, Res.foldl SpMat.insert A l = ok B := by
  induction l generalizing A with
  | nil => exact ⟨A, rfl⟩
  | cons t l ih =>
    rw [foldl_cons]
    have h1 : A.insert t = ok { A with trips := A.trips ++ [t] } := by
      unfold SpMat.insert
      rw [if_pos]
      exact ⟨(hr t (by simp)).1, (hr t (by simp)).2, hd t (by simp)⟩
    rw [h1]
    rw [List.map_cons, List.nodup_cons] at hl
    refine ih { A with trips := A.trips ++ [t] } (fun s hs => hr s (by simp [hs])) hl.2 ?_
    intro s hs
    simp only [List.map_append, List.map_cons, List.map_nil, List.mem_append, List.mem_singleton,
      not_or]
    refine ⟨hd s (by simp [hs]), ?_⟩
    intro e
    exact hl.1 (e ▸ List.mem_map_of_mem (f := pos) hs)

/-- Columns of the entries of measurement `k`. -/
theorem entries_col (d k : Nat) (m : Meas K) (t : Nat × Nat × K) (ht : t ∈ incidenceEntries d k m) :
    k * (d + 1) ≤ t.2.1 ∧ t.2.1 < (k + 1) * (d + 1) ∧
      ∃ i r, (i = m.p1 ∨ i = m.p2) ∧ r < d + 1 ∧ t.1 = i * (d + 1) + r := by
  have hk : (k + 1) * (d + 1) = k * (d + 1) + (d + 1) := by ring
  unfold incidenceEntries at ht
  simp only [List.mem_append, List.mem_flatMap, List.mem_map, List.mem_range, List.mem_singleton] at ht
  rcases ht with ((⟨c, hc, r, hr, rfl⟩ | ⟨r, hr, rfl⟩) | rfl) | ⟨r, hr, rfl⟩
  · exact ⟨by simp, by simp only; omega, m.p1, r, Or.inl rfl, by omega, rfl⟩
  · exact ⟨by simp, by simp only; omega, m.p1, r, Or.inl rfl, by omega, rfl⟩
  · exact ⟨by simp, by simp only; omega, m.p1, d, Or.inl rfl, by omega, rfl⟩
  · exact ⟨by simp, by simp only; omega, m.p2, r, Or.inr rfl, hr, rfl⟩

theorem nodup_map_range {α : Type} (n : Nat) (f : Nat → α)
    (hf : ∀ a b, a < n → b < n → f a = f b → a = b) : ((List.range n).map f).Nodup := by
  rw [List.nodup_map_iff_inj_on List.nodup_range]
  intro a ha b hb e
  exact hf a b (List.mem_range.1 ha) (List.mem_range.1 hb) e

/-- Without a self-loop all positions of one measurement differ. -/
theorem entries_nodup (d k : Nat) (m : Meas K) (h : m.p1 ≠ m.p2) :
    ((incidenceEntries d k m).map pos).Nodup := by
  have key : ∀ (i j r c : Nat), r < d + 1 → c < d + 1 →
      i * (d + 1) + r = j * (d + 1) + c → i = j ∧ r = c :=
    fun i j r c hr hc e => (block_eq_iff hr hc).1 e
  unfold incidenceEntries
  simp only [List.map_append, List.map_flatMap, List.map_map, List.map_cons, List.map_nil]
  rw [List.nodup_append, List.nodup_append, List.nodup_append]
  refine ⟨⟨⟨?_, ?_, ?_⟩, by simp, ?_⟩, ?_, ?_⟩
  · rw [List.nodup_flatMap]
    refine ⟨?_, ?_⟩
    · intro c hc
      refine nodup_map_range d _ ?_
      intro a b ha hb e
      simp only [Function.comp, pos, Prod.mk.injEq] at e
      omega
    · refine List.Pairwise.imp_of_mem ?_ (List.nodup_range (n := d))
      intro a b ha hb hab
      rw [List.mem_range] at ha hb
      unfold Function.onFun
      intro x h1 h2
      simp only [List.mem_map, List.mem_range, Function.comp, pos] at h1 h2
      obtain ⟨r1, _, rfl⟩ := h1
      obtain ⟨r2, _, e⟩ := h2
      simp only [Prod.mk.injEq] at e
      omega
  · refine nodup_map_range d _ ?_
    intro a b ha hb e
    simp only [Function.comp, pos, Prod.mk.injEq] at e
    omega
  · intro a ha b hb e
    subst e
    simp only [List.mem_flatMap, List.mem_map, List.mem_range, Function.comp, pos] at ha hb
    obtain ⟨c, hc, r, hr, rfl⟩ := ha
    obtain ⟨r2, _, e⟩ := hb
    simp only [Prod.mk.injEq] at e
    omega
  · intro a ha b hb e
    subst e
    simp only [List.mem_append, List.mem_flatMap, List.mem_map, List.mem_range, Function.comp, pos,
      List.mem_singleton] at ha hb
    subst hb
    rcases ha with ⟨c, hc, r, hr, e⟩ | ⟨r, hr, e⟩
    · simp only [Prod.mk.injEq] at e; omega
    · simp only [Prod.mk.injEq] at e; omega
  · refine nodup_map_range (d + 1) _ ?_
    intro a b ha hb e
    simp only [Function.comp, pos, Prod.mk.injEq] at e
    omega
  · intro a ha b hb e
    subst e
    simp only [List.mem_append, List.mem_flatMap, List.mem_map, List.mem_range, Function.comp, pos,
      List.mem_singleton] at ha hb
    obtain ⟨r2, hr2, rfl⟩ := hb
    rcases ha with (⟨c, hc, r, hr, e⟩ | ⟨r, hr, e⟩) | e
    · simp only [Prod.mk.injEq] at e
      exact h (key _ _ _ _ (by omega) hr2 e.1).1
    · simp only [Prod.mk.injEq] at e
      exact h (key _ _ _ _ (by omega) hr2 e.1).1
    · simp only [Prod.mk.injEq] at e
      exact h (key _ _ _ _ hr2 (by omega) e.1).1.symm

/-- With a self-loop the last diagonal position occurs twice. -/
theorem entries_not_nodup (d k : Nat) (m : Meas K) (h : m.p1 = m.p2) :
    ¬ ((incidenceEntries d k m).map pos).Nodup := by
  intro hn
  unfold incidenceEntries at hn
  simp only [List.map_append, List.map_cons, List.map_nil, List.map_map] at hn
  rw [List.nodup_append] at hn
  refine hn.2.2 (m.p1 * (d + 1) + d, k * (d + 1) + d) ?_ _ ?_ rfl
  · simp [pos]
  · rw [List.mem_map]
    exact ⟨d, by simp, by simp [Function.comp, pos, h]⟩

theorem incidenceLoop_cases (d : Nat) (ms : List (Meas K)) (k : Nat) (I : Incidence K)
    (hn : (I.A.trips.map pos).Nodup) :
    (∃ J, incidenceLoop d k ms I = ok J ∧ ∀ m ∈ ms, m.p1 ≠ m.p2) ∨ incidenceLoop d k ms I = ub := by
  induction ms generalizing k I with
  | nil => left; exact ⟨I, rfl, by simp⟩
  | cons m ms ih =>
    unfold incidenceLoop
    cases hm : measReadable d m
    · right; rfl
    · simp only [require_true, ok_bind]
      rcases SpMat.foldl_insert_cases (incidenceEntries d k m) I.A hn with ⟨B, hB, hBn⟩ | h
      · rw [hB]
        simp only [ok_bind]
        have hne : m.p1 ≠ m.p2 := by
          intro e
          apply entries_not_nodup d k m e
          rw [(SpMat.foldl_insert hB).2.2.1, List.map_append, List.nodup_append] at hBn
          exact hBn.2.1
        rcases ih (k + 1) ⟨B, (omegaWrites d k m).foldl
          (fun f (w : Nat × K) => Function.update f w.1 w.2) I.omega⟩ hBn with ⟨J, hJ, hms⟩ | h
        · left
          refine ⟨J, hJ, ?_⟩
          intro x hx
          rcases List.mem_cons.1 hx with rfl | hx
          · exact hne
          · exact hms x hx
        · right; exact h
      · right; rw [h]; rfl

theorem incidenceLoop_ok (d n M : Nat) (ms : List (Meas K)) (k : Nat) (I : Incidence K)
    (hrow : I.A.rows = (d + 1) * n) (hcol : I.A.cols = (d + 1) * M) (hM : k + ms.length ≤ M)
    (hcols : ∀ t ∈ I.A.trips, t.2.1 < k * (d + 1))
    (hms : ∀ m ∈ ms, m.p1 < n ∧ m.p2 < n ∧ m.p1 ≠ m.p2 ∧ measReadable d m = true) :
    ∃ J, incidenceLoop d k ms I = ok J := by
  induction ms generalizing k I with
  | nil => exact ⟨I, rfl⟩
  | cons m ms ih =>
    unfold incidenceLoop
    obtain ⟨h1, h2, h3, h4⟩ := hms m (by simp)
    rw [List.length_cons] at hM
    simp only [h4, require_true, ok_bind]
    obtain ⟨B, hB⟩ := SpMat.foldl_insert_ok (incidenceEntries d k m) I.A (by
      intro t ht
      obtain ⟨-, hc, i, r, hi, hr, e⟩ := entries_col d k m t ht
      rw [e, hrow, hcol]
      refine ⟨block_lt hr (by rcases hi with rfl | rfl <;> assumption), ?_⟩
      calc t.2.1 < (k + 1) * (d + 1) := hc
        _ ≤ M * (d + 1) := Nat.mul_le_mul_right _ (by omega)
        _ = (d + 1) * M := Nat.mul_comm _ _) (entries_nodup d k m h3) (by
      intro t ht hmem
      obtain ⟨hc, -⟩ := entries_col d k m t ht
      rw [List.mem_map] at hmem
      obtain ⟨s, hs, e⟩ := hmem
      have := hcols s hs
      simp only [pos, Prod.mk.injEq] at e
      omega)
    rw [hB]
    simp only [ok_bind]
    obtain ⟨b1, b2, b3, -⟩ := SpMat.foldl_insert hB
    refine ih (k + 1) ⟨B, _⟩ (b1.trans hrow) (b2.trans hcol) (by omega) ?_
      (fun x hx => hms x (by simp [hx]))
    intro t ht
    have ht : t ∈ B.trips := ht
    rw [b3, List.mem_append] at ht
    rcases ht with ht | ht
    · exact (hcols t ht).trans_le (Nat.mul_le_mul_right _ (by omega))
    · exact (entries_col d k m t ht).2.1

omit [Field K] in
theorem foldl_maxPose (ms : List (Meas K)) (n0 : Nat) :
    n0 ≤ ms.foldl (fun n m =>
      let n := if n < m.p1 then m.p1 else n
      if n < m.p2 then m.p2 else n) n0 ∧
    ∀ m ∈ ms, m.p1 ≤ ms.foldl (fun n m =>
      let n := if n < m.p1 then m.p1 else n
      if n < m.p2 then m.p2 else n) n0 ∧ m.p2 ≤ ms.foldl (fun n m =>
      let n := if n < m.p1 then m.p1 else n
      if n < m.p2 then m.p2 else n) n0 := by
  induction ms generalizing n0 with
  | nil => simp
  | cons a ms ih =>
    rw [List.foldl_cons]
    obtain ⟨i1, i2⟩ := ih (let n := if n0 < a.p1 then a.p1 else n0
      if n < a.p2 then a.p2 else n)
    have hb : n0 ≤ (let n := if n0 < a.p1 then a.p1 else n0
        if n < a.p2 then a.p2 else n) ∧ a.p1 ≤ (let n := if n0 < a.p1 then a.p1 else n0
        if n < a.p2 then a.p2 else n) ∧ a.p2 ≤ (let n := if n0 < a.p1 then a.p1 else n0
        if n < a.p2 then a.p2 else n) := by
      simp only
      split <;> split <;> omega
    refine ⟨hb.1.trans i1, ?_⟩
    intro m hm
    rcases List.mem_cons.1 hm with rfl | hm
    · exact ⟨hb.2.1.trans i1, hb.2.2.trans i1⟩
    · exact i2 m hm

omit [Field K] in
theorem le_maxPoseIndex {ms : List (Meas K)} {m : Meas K} (hm : m ∈ ms) :
    m.p1 ≤ maxPoseIndex ms ∧ m.p2 ≤ maxPoseIndex ms := (foldl_maxPose ms 0).2 m hm

omit [Field K] in
theorem foldl_maxPose_lt (ms : List (Meas K)) (n0 b : Nat) (h0 : n0 < b)
    (h : ∀ m ∈ ms, m.p1 < b ∧ m.p2 < b) :
    ms.foldl (fun n m =>
      let n := if n < m.p1 then m.p1 else n
      if n < m.p2 then m.p2 else n) n0 < b := by
  induction ms generalizing n0 with
  | nil => simpa using h0
  | cons a ms ih =>
    rw [List.foldl_cons]
    apply ih
    · have := h a (by simp)
      simp only
      split <;> split <;> omega
    · exact fun m hm => h m (by simp [hm])

omit [Field K] in
theorem maxPoseIndex_lt {ms : List (Meas K)} {b : Nat} (hb : 0 < b)
    (h : ∀ m ∈ ms, m.p1 < b ∧ m.p2 < b) : maxPoseIndex ms < b := foldl_maxPose_lt ms 0 b hb h

/-- The Laplacian: undefined exactly when there is a self-loop (for measurements of dimension `d`). -/
theorem connectionLaplacian_cases (ms : List (Meas K)) (d : Nat) (hd : ∀ m ∈ ms, PoseGraph.MDims d m) :
    ((∃ m ∈ ms, m.p1 = m.p2) ∧ connectionLaplacian ms = ub) ∨
    ((∀ m ∈ ms, m.p1 ≠ m.p2) ∧ ∃ L, connectionLaplacian ms = ok L) := by
  have hmd : ms = [] ∨ measDim ms = d := by
    cases ms with
    | nil => left; rfl
    | cons m l =>
      right
      obtain ⟨-, -, h3, h4⟩ := hd m (by simp)
      simp [measDim, h3, h4]
  have hL : ∀ I, incidence ms = ok I → ∃ L, connectionLaplacian ms = ok L := by
    intro I hI
    unfold connectionLaplacian
    rw [hI]
    exact ⟨_, rfl⟩
  have hinc : incidence ms = incidenceLoop (measDim ms) 0 ms
      ⟨⟨(measDim ms + 1) * (maxPoseIndex ms + 1), (measDim ms + 1) * ms.length, []⟩, fun _ => 0⟩ := rfl
  by_cases hself : ∃ m ∈ ms, m.p1 = m.p2
  · left
    refine ⟨hself, ?_⟩
    rcases incidenceLoop_cases (measDim ms) ms 0 ⟨⟨(measDim ms + 1) * (maxPoseIndex ms + 1),
      (measDim ms + 1) * ms.length, []⟩, fun _ => 0⟩ (by simp) with ⟨J, -, h⟩ | h
    · obtain ⟨m, hm, e⟩ := hself
      exact absurd e (h m hm)
    · unfold connectionLaplacian
      rw [hinc, h]; rfl
  · right
    have hself : ∀ m ∈ ms, m.p1 ≠ m.p2 := fun m hm e => hself ⟨m, hm, e⟩
    refine ⟨hself, ?_⟩
    obtain ⟨J, hJ⟩ := incidenceLoop_ok (measDim ms) (maxPoseIndex ms + 1) ms.length ms 0
      ⟨⟨(measDim ms + 1) * (maxPoseIndex ms + 1), (measDim ms + 1) * ms.length, []⟩, fun _ => 0⟩
      rfl rfl (by omega) (by simp) (by
        intro m hm
        have := le_maxPoseIndex hm
        refine ⟨by omega, by omega, hself m hm, ?_⟩
        rcases hmd with h | h
        · rw [h] at hm; simp at hm
        · rw [h]
          obtain ⟨h1, h2, h3, h4⟩ := hd m hm
          simp [measReadable, h1, h2, h3, h4])
    exact hL J (hinc.trans hJ)

theorem addColBlock_of_lt {d n idx : Nat} {D B : DMat K} (hr : B.rows ≤ D.rows)
    (hB : B.cols = d + 1) (hD : D.cols = (d + 1) * n) (hi : idx < n) :
    ∃ D', addColBlock d idx D B = ok D' := by
  unfold addColBlock
  have : D.inRange 0 (idx * (d + 1)) B.rows B.cols = true := by
    unfold DMat.inRange
    simp only [Nat.zero_add, Bool.and_eq_true, decide_eq_true_eq]
    refine ⟨hr, ?_⟩
    rw [hB, hD, Nat.mul_comm (d + 1) n, ← Nat.succ_mul]
    exact Nat.mul_le_mul_right _ hi
  rw [this]
  exact ⟨_, rfl⟩

namespace PoseGraph

omit [Field K] in
theorem Inv.lacks_iff {g : PoseGraph K} {log : List (Meas K)} (h : Inv g log) (m : Meas K) :
    lacksPose g m ↔ (g.flag (foreignID g.id m).robot = true ∧
      OMap.find? ltPoseID (foreignID g.id m) g.neighborPoses = none) := by
  unfold lacksPose
  rw [h.isNeighborActive_eq, OMap.find?_eq_none_iff strictTotal_ltPoseID]
  simp [OMap.keys]

omit [Field K] in
theorem Inv.own_lt {g : PoseGraph K} {log : List (Meas K)} (h : Inv g log) {m : Meas K}
    (hm : m ∈ g.sharedLcs) : if m.r1 = g.id then m.p1 < g.n else m.p2 < g.n := by
  rw [h.shared, List.mem_filter] at hm
  have := h.n_ub m hm.1
  have hs := (isShared_iff _ _).1 hm.2
  unfold ownIndices at this
  split
  · rename_i c
    exact this m.p1 (by simp [c])
  · rename_i c
    have : m.r2 = g.id := by omega
    exact h.n_ub m hm.1 m.p2 (by simp [ownIndices, this])

/-- The loop over the shared measurements in `constructQ`. -/
theorem Inv.qShared_cases {g : PoseGraph K} {log : List (Meas K)} (h : Inv g log)
    (l : List (Meas K)) (hl : ∀ m ∈ l, m ∈ g.sharedLcs) (D : DMat K)
    (hr : D.rows = g.d + 1) (hc : D.cols = (g.d + 1) * g.n) :
    ((∃ m ∈ l, lacksPose g m) ∧ g.qShared l D = ok none) ∨
    ((¬ ∃ m ∈ l, lacksPose g m) ∧ ∃ D', g.qShared l D = ok (some D') ∧
      D'.rows = g.d + 1 ∧ D'.cols = (g.d + 1) * g.n) := by
  induction l generalizing D with
  | nil => right; exact ⟨by simp, D, rfl, hr, hc⟩
  | cons m l ih =>
    have hm := hl m (by simp)
    have hl' := fun x hx => hl x (List.mem_cons_of_mem m hx)
    have hown := h.own_lt hm
    simp only [qShared, h.classify_eq m hm]
    by_cases hlack : lacksPose g m
    · left
      refine ⟨⟨m, by simp, hlack⟩, ?_⟩
      rw [if_pos ((h.lacks_iff m).1 hlack)]; rfl
    · rw [if_neg (fun c => hlack ((h.lacks_iff m).2 c))]
      have tail : ∀ D1 : DMat K, D1.rows = g.d + 1 → D1.cols = (g.d + 1) * g.n →
          ((∃ x ∈ m :: l, lacksPose g x) ∧ g.qShared l D1 = ok none) ∨
          ((¬ ∃ x ∈ m :: l, lacksPose g x) ∧ ∃ D', g.qShared l D1 = ok (some D') ∧
            D'.rows = g.d + 1 ∧ D'.cols = (g.d + 1) * g.n) := by
        intro D1 h1 h2
        have : (∃ x ∈ m :: l, lacksPose g x) ↔ ∃ x ∈ l, lacksPose g x := by
          simp [hlack]
        rw [this]
        exact ih hl' D1 h1 h2
      cases hu : usedPose g m with
      | none => simpa only [ok_bind] using tail D hr hc
      | some P =>
        by_cases c : m.r1 = g.id
        · rw [if_pos c] at hown
          obtain ⟨D1, hD1⟩ := addColBlock_of_lt (d := g.d) (n := g.n) (idx := m.p1) (D := D)
            (B := ((measT g.d m).mul (omegaMat g.d (m.weight * m.kappa) (m.weight * m.tau))).mul
              (measT g.d m).tr) (by rw [hr]; exact le_refl _) rfl hc hown
          obtain ⟨a1, a2, -⟩ := addColBlock_ok hD1
          simp only [c, if_true, ok_bind, hD1]
          exact tail D1 (a1.trans hr) (a2.trans hc)
        · rw [if_neg c] at hown
          obtain ⟨D1, hD1⟩ := addColBlock_of_lt (d := g.d) (n := g.n) (idx := m.p2) (D := D)
            (B := omegaMat g.d (m.weight * m.kappa) (m.weight * m.tau))
            (by rw [hr]; exact le_refl _) rfl hc hown
          obtain ⟨a1, a2, -⟩ := addColBlock_ok hD1
          simp only [c, if_false, ok_bind, hD1]
          exact tail D1 (a1.trans hr) (a2.trans hc)

theorem qPriors_total {d n : Nat} (l : OMap Nat (PArr K)) (D : DMat K)
    (hr : D.rows = d + 1) (hc : D.cols = (d + 1) * n) (hp : ∀ p ∈ l, p.1 < n) :
    ∃ D', qPriors d l D = ok D' := by
  induction l generalizing D with
  | nil => exact ⟨D, rfl⟩
  | cons p l ih =>
    obtain ⟨i, P⟩ := p
    obtain ⟨D1, hD1⟩ := addColBlock_of_lt (d := d) (n := n) (idx := i) (D := D)
      (B := omegaMat d priorKappa priorTau) (by rw [hr]; exact le_refl _) rfl hc
      (hp (i, P) (by simp))
    obtain ⟨a1, a2, -⟩ := addColBlock_ok hD1
    simp only [qPriors, hD1, ok_bind]
    exact ih D1 (a1.trans hr) (a2.trans hc) (fun q hq => hp q (by simp [hq]))

omit [Field K] in
/-- Neighbour poses and priors have the sizes of this problem. -/
def PosesOk (g : PoseGraph K) : Prop :=
  (∀ p ∈ g.neighborPoses, PoseOk g.r g.d p.2) ∧ (∀ p ∈ g.priors, PoseOk g.r g.d p.2)

theorem Inv.gShared_cases {g : PoseGraph K} {log : List (Meas K)} (h : Inv g log)
    (hP : PosesOk g)
    (l : List (Meas K)) (hl : ∀ m ∈ l, m ∈ g.sharedLcs) (D : DMat K)
    (hr : D.rows = g.r) (hc : D.cols = (g.d + 1) * g.n) :
    ((∃ m ∈ l, lacksPose g m) ∧ g.gShared l D = ok none) ∨
    ((¬ ∃ m ∈ l, lacksPose g m) ∧ ∃ D', g.gShared l D = ok (some D') ∧
      D'.rows = g.r ∧ D'.cols = (g.d + 1) * g.n) := by
  induction l generalizing D with
  | nil => right; exact ⟨by simp, D, rfl, hr, hc⟩
  | cons m l ih =>
    have hm := hl m (by simp)
    have hl' := fun x hx => hl x (List.mem_cons_of_mem m hx)
    have hown := h.own_lt hm
    simp only [gShared, h.classify_eq m hm]
    by_cases hlack : lacksPose g m
    · left
      refine ⟨⟨m, by simp, hlack⟩, ?_⟩
      rw [if_pos ((h.lacks_iff m).1 hlack)]; rfl
    · rw [if_neg (fun c => hlack ((h.lacks_iff m).2 c))]
      have tail : ∀ D1 : DMat K, D1.rows = g.r → D1.cols = (g.d + 1) * g.n →
          ((∃ x ∈ m :: l, lacksPose g x) ∧ g.gShared l D1 = ok none) ∨
          ((¬ ∃ x ∈ m :: l, lacksPose g x) ∧ ∃ D', g.gShared l D1 = ok (some D') ∧
            D'.rows = g.r ∧ D'.cols = (g.d + 1) * g.n) := by
        intro D1 h1 h2
        have : (∃ x ∈ m :: l, lacksPose g x) ↔ ∃ x ∈ l, lacksPose g x := by
          simp [hlack]
        rw [this]
        exact ih hl' D1 h1 h2
      cases hu : usedPose g m with
      | none => simpa only [ok_bind] using tail D hr hc
      | some P =>
        have hPok : PoseOk g.r g.d P := by
          unfold usedPose at hu
          split at hu
          · exact hP.1 _ (OMap.mem_of_find? strictTotal_ltPoseID hu)
          · cases hu
        have hdim : g.nbrDims P = true := by
          unfold nbrDims
          simp [hPok.1, hPok.2]
        by_cases c : m.r1 = g.id
        · rw [if_pos c] at hown
          obtain ⟨D1, hD1⟩ := addColBlock_of_lt (d := g.d) (n := g.n) (idx := m.p1) (D := D)
            (B := (P.X.neg.mul (omegaMat g.d (m.weight * m.kappa) (m.weight * m.tau))).mul
              (measT g.d m).tr) (by rw [hr, ← hPok.1]; exact le_refl _) rfl hc hown
          obtain ⟨a1, a2, -⟩ := addColBlock_ok hD1
          simp only [c, if_true, ok_bind, hD1, hdim, require_true]
          exact tail D1 (a1.trans hr) (a2.trans hc)
        · rw [if_neg c] at hown
          obtain ⟨D1, hD1⟩ := addColBlock_of_lt (d := g.d) (n := g.n) (idx := m.p2) (D := D)
            (B := (P.X.neg.mul (measT g.d m)).mul
              (omegaMat g.d (m.weight * m.kappa) (m.weight * m.tau)))
            (by rw [hr, ← hPok.1]; exact le_refl _) rfl hc hown
          obtain ⟨a1, a2, -⟩ := addColBlock_ok hD1
          simp only [c, if_false, ok_bind, hD1, hdim, require_true]
          exact tail D1 (a1.trans hr) (a2.trans hc)

/-- `constructG` gives up only for a missing pose. -/
theorem Inv.gShared_none {g : PoseGraph K} {log : List (Meas K)} (h : Inv g log)
    (l : List (Meas K)) (hl : ∀ m ∈ l, m ∈ g.sharedLcs) (D : DMat K)
    (e : g.gShared l D = ok none) : ∃ m ∈ l, lacksPose g m := by
  induction l generalizing D with
  | nil => cases e
  | cons m l ih =>
    have hm := hl m (by simp)
    have hl' := fun x hx => hl x (List.mem_cons_of_mem m hx)
    have tail : ∀ D1, g.gShared l D1 = ok none → ∃ m' ∈ m :: l, lacksPose g m' := by
      intro D1 e1
      obtain ⟨x, hx, hxl⟩ := ih hl' D1 e1
      exact ⟨x, by simp [hx], hxl⟩
    simp only [gShared, h.classify_eq m hm] at e
    by_cases hlack : lacksPose g m
    · exact ⟨m, by simp, hlack⟩
    · rw [if_neg (fun c => hlack ((h.lacks_iff m).2 c))] at e
      cases hu : usedPose g m with
      | none => rw [hu] at e; exact tail D e
      | some P =>
        rw [hu] at e
        by_cases c : m.r1 = g.id
        · simp only [c, if_true, ok_bind, bind_eq_ok] at e
          obtain ⟨_, _, D1, _, e⟩ := e
          exact tail D1 e
        · simp only [c, if_false, ok_bind, bind_eq_ok] at e
          obtain ⟨_, _, D1, _, e⟩ := e
          exact tail D1 e

theorem Inv.constructG_none {g : PoseGraph K} {log : List (Meas K)} (h : Inv g log)
    (e : g.constructG = ok none) : posesMissing g := by
  unfold constructG at e
  rw [bind_eq_ok] at e
  obtain ⟨o, h1, e⟩ := e
  cases o with
  | none => exact h.gShared_none g.sharedLcs (fun _ hm => hm) _ h1
  | some D =>
    simp only [bind_eq_ok] at e
    obtain ⟨_, _, e⟩ := e
    cases e

theorem gPriors_total {g : PoseGraph K} (l : OMap Nat (PArr K)) (D : DMat K)
    (hr : D.rows = g.r) (hc : D.cols = (g.d + 1) * g.n)
    (hp : ∀ p ∈ l, p.1 < g.n ∧ PoseOk g.r g.d p.2) :
    ∃ D', g.gPriors l D = ok D' := by
  induction l generalizing D with
  | nil => exact ⟨D, rfl⟩
  | cons p l ih =>
    obtain ⟨i, P⟩ := p
    obtain ⟨h1, h2⟩ : i < g.n ∧ PoseOk g.r g.d P := hp (i, P) (by simp)
    have hdim : g.nbrDims P = true := by
      unfold nbrDims
      simp [h2.1, h2.2]
    obtain ⟨D1, hD1⟩ := addColBlock_of_lt (d := g.d) (n := g.n) (idx := i) (D := D)
      (B := P.X.neg.mul (omegaMat g.d priorKappa priorTau))
      (by rw [hr, ← h2.1]; exact le_refl _) rfl hc h1
    obtain ⟨a1, a2, -⟩ := addColBlock_ok hD1
    simp only [gPriors, hD1, ok_bind, hdim, require_true]
    exact ih D1 (a1.trans hr) (a2.trans hc) (fun q hq => hp q (by simp [hq]))

/-- `constructG`, all cases. -/
theorem Inv.constructG_cases {g : PoseGraph K} {log : List (Meas K)} (h : Inv g log)
    (hP : PosesOk g) (hpr : ∀ p ∈ g.priors, p.1 < g.n) :
    (posesMissing g ∧ g.constructG = ok none) ∨
    (¬ posesMissing g ∧ ∃ G, g.constructG = ok (some G)) := by
  unfold constructG
  rcases h.gShared_cases hP g.sharedLcs (fun _ hm => hm) (DMat.zero g.r ((g.d + 1) * g.n)) rfl rfl with
    ⟨h1, h2⟩ | ⟨h1, D, h2, h3, h4⟩
  · left; refine ⟨h1, ?_⟩; rw [h2]; rfl
  · right
    refine ⟨h1, ?_⟩
    obtain ⟨D', hD'⟩ := gPriors_total g.priors D h3 h4 (fun p hp => ⟨hpr p hp, hP.2 p hp⟩)
    rw [h2]
    simp only [ok_bind, hD']
    exact ⟨_, rfl⟩

omit [Field K] in
theorem mem_diagTriplets (d n : Nat) (D : DMat K) (t : Nat × Nat × K) :
    t ∈ diagTriplets d n D ↔ ∃ i < n, ∃ r < d + 1, ∃ c < d + 1,
      t = (i * (d + 1) + r, i * (d + 1) + c, D.v r (i * (d + 1) + c)) := by
  unfold diagTriplets
  simp only [List.mem_flatMap, List.mem_map, List.mem_range]
  constructor
  · rintro ⟨i, hi, r, hr, c, hc, rfl⟩; exact ⟨i, hi, r, hr, c, hc, rfl⟩
  · rintro ⟨i, hi, r, hr, c, hc, rfl⟩; exact ⟨i, hi, r, hr, c, hc, rfl⟩

omit [Field K] in
theorem ofTriplets_diag (N d n : Nat) (D : DMat K) :
    ((d + 1) * n ≤ N ∧ ∃ S, SpMat.ofTriplets N N (diagTriplets d n D) = ok S) ∨
    (N < (d + 1) * n ∧ SpMat.ofTriplets N N (diagTriplets d n D) = ub) := by
  unfold SpMat.ofTriplets
  by_cases hN : (d + 1) * n ≤ N
  · left
    refine ⟨hN, ?_⟩
    rw [if_pos]
    · exact ⟨_, rfl⟩
    · rw [List.all_eq_true]
      intro t ht
      obtain ⟨i, hi, r, hr, c, hc, rfl⟩ := (mem_diagTriplets d n D t).1 ht
      simp only [Bool.and_eq_true, decide_eq_true_eq]
      exact ⟨(block_lt hr hi).trans_le hN, (block_lt hc hi).trans_le hN⟩
  · right
    refine ⟨by omega, ?_⟩
    rw [if_neg]
    intro hall
    rw [List.all_eq_true] at hall
    have hn : 0 < n := by
      rcases Nat.eq_zero_or_pos n with h | h
      · subst h; simp at hN
      · exact h
    have := hall _ ((mem_diagTriplets d n D _).2 ⟨n - 1, by omega, d, by omega, d, by omega, rfl⟩)
    simp only [Bool.and_eq_true, decide_eq_true_eq, and_self] at this
    have e : (d + 1) * n = (n - 1) * (d + 1) + (d + 1) := by
      rw [← Nat.succ_mul, Nat.mul_comm]
      congr 1
      omega
    omega

omit [Field K] in
theorem Inv.localDims {g : PoseGraph K} {log : List (Meas K)} (h : Inv g log) :
    ∀ m ∈ g.localMeasurements, MDims g.d m := by
  intro m hm
  have : m ∈ g.measurements := by
    unfold PoseGraph.localMeasurements at hm
    unfold PoseGraph.measurements
    exact List.mem_append_left _ hm
  exact h.dims m ((h.mem_measurements m).1 this)

omit [Field K] in
/-- Size of the private part against the number of poses. -/
theorem Inv.covered_iff {g : PoseGraph K} {log : List (Meas K)} (h : Inv g log) (hd : 0 < g.d) :
    posesCovered g ↔ (g.d + 1) * g.n ≤
      (measDim g.localMeasurements + 1) * (maxPoseIndex g.localMeasurements + 1) := by
  by_cases hne : g.localMeasurements = []
  · unfold posesCovered
    rw [hne]
    simp only [List.not_mem_nil, false_and, exists_false]
    change (∀ i < g.n, False) ↔ (g.d + 1) * g.n ≤ 1
    constructor
    · intro hn
      have : g.n = 0 := by
        by_contra hc
        exact hn 0 (by omega)
      rw [this]; simp
    · intro hle i hi
      have : (g.d + 1) * 1 ≤ (g.d + 1) * g.n := Nat.mul_le_mul_left _ (by omega)
      omega
  · rw [h.measDim_eq hne, Nat.mul_le_mul_left_iff (by omega)]
    unfold posesCovered
    constructor
    · intro hc
      by_contra hlt
      obtain ⟨m, hm, hor⟩ := hc (maxPoseIndex g.localMeasurements + 1) (by omega)
      have := le_maxPoseIndex hm
      omega
    · intro hle i hi
      by_contra hc
      rcases Nat.eq_zero_or_pos i with rfl | hpos
      · obtain ⟨m, hm⟩ := List.exists_mem_of_ne_nil _ hne
        exact hc ⟨m, hm, Or.inl (Nat.zero_le _)⟩
      · have := maxPoseIndex_lt (ms := g.localMeasurements) hpos (by
          intro m hm
          constructor
          · by_contra hx; exact hc ⟨m, hm, Or.inl (by omega)⟩
          · by_contra hx; exact hc ⟨m, hm, Or.inr (by omega)⟩)
        omega

/-- `constructQ`, all cases. -/
theorem Inv.constructQ_cases {g : PoseGraph K} {log : List (Meas K)} (h : Inv g log) (hd : 0 < g.d)
    (hpr : ∀ p ∈ g.priors, p.1 < g.n) :
    (hasSelfLoop g ∧ g.constructQ = ub) ∨
    (¬ hasSelfLoop g ∧ posesMissing g ∧ g.constructQ = ok none) ∨
    (¬ hasSelfLoop g ∧ ¬ posesMissing g ∧ ¬ posesCovered g ∧ g.constructQ = ub) ∨
    (¬ hasSelfLoop g ∧ ¬ posesMissing g ∧ posesCovered g ∧ ∃ Q, g.constructQ = ok (some Q)) := by
  unfold constructQ
  rcases connectionLaplacian_cases g.localMeasurements g.d h.localDims with ⟨h1, h2⟩ | ⟨h1, L, h2⟩
  · left; refine ⟨h1, ?_⟩; rw [h2]; rfl
  · right
    have hns : ¬ hasSelfLoop g := by rintro ⟨m, hm, e⟩; exact h1 m hm e
    rw [h2]
    simp only [ok_bind]
    rcases h.qShared_cases g.sharedLcs (fun _ hm => hm) (DMat.zero (g.d + 1) ((g.d + 1) * g.n))
      rfl rfl with ⟨m1, m2⟩ | ⟨m1, D, m2, m3, m4⟩
    · left; refine ⟨hns, m1, ?_⟩; rw [m2]; rfl
    · right
      obtain ⟨D', hD'⟩ := qPriors_total g.priors D m3 m4 hpr
      rw [m2]
      simp only [ok_bind, hD']
      obtain ⟨l1, l2, -, -⟩ := connectionLaplacian_qform _ _ h2 (fun _ => 0)
      rw [l2]
      rcases ofTriplets_diag L.rows g.d g.n D' with ⟨s1, S, s2⟩ | ⟨s1, s2⟩
      · right
        refine ⟨hns, m1, (h.covered_iff hd).2 (l1 ▸ s1), ?_⟩
        rw [s2]
        exact ⟨_, rfl⟩
      · left
        refine ⟨hns, m1, ?_, ?_⟩
        · rw [h.covered_iff hd]
          omega
        · rw [s2]; rfl

/-- Priors always refer to poses of the graph, whatever the history. -/
theorem priors_lt {id r d : Nat} {g : PoseGraph K} (hg : Reachable id r d g) :
    ∀ p ∈ g.priors, p.1 < g.n := by
  have hmono : ∀ {g g' : PoseGraph K} {m : Meas K}, g.addMeasurement m = ok g' → g.n ≤ g'.n := by
    intro g g' m e
    unfold addMeasurement at e
    split at e
    · cases e; exact le_refl _
    · split at e
      · split at e
        · unfold addOdometry at e
          split at e
          · cases e; exact le_refl _
          · simp only [bind_eq_ok] at e
            obtain ⟨_, _, _, _, _, _, _, _, e⟩ := e
            cases e; exact Nat.le_max_left _ _
        · unfold addPrivateLoopClosure at e
          split at e
          · cases e; exact le_refl _
          · simp only [bind_eq_ok] at e
            obtain ⟨_, _, _, _, _, _, e⟩ := e
            cases e; exact Nat.le_max_left _ _
      · unfold addSharedLoopClosure at e
        split at e
        · cases e; exact le_refl _
        · simp only [bind_eq_ok] at e
          obtain ⟨_, _, e⟩ := e
          split at e
          · simp only [bind_eq_ok] at e
            obtain ⟨_, _, e⟩ := e
            cases e; exact Nat.le_max_left _ _
          · simp only [bind_eq_ok] at e
            obtain ⟨_, _, e⟩ := e
            cases e; exact Nat.le_max_left _ _
  have hbook : ∀ {g g' : PoseGraph K}, SameData g g' → (∀ p ∈ g.priors, p.1 < g.n) →
      ∀ p ∈ g'.priors, p.1 < g'.n := by
    intro g g' hs hP
    rw [hs.priors, hs.n]; exact hP
  have hQ : ∀ {g g' : PoseGraph K} {Q : DMat K}, g.quadraticMatrix = ok (Q, g') → SameData g g' := by
    intro g g' Q e
    rcases quadraticMatrix_ok e with ⟨_, rfl⟩ | ⟨_, _, rfl⟩
    · exact SameData.refl _
    · constructor <;> rfl
  refine Reachable.ind (P := fun g => ∀ p ∈ g.priors, p.1 < g.n) ?_ ?_ hg
  · intro g₀ e
    simp only [PoseGraph.new, bind_eq_ok] at e
    obtain ⟨_, _, e⟩ := e
    cases e
    intro p hp
    cases hp
  · intro g op g' _ _ hP e
    cases op with
    | addMeasurement m =>
      rw [(addMeasurement_caches e).2.2.2.2.1]
      intro p hp
      exact (hP p hp).trans_le (hmono e)
    | setMeasurements ms =>
      rw [(setMeasurements_caches e).2.2.2.1]
      simp
    | empty => cases e; intro p hp; cases hp
    | reset =>
      cases e
      simp only [PoseGraph.reset, clearNeighborPoses, clearDataMatrices,
        clearPriors, clearQuadraticMatrix, clearLinearMatrix]
      simp
    | clearNeighborPoses => cases e; exact hP
    | clearPriors => cases e; intro p hp; cases hp
    | setPrior i X =>
      simp only [step, setPrior, bind_eq_ok] at e
      obtain ⟨_, h1, _, _, _, _, e⟩ := e
      rw [check_eq_ok, decide_eq_true_eq] at h1
      cases e
      intro p hp
      rcases OMap.key_mem_insert strictTotal_ltNat _ _ _ _ hp with rfl | hp
      · exact h1
      · exact hP p hp
    | setNeighborPoses dict => cases e; exact hP
    | setNeighborActive nid a =>
      simp only [step, setNeighborActive] at e
      split at e
      · cases e; exact hP
      · split at e
        · cases e
        · split at e
          · cases e; exact hP
          · cases e; exact hP
    | useInactiveNeighbors u => cases e; exact hP
    | writeWeight src dst w f =>
      simp only [step, bind_eq_ok] at e
      obtain ⟨p, _, e⟩ := e
      cases p with
      | none => cases e; exact hP
      | some p =>
        cases e
        obtain ⟨-, -, -, h4, -, -, h7, -⟩ := writeWeight_caches g p w f
        rw [h4, h7]; exact hP
    | quadraticMatrix =>
      simp only [step, bind_eq_ok] at e
      obtain ⟨⟨Q, g1⟩, h, e⟩ := e
      cases e
      exact hbook (hQ h) hP
    | linearMatrix =>
      simp only [step, bind_eq_ok] at e
      obtain ⟨⟨Q, g1⟩, h, e⟩ := e
      cases e
      rcases linearMatrix_ok h with ⟨_, rfl⟩ | ⟨_, _, rfl⟩
      · exact hP
      · exact hP
    | constructDataMatrices =>
      simp only [step, bind_eq_ok] at e
      obtain ⟨⟨b, g1⟩, h, e⟩ := e
      cases e
      obtain ⟨b1, g2, h1, h2⟩ := constructDataMatrices_ok h
      have hP2 : ∀ p ∈ g2.priors, p.1 < g2.n := by
        rcases ensureQ_ok h1 with ⟨Q, _, rfl, _⟩ | ⟨Q, _, h, rfl, _⟩ | ⟨_, _, rfl, _⟩
        · exact hP
        · exact hP
        · exact hP
      rcases h2 with ⟨_, h2⟩ | ⟨_, _, rfl⟩
      · rcases ensureG_ok h2 with ⟨Q, _, rfl, _⟩ | ⟨Q, _, h, rfl, _⟩ | ⟨_, _, rfl, _⟩
        · exact hP2
        · exact hP2
        · exact hP2
      · exact hP2
    | hasPreconditioner chol =>
      simp only [step, bind_eq_ok] at e
      obtain ⟨⟨b, g1⟩, h, e⟩ := e
      cases e
      rcases hasPreconditioner_ok h with ⟨P, _, rfl, _⟩ | ⟨Q, g2, _, h1, _, rfl⟩
      · exact hP
      · have hP2 := hbook (hQ h1) hP
        split <;> exact hP2
    | clearQuadraticMatrix => cases e; exact hP
    | clearLinearMatrix => cases e; exact hP
    | clearDataMatrices => cases e; exact hP

end PoseGraph
end Dpgo
