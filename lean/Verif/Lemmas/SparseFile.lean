import Verif.Spec.SparseFile
import Verif.Lemmas.TextRound

/-!
# Lemmas: triplets in a file
-/

namespace Dpgo

open Res Text Spec Spec.G2o

/-- Triplets that are written. -/
noncomputable def written : Nat → List (List (Nat × ℝ)) → List (Nat × Nat × ℝ)
  | _, [] => []
  | i, l :: ls => l.map (fun e => (i, e.1, round6 e.2)) ++ written (i + 1) ls

theorem mem_written {ls : List (List (Nat × ℝ))} {i : Nat} {t : Nat × Nat × ℝ} :
    t ∈ written i ls ↔ ∃ k l x, ls[k]? = some l ∧ (t.2.1, x) ∈ l ∧ t.1 = i + k ∧ t.2.2 = round6 x := by
  induction ls generalizing i with
  | nil => simp [written]
  | cons l ls ih =>
    rw [written, List.mem_append, ih]
    constructor
    · rintro (h | ⟨k, l', x, h1, h2, h3, h4⟩)
      · obtain ⟨e, he, rfl⟩ := List.mem_map.1 h
        exact ⟨0, l, e.2, rfl, he, rfl, rfl⟩
      · exact ⟨k + 1, l', x, h1, h2, by omega, h4⟩
    · rintro ⟨k, l', x, h1, h2, h3, h4⟩
      cases k with
      | zero =>
        simp only [List.getElem?_cons_zero, Option.some.injEq] at h1
        subst h1
        refine Or.inl (List.mem_map.2 ⟨(t.2.1, x), h2, ?_⟩)
        rw [← h4, show i = t.1 by omega]
      | succ k => exact Or.inr ⟨k, l', x, h1, h2, by omega, h4⟩

theorem written_sorted {ls : List (List (Nat × ℝ))} (h : ∀ l ∈ ls, (l.map Prod.fst).Pairwise (· < ·)) (i : Nat) :
    (written i ls).Pairwise Before := by
  induction ls generalizing i with
  | nil => exact .nil
  | cons l ls ih =>
    rw [written, List.pairwise_append]
    refine ⟨?_, ih (fun l' h' => h l' (by simp [h'])) (i + 1), ?_⟩
    · rw [List.pairwise_map]
      have := h l (by simp)
      rw [List.pairwise_map] at this
      exact this.imp fun {a b} hab => Or.inr ⟨rfl, hab⟩
    · intro s hs t ht
      obtain ⟨e, -, rfl⟩ := List.mem_map.1 hs
      obtain ⟨k, -, -, -, -, h3, -⟩ := mem_written.1 ht
      exact Or.inl (by show i < t.1; omega)

theorem showNat_index (n : Nat) : IndexText n (showNat n) := by
  obtain ⟨h1, h2, h3⟩ := showNat_spec n
  exact ⟨h2, h1, by rw [← natOf_eq, h3]⟩

theorem written_text (ls : List (List (Nat × ℝ))) (i : Nat) : TripletText (written i ls) (sparseRows i ls) := by
  induction ls generalizing i with
  | nil => exact ⟨[], .nil, rfl⟩
  | cons l ls ih =>
    obtain ⟨m, h1, h2⟩ := ih (i + 1)
    refine ⟨l.map (fun e => showNat i ++ ',' :: (showNat e.1 ++ ',' :: showReal e.2)) ++ m, ?_, ?_⟩
    · rw [written]
      refine List.rel_append ?_ h1
      rw [List.forall₂_map_left_iff, List.forall₂_map_right_iff, List.forall₂_same]
      intro e _
      obtain ⟨n, hv, ht, hx⟩ := showReal_numeral e.2
      exact ⟨_, _, _, showNat_index i, showNat_index e.1, ⟨n, hv, ht, hx⟩, rfl⟩
    · rw [sparseRows, List.flatMap_append, ← h2]
      congr 1
      rw [sparseRow, List.flatMap_map]
      refine List.flatMap_congr fun e _ => ?_
      simp [sparseLine]

/-- A line says one thing. -/
theorem tripletLine_unique {s t : Nat × Nat × ℝ} {l : Str} (hs : TripletLine s l) (ht : TripletLine t l) : s = t := by
  have plain : ∀ {n : Nat} {w : Str}, IndexText n w → ∀ c ∈ w, c ≠ ',' := fun h c hc =>
    (numChar_ne (Or.inl (h.2.1 c hc))).1
  obtain ⟨wi, wj, wx, hi, hj, ⟨n, hv, hn, hx⟩, rfl⟩ := hs
  obtain ⟨wi', wj', wx', hi', hj', ⟨n', hv', hn', hx'⟩, e⟩ := ht
  have e1 := congrArg (fun z => field [] (some z)) e
  simp only [field_comma (plain hi), field_comma (plain hi')] at e1
  obtain ⟨rfl, e2⟩ := Prod.mk.inj e1
  have e3 := congrArg (fun z => field [] z) e2
  simp only [field_comma (plain hj), field_comma (plain hj')] at e3
  obtain ⟨rfl, e4⟩ := Prod.mk.inj e3
  cases e4
  have a := stod_text hv stops_nil
  have b := stod_text hv' stops_nil
  rw [hn, hx] at a
  rw [hn', hx', a] at b
  obtain ⟨s1, s2, s3⟩ := s
  obtain ⟨t1, t2, t3⟩ := t
  have p1 : s1 = t1 := hi.2.2.symm.trans hi'.2.2
  have p2 : s2 = t2 := hj.2.2.symm.trans hj'.2.2
  have p3 : s3 = t3 := by simpa using b
  rw [p1, p2, p3]

theorem tripletLine_line {t : Nat × Nat × ℝ} {l : Str} (h : TripletLine t l) : ∀ c ∈ l, c ≠ '\n' := by
  obtain ⟨wi, wj, wx, hi, hj, ⟨n, hv, rfl, -⟩, rfl⟩ := h
  intro c hc
  simp only [List.mem_append, List.mem_cons] at hc
  rcases hc with hc | rfl | hc | rfl | hc
  · exact (numChar_ne (Or.inl (hi.2.1 c hc))).2
  · decide
  · exact (numChar_ne (Or.inl (hj.2.1 c hc))).2
  · decide
  · exact (numChar_ne (text_chars hv c hc)).2

theorem lines_triplets {ts : List (Nat × Nat × ℝ)} {ls : List Str} (h : List.Forall₂ TripletLine ts ls) :
    lines (ls.flatMap (· ++ ['\n'])) = ls := by
  induction h with
  | nil => rfl
  | cons a _ ih =>
    rw [List.flatMap_cons, List.append_assoc]
    exact (lines_append (tripletLine_line a) _).trans (congrArg _ ih)

/-- A text says one thing. -/
theorem tripletText_unique {s t : List (Nat × Nat × ℝ)} {text : Str} (hs : TripletText s text)
    (ht : TripletText t text) : s = t := by
  obtain ⟨l, h1, rfl⟩ := hs
  obtain ⟨l', h2, e⟩ := ht
  have : l = l' := by rw [← lines_triplets h1, e, lines_triplets h2]
  subst this
  clear e
  induction h1 generalizing t with
  | nil => cases h2; rfl
  | cons a _ ih =>
    cases h2 with
    | cons b h2 => rw [tripletLine_unique a b, ih h2]

end Dpgo
