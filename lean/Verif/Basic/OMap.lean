import Verif.Basic.Res

/-!
# `std::map` and `std::set` as sorted lists

The containers are kept as lists sorted by the comparator `lt` of the C++ container, so iteration
order is the C++ iteration order.
-/

namespace Dpgo

/-- `lt` is a strict total order (what `std::map`/`std::set` need from their comparator). -/
structure StrictTotal {κ : Type u} (lt : κ → κ → Bool) : Prop where
  irrefl : ∀ a, lt a a = false
  trans : ∀ a b c, lt a b = true → lt b c = true → lt a c = true
  total : ∀ a b, lt a b = false → lt b a = false → a = b

/-- `std::map<κ,β,lt>` as a list of key/value pairs in iteration order. -/
abbrev OMap (κ : Type u) (β : Type v) := List (κ × β)

namespace OMap
variable {κ : Type u} {β : Type v} (lt : κ → κ → Bool)

/-- `m.find(k)`: first element equivalent to `k`. -/
def find? (k : κ) : OMap κ β → Option β
  | [] => none
  | (k', v) :: t => if !(lt k k') && !(lt k' k) then some v else find? k t

/-- `m[k] = v`. -/
def insert (k : κ) (v : β) : OMap κ β → OMap κ β
  | [] => [(k, v)]
  | (k', v') :: t =>
    if lt k k' then (k, v) :: (k', v') :: t
    else if lt k' k then (k', v') :: insert k v t
    else (k', v) :: t

/-- `m.erase(k)`. -/
def erase (k : κ) : OMap κ β → OMap κ β
  | [] => []
  | (k', v') :: t => if !(lt k k') && !(lt k' k) then t else (k', v') :: erase k t

/-- Keys in iteration order. -/
def keys (m : OMap κ β) : List κ := m.map Prod.fst

end OMap

/-- `std::set<κ,lt>` as a list in iteration order. -/
abbrev OSet (κ : Type u) := List κ

namespace OSet
variable {κ : Type u} (lt : κ → κ → Bool)

/-- `s.insert(k)`: no effect when an equivalent element is present. -/
def insert (k : κ) : OSet κ → OSet κ
  | [] => [k]
  | k' :: t =>
    if lt k k' then k :: k' :: t
    else if lt k' k then k' :: insert k t
    else k' :: t

/-- `s.find(k) != s.end()`. -/
def contains (k : κ) : OSet κ → Bool
  | [] => false
  | k' :: t => (!(lt k k') && !(lt k' k)) || contains k t

/-- The list is strictly increasing. -/
def Sorted (s : OSet κ) : Prop := s.Pairwise (fun a b => lt a b = true)

variable {lt}

theorem mem_insert (h : StrictTotal lt) (k x : κ) (s : OSet κ) :
    x ∈ insert lt k s ↔ x = k ∨ x ∈ s := by
  induction s with
  | nil => simp [insert]
  | cons k' t ih =>
    unfold insert
    by_cases h1 : lt k k' = true
    · simp [h1]
    · by_cases h2 : lt k' k = true
      · simp only [h1, h2, if_true, Bool.false_eq_true, if_false, List.mem_cons, ih]
        grind
      · have : k = k' := h.total _ _ (by simpa using h1) (by simpa using h2)
        subst this
        simp [h1]

theorem contains_iff (h : StrictTotal lt) (k : κ) (s : OSet κ) :
    contains lt k s = true ↔ k ∈ s := by
  induction s with
  | nil => simp [contains]
  | cons k' t ih =>
    simp only [contains, Bool.or_eq_true, Bool.and_eq_true, Bool.not_eq_true', ih, List.mem_cons]
    constructor
    · rintro (⟨h1, h2⟩ | h1)
      · exact Or.inl (h.total _ _ h1 h2)
      · exact Or.inr h1
    · rintro (h1 | h1)
      · subst h1; exact Or.inl ⟨h.irrefl _, h.irrefl _⟩
      · exact Or.inr h1

theorem sorted_insert (h : StrictTotal lt) (k : κ) (s : OSet κ) (hs : Sorted lt s) :
    Sorted lt (insert lt k s) := by
  induction s with
  | nil => simp [insert, Sorted]
  | cons k' t ih =>
    unfold insert
    unfold Sorted at hs
    rw [List.pairwise_cons] at hs
    by_cases h1 : lt k k' = true
    · simp only [h1, if_true, Sorted, List.pairwise_cons, List.mem_cons]
      refine ⟨?_, hs⟩
      rintro a (rfl | ha)
      · exact h1
      · exact h.trans _ _ _ h1 (hs.1 a ha)
    · by_cases h2 : lt k' k = true
      · simp only [h1, h2, if_true, Bool.false_eq_true, if_false, Sorted, List.pairwise_cons]
        refine ⟨?_, ih hs.2⟩
        intro a ha
        rcases (mem_insert h _ _ _).1 ha with rfl | ha
        · exact h2
        · exact hs.1 a ha
      · simp only [h1, h2, Bool.false_eq_true, if_false, Sorted, List.pairwise_cons]
        exact hs

theorem sorted_nodup (h : StrictTotal lt) {s : OSet κ} (hs : Sorted lt s) : s.Nodup := by
  refine List.Pairwise.imp ?_ hs
  intro a b hab e
  subst e
  rw [h.irrefl] at hab
  exact absurd hab (by simp)

/-- A sorted list is determined by its elements. -/
theorem sorted_ext (h : StrictTotal lt) {s t : OSet κ} (hs : Sorted lt s) (ht : Sorted lt t)
    (e : ∀ x, x ∈ s ↔ x ∈ t) : s = t := by
  induction s generalizing t with
  | nil =>
    cases t with
    | nil => rfl
    | cons b t => exact absurd ((e b).2 (by simp)) (by simp)
  | cons a s ih =>
    cases t with
    | nil => exact absurd ((e a).1 (by simp)) (by simp)
    | cons b t =>
      unfold Sorted at hs ht
      rw [List.pairwise_cons] at hs ht
      have hab : a = b := by
        rcases List.mem_cons.1 ((e a).1 (by simp)) with r | r
        · exact r
        · rcases List.mem_cons.1 ((e b).2 (by simp)) with r' | r'
          · exact r'.symm
          · have h1 := ht.1 a r
            have h2 := hs.1 b r'
            have := h.trans _ _ _ h1 h2
            rw [h.irrefl] at this
            exact absurd this (by simp)
      subst hab
      congr 1
      refine ih hs.2 ht.2 ?_
      intro x
      constructor
      · intro hx
        rcases List.mem_cons.1 ((e x).1 (by simp [hx])) with r | r
        · subst r
          have := hs.1 x hx
          rw [h.irrefl] at this
          exact absurd this (by simp)
        · exact r
      · intro hx
        rcases List.mem_cons.1 ((e x).2 (by simp [hx])) with r | r
        · subst r
          have := ht.1 x hx
          rw [h.irrefl] at this
          exact absurd this (by simp)
        · exact r

end OSet

namespace OMap
variable {κ : Type u} {β : Type v} {lt : κ → κ → Bool}

/-- Keys strictly increasing. -/
def Sorted (lt : κ → κ → Bool) (m : OMap κ β) : Prop := OSet.Sorted lt (keys m)

/-- `m.find(k)` after `m[k'] = v`. -/
theorem find?_insert (h : StrictTotal lt) (k k' : κ) (v : β) (m : OMap κ β) [DecidableEq κ] :
    find? lt k (insert lt k' v m) = if k = k' then some v else find? lt k m := by
  induction m with
  | nil =>
    simp only [insert, find?]
    by_cases e : k = k'
    · subst e; simp [h.irrefl]
    · rw [if_neg e, if_neg]
      simp only [Bool.and_eq_true, Bool.not_eq_true', not_and]
      intro h1 h2
      exact e (h.total _ _ h1 h2)
  | cons p t ih =>
    obtain ⟨q, w⟩ := p
    by_cases h1 : lt k' q = true
    · simp only [insert, h1, if_true, find?]
      by_cases e : k = k'
      · subst e; simp [h.irrefl]
      · rw [if_neg e, if_neg]
        simp only [Bool.and_eq_true, Bool.not_eq_true', not_and]
        intro h1 h2
        exact e (h.total _ _ h1 h2)
    · by_cases h2 : lt q k' = true
      · simp only [insert, h1, h2, if_true, Bool.false_eq_true, if_false, find?, ih]
        by_cases e : k = k'
        · subst e; simp [h2]
        · simp [e]
      · have e2 : k' = q := h.total _ _ (by simpa using h1) (by simpa using h2)
        subst e2
        simp only [insert, h1, Bool.false_eq_true, if_false, find?]
        by_cases e : k = k'
        · subst e; simp [h.irrefl]
        · have hn : ¬ ((!lt k k' && !lt k' k) = true) := by
            simp only [Bool.and_eq_true, Bool.not_eq_true', not_and]
            intro h1 h2
            exact e (h.total _ _ h1 h2)
          simp [e, hn]

theorem keys_insert (k : κ) (v : β) (m : OMap κ β) :
    keys (insert lt k v m) = OSet.insert lt k (keys m) := by
  induction m with
  | nil => rfl
  | cons p t ih =>
    obtain ⟨q, w⟩ := p
    simp only [insert, keys, List.map_cons, OSet.insert] at *
    split
    · simp
    · split
      · simp [ih]
      · simp

theorem mem_keys_insert (h : StrictTotal lt) (k x : κ) (v : β) (m : OMap κ β) :
    x ∈ keys (insert lt k v m) ↔ x = k ∨ x ∈ keys m := by
  rw [keys_insert, OSet.mem_insert h]

theorem sorted_insert (h : StrictTotal lt) (k : κ) (v : β) (m : OMap κ β) (hs : Sorted lt m) :
    Sorted lt (insert lt k v m) := by
  unfold Sorted
  rw [keys_insert]
  exact OSet.sorted_insert h _ _ hs

theorem find?_isSome_iff (h : StrictTotal lt) (k : κ) (m : OMap κ β) :
    (find? lt k m).isSome = true ↔ k ∈ keys m := by
  induction m with
  | nil => simp [find?, keys]
  | cons p t ih =>
    obtain ⟨q, w⟩ := p
    simp only [find?, keys, List.map_cons, List.mem_cons] at *
    split
    · rename_i hc
      simp only [Bool.and_eq_true, Bool.not_eq_true'] at hc
      simp [h.total _ _ hc.1 hc.2]
    · rename_i hc
      rw [ih]
      constructor
      · exact Or.inr
      · rintro (rfl | r)
        · simp [h.irrefl] at hc
        · exact r

theorem find?_eq_none_iff (h : StrictTotal lt) (k : κ) (m : OMap κ β) :
    find? lt k m = none ↔ k ∉ keys m := by
  rw [← find?_isSome_iff h]
  cases find? lt k m <;> simp

theorem mem_of_find? (h : StrictTotal lt) {k : κ} {v : β} {m : OMap κ β}
    (hf : find? lt k m = some v) : (k, v) ∈ m := by
  induction m with
  | nil => simp [find?] at hf
  | cons p t ih =>
    obtain ⟨q, w⟩ := p
    simp only [find?] at hf
    split at hf
    · rename_i hc
      simp only [Bool.and_eq_true, Bool.not_eq_true'] at hc
      have := h.total _ _ hc.1 hc.2
      simp at hf
      simp [this, hf]
    · exact List.mem_cons_of_mem _ (ih hf)

theorem find?_of_mem (h : StrictTotal lt) {k : κ} {v : β} {m : OMap κ β} (hs : Sorted lt m)
    (hm : (k, v) ∈ m) : find? lt k m = some v := by
  induction m with
  | nil => simp at hm
  | cons p t ih =>
    obtain ⟨q, w⟩ := p
    unfold Sorted OSet.Sorted keys at hs
    rw [List.map_cons, List.pairwise_cons] at hs
    simp only [find?]
    rcases List.mem_cons.1 hm with e | hm'
    · cases e; simp [h.irrefl]
    · have hlt : lt q k = true := hs.1 k (List.mem_map.2 ⟨(k, v), hm', rfl⟩)
      simp [hlt, ih hs.2 hm']

theorem keys_erase_sublist (k : κ) (m : OMap κ β) : (erase lt k m).Sublist m := by
  induction m with
  | nil => simp [erase]
  | cons p t ih =>
    obtain ⟨q, w⟩ := p
    simp only [erase]
    split
    · exact List.sublist_cons_self _ _
    · exact ih.cons_cons _

end OMap
end Dpgo
