import Mathlib.Data.List.Lex
import Mathlib.Data.Char

/-!
# Ordered maps

Model of `std::map<K, V>`: a list of pairs sorted by strictly increasing key. Iteration
over the map is iteration over the list.
-/

namespace Verif.OMap

variable {κ ν : Type}

/-- Representation of `std::map`. -/
abbrev SMap (κ ν : Type) := List (κ × ν)

/-- Keys strictly increasing: what `std::map` guarantees. -/
def Sorted [LinearOrder κ] (m : SMap κ ν) : Prop := m.Pairwise (fun a b => a.1 < b.1)

/-- `m.find(k)`. -/
def find [LinearOrder κ] : SMap κ ν → κ → Option ν
  | [], _ => none
  | (a, v) :: m, k => if k = a then some v else find m k

/-- `m[k] = v`. -/
def insert [LinearOrder κ] : SMap κ ν → κ → ν → SMap κ ν
  | [], k, v => [(k, v)]
  | (a, w) :: m, k, v =>
    if k < a then (k, v) :: (a, w) :: m
    else if k = a then (k, v) :: m
    else (a, w) :: insert m k v

/-- `m.erase(k)`. -/
def erase [LinearOrder κ] (m : SMap κ ν) (k : κ) : SMap κ ν := m.filter (fun p => p.1 ≠ k)

/-- Keys in order. -/
def keys (m : SMap κ ν) : List κ := m.map Prod.fst

variable [LinearOrder κ]

theorem find_eq_none_iff (m : SMap κ ν) (k : κ) : find m k = none ↔ k ∉ keys m := by
  induction m with
  | nil => simp [find, keys]
  | cons p m ih =>
    obtain ⟨a, v⟩ := p
    simp only [find, keys, List.map_cons, List.mem_cons, not_or]
    split
    · rename_i h; simp [h]
    · rename_i h; rw [ih]; simp [h, keys]

theorem find_of_mem {m : SMap κ ν} (hs : Sorted m) {k : κ} {v : ν} (h : (k, v) ∈ m) :
    find m k = some v := by
  induction m with
  | nil => simp at h
  | cons p m ih =>
    obtain ⟨a, w⟩ := p
    obtain ⟨h1, h2⟩ := List.pairwise_cons.mp hs
    simp only [find]
    rcases List.mem_cons.mp h with e | e
    · simp only [Prod.mk.injEq] at e
      obtain ⟨e1, e2⟩ := e
      subst e1; subst e2; simp
    · have := h1 _ e
      rw [if_neg (ne_of_gt this)]
      exact ih h2 e

theorem mem_of_find {m : SMap κ ν} {k : κ} {v : ν} (h : find m k = some v) : (k, v) ∈ m := by
  induction m with
  | nil => simp [find] at h
  | cons p m ih =>
    obtain ⟨a, w⟩ := p
    simp only [find] at h
    split at h
    · rename_i e; subst e; simp_all
    · exact List.mem_cons_of_mem _ (ih h)

theorem mem_insert_key {m : SMap κ ν} {k : κ} {v : ν} {p : κ × ν} (h : p ∈ insert m k v) :
    p = (k, v) ∨ p ∈ m := by
  induction m with
  | nil => simp [insert] at h; exact .inl h
  | cons q m ih =>
    obtain ⟨a, w⟩ := q
    simp only [insert] at h
    split at h
    · simpa using h
    · split at h
      · rcases List.mem_cons.mp h with e | e
        · exact .inl e
        · exact .inr (List.mem_cons_of_mem _ e)
      · rcases List.mem_cons.mp h with e | e
        · exact .inr (e ▸ List.mem_cons_self)
        · rcases ih e with e' | e'
          · exact .inl e'
          · exact .inr (List.mem_cons_of_mem _ e')

theorem sorted_insert {m : SMap κ ν} (hs : Sorted m) (k : κ) (v : ν) : Sorted (insert m k v) := by
  induction m with
  | nil => simp [insert, Sorted]
  | cons q m ih =>
    obtain ⟨a, w⟩ := q
    obtain ⟨h1, h2⟩ := List.pairwise_cons.mp hs
    simp only [insert]
    split
    · rename_i h
      refine List.pairwise_cons.mpr ⟨fun p hp => ?_, hs⟩
      rcases List.mem_cons.mp hp with e | e
      · subst e; exact h
      · exact lt_trans h (h1 p e)
    · split
      · rename_i h1' h3
        subst h3
        exact List.pairwise_cons.mpr ⟨h1, h2⟩
      · rename_i h3 h4
        refine List.pairwise_cons.mpr ⟨fun p hp => ?_, ih h2⟩
        rcases mem_insert_key hp with e | e
        · subst e
          exact lt_of_le_of_ne (le_of_not_gt h3) (fun e => h4 e.symm)
        · exact h1 p e

theorem find_insert (m : SMap κ ν) (k k' : κ) (v : ν) :
    find (insert m k v) k' = if k' = k then some v else find m k' := by
  induction m with
  | nil => simp [insert, find]
  | cons q m ih =>
    obtain ⟨a, w⟩ := q
    simp only [insert]
    split
    · simp [find]
    · split
      · rename_i h1 h2
        subst h2
        simp only [find]
        split <;> rfl
      · rename_i h1 h2
        simp only [find]
        rw [ih]
        by_cases e : k' = a
        · subst e; simp [show ¬ k' = k from fun h => h2 h.symm]
        · simp [e]

theorem sorted_filter {m : SMap κ ν} (hs : Sorted m) (p : κ × ν → Bool) : Sorted (m.filter p) :=
  hs.sublist List.filter_sublist

theorem sorted_erase {m : SMap κ ν} (hs : Sorted m) (k : κ) : Sorted (erase m k) :=
  sorted_filter hs _

theorem find_filter_key (m : SMap κ ν) (p : κ → Bool) (k : κ) :
    find (m.filter (fun q => p q.1)) k = if p k then find m k else none := by
  induction m with
  | nil => simp [find]
  | cons q m ih =>
    obtain ⟨a, w⟩ := q
    by_cases ha : p a = true
    · rw [List.filter_cons_of_pos (by exact ha)]
      simp only [find]
      rw [ih]
      by_cases e : k = a
      · subst e; simp [ha]
      · simp [e]
    · rw [List.filter_cons_of_neg (by exact ha), ih]
      simp only [find]
      by_cases e : k = a
      · subst e; simp [ha]
      · simp [e]

theorem find_erase (m : SMap κ ν) (k k' : κ) :
    find (erase m k) k' = if k' = k then none else find m k' := by
  have := find_filter_key m (fun x => decide (x ≠ k)) k'
  unfold erase
  rw [this]
  by_cases e : k' = k <;> simp [e]

/-- Two maps with the same lookups are equal. -/
theorem ext {m m' : SMap κ ν} (hs : Sorted m) (hs' : Sorted m') (h : ∀ k, find m k = find m' k) :
    m = m' := by
  induction m generalizing m' with
  | nil =>
    cases m' with
    | nil => rfl
    | cons q m' =>
      have := h q.1
      simp [find] at this
  | cons p m ih =>
    obtain ⟨a, v⟩ := p
    obtain ⟨h1, h2⟩ := List.pairwise_cons.mp hs
    cases m' with
    | nil => have := h a; simp [find] at this
    | cons q m' =>
      obtain ⟨b, w⟩ := q
      obtain ⟨h3, h4⟩ := List.pairwise_cons.mp hs'
      have hab : a = b := by
        rcases lt_trichotomy a b with hlt | he | hgt
        · have e := h a
          simp only [find, if_true] at e
          rw [if_neg (ne_of_lt hlt)] at e
          have := h3 _ (mem_of_find e.symm)
          exact absurd (lt_trans hlt this) (lt_irrefl _)
        · exact he
        · have e := h b
          simp only [find, if_true] at e
          rw [if_neg (ne_of_lt hgt)] at e
          have := h1 _ (mem_of_find e)
          exact absurd (lt_trans hgt this) (lt_irrefl _)
      subst hab
      have hvw := h a
      simp only [find, if_true, Option.some.injEq] at hvw
      subst hvw
      congr 1
      apply ih h2 h4
      intro k
      by_cases e : k = a
      · subst e
        have n1 : find m k = none := by
          rw [find_eq_none_iff]
          intro hk
          obtain ⟨p, hp, e⟩ := List.mem_map.mp hk
          have := h1 p hp
          rw [e] at this
          exact lt_irrefl _ this
        have n2 : find m' k = none := by
          rw [find_eq_none_iff]
          intro hk
          obtain ⟨p, hp, e⟩ := List.mem_map.mp hk
          have := h3 p hp
          rw [e] at this
          exact lt_irrefl _ this
        rw [n1, n2]
      · have := h k
        simpa [find, e] using this

theorem mem_keys_iff (m : SMap κ ν) (k : κ) : k ∈ keys m ↔ ∃ v, find m k = some v := by
  have := find_eq_none_iff m k
  cases h : find m k with
  | none => simp [h] at this; simp [this]
  | some v => simp [h] at this; simp [this]

theorem mem_keys_insert (m : SMap κ ν) (k k' : κ) (v : ν) :
    k' ∈ keys (insert m k v) ↔ k' = k ∨ k' ∈ keys m := by
  rw [mem_keys_iff, mem_keys_iff, find_insert]
  by_cases e : k' = k <;> simp [e]

end Verif.OMap
