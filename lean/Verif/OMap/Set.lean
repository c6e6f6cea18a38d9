import Mathlib.Data.List.Lex
import Mathlib.Data.Char

/-!
# Ordered sets

Model of `std::set<K>`: a strictly increasing list. Iteration over the set is iteration over
the list.
-/

namespace Verif.OSet

variable {κ : Type} [LinearOrder κ]

/-- `s.insert(k)`. -/
def ins : List κ → κ → List κ
  | [], k => [k]
  | a :: s, k => if k < a then k :: a :: s else if k = a then a :: s else a :: ins s k

/-- Inserting the elements of a sequence one after another. -/
def insAll (s : List κ) (l : List κ) : List κ := l.foldl ins s

/-- What `std::set` guarantees. -/
def Sorted (s : List κ) : Prop := s.Pairwise (· < ·)

theorem mem_ins (s : List κ) (k x : κ) : x ∈ ins s k ↔ x = k ∨ x ∈ s := by
  induction s with
  | nil => simp [ins]
  | cons a s ih =>
    simp only [ins]
    split
    · simp
    · split
      · rename_i h; subst h; simp
      · simp only [List.mem_cons, ih]
        constructor
        · rintro (h | h | h)
          · exact .inr (.inl h)
          · exact .inl h
          · exact .inr (.inr h)
        · rintro (h | h | h)
          · exact .inr (.inl h)
          · exact .inl h
          · exact .inr (.inr h)

theorem sorted_ins {s : List κ} (h : Sorted s) (k : κ) : Sorted (ins s k) := by
  induction s with
  | nil => simp [ins, Sorted]
  | cons a s ih =>
    obtain ⟨h1, h2⟩ := List.pairwise_cons.mp h
    simp only [ins]
    split
    · rename_i hk
      refine List.pairwise_cons.mpr ⟨fun x hx => ?_, h⟩
      rcases List.mem_cons.mp hx with rfl | hx
      · exact hk
      · exact lt_trans hk (h1 x hx)
    · split
      · exact h
      · rename_i h3 h4
        refine List.pairwise_cons.mpr ⟨fun x hx => ?_, ih h2⟩
        rcases (mem_ins _ _ _).mp hx with rfl | hx
        · exact lt_of_le_of_ne (le_of_not_gt h3) (fun e => h4 e.symm)
        · exact h1 x hx

theorem mem_insAll (s l : List κ) (x : κ) : x ∈ insAll s l ↔ x ∈ s ∨ x ∈ l := by
  unfold insAll
  induction l generalizing s with
  | nil => simp
  | cons a l ih =>
    rw [List.foldl_cons, ih, mem_ins]
    simp only [List.mem_cons]
    constructor
    · rintro ((h | h) | h)
      · exact .inr (.inl h)
      · exact .inl h
      · exact .inr (.inr h)
    · rintro (h | h | h)
      · exact .inl (.inr h)
      · exact .inl (.inl h)
      · exact .inr h

theorem sorted_insAll {s : List κ} (h : Sorted s) (l : List κ) : Sorted (insAll s l) := by
  unfold insAll
  induction l generalizing s with
  | nil => exact h
  | cons a l ih => exact ih (sorted_ins h a)

/-- Sorted lists with the same elements are equal. -/
theorem ext {s t : List κ} (hs : Sorted s) (ht : Sorted t) (h : ∀ x, x ∈ s ↔ x ∈ t) : s = t := by
  induction s generalizing t with
  | nil =>
    cases t with
    | nil => rfl
    | cons b t => exact absurd ((h b).mpr List.mem_cons_self) (by simp)
  | cons a s ih =>
    obtain ⟨h1, h2⟩ := List.pairwise_cons.mp hs
    cases t with
    | nil => exact absurd ((h a).mp List.mem_cons_self) (by simp)
    | cons b t =>
      obtain ⟨h3, h4⟩ := List.pairwise_cons.mp ht
      have hab : a = b := by
        rcases List.mem_cons.mp ((h a).mp List.mem_cons_self) with e | e
        · exact e
        · rcases List.mem_cons.mp ((h b).mpr List.mem_cons_self) with e' | e'
          · exact e'.symm
          · exact absurd (lt_trans (h3 a e) (h1 b e')) (lt_irrefl _)
      subst hab
      congr 1
      apply ih h2 h4
      intro x
      constructor
      · intro hx
        rcases List.mem_cons.mp ((h x).mp (List.mem_cons_of_mem _ hx)) with e | e
        · subst e; exact absurd (h1 x hx) (lt_irrefl _)
        · exact e
      · intro hx
        rcases List.mem_cons.mp ((h x).mpr (List.mem_cons_of_mem _ hx)) with e | e
        · subst e; exact absurd (h3 x hx) (lt_irrefl _)
        · exact e

theorem nodup {s : List κ} (h : Sorted s) : s.Nodup :=
  List.Pairwise.imp (fun hlt => ne_of_lt hlt) h

end Verif.OSet
