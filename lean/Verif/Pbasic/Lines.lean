import Verif.Pbasic.Model

/-!
# Lemmas on the list of program lines
-/

namespace Verif.Pbasic

/-- Line numbers grow. -/
def Sorted (p : List Line) : Prop := p.Pairwise fun a b => a.num < b.num

theorem enter_mem {n : Nat} {txt : List Tok} : ∀ {p : List Line}, Sorted p → ∀ l : Line,
    l ∈ enter n txt p ↔ (l.num ≠ n ∧ l ∈ p) ∨ (txt ≠ [] ∧ l = ⟨n, txt⟩)
  | [], _, l => by
      unfold enter
      by_cases ht : txt = []
      · simp [ht]
      · simp [ht]
  | a :: p, h, l => by
      have hp : Sorted p := (List.pairwise_cons.mp h).2
      have ha := (List.pairwise_cons.mp h).1
      unfold enter
      by_cases h1 : a.num < n
      · rw [if_pos h1, List.mem_cons, enter_mem hp, List.mem_cons]
        constructor
        · rintro (rfl | ⟨h2, h3⟩ | h2)
          · exact Or.inl ⟨by omega, Or.inl rfl⟩
          · exact Or.inl ⟨h2, Or.inr h3⟩
          · exact Or.inr h2
        · rintro (⟨h2, rfl | h3⟩ | h2)
          · exact Or.inl rfl
          · exact Or.inr (Or.inl ⟨h2, h3⟩)
          · exact Or.inr (Or.inr h2)
      · rw [if_neg h1]
        by_cases h2 : a.num = n
        · rw [if_pos h2]
          have key : l ∈ p ↔ l.num ≠ n ∧ l ∈ a :: p := by
            rw [List.mem_cons]
            constructor
            · intro hl; have := ha l hl; exact ⟨by omega, Or.inr hl⟩
            · rintro ⟨h3, rfl | h4⟩
              · exact absurd h2 h3
              · exact h4
          by_cases ht : txt = []
          · rw [if_pos ht, key]; simp [ht]
          · rw [if_neg ht, List.mem_cons, key]; simp only [ne_eq, ht, not_false_eq_true, true_and]
            exact or_comm
        · rw [if_neg h2]
          have key : l ∈ a :: p ↔ l.num ≠ n ∧ l ∈ a :: p := by
            refine ⟨fun hl => ⟨?_, hl⟩, And.right⟩
            rcases List.mem_cons.mp hl with rfl | hl
            · exact h2
            · have := ha l hl; omega
          by_cases ht : txt = []
          · rw [if_pos ht, key]; simp [ht]
          · rw [if_neg ht, List.mem_cons]; simp only [ne_eq, ht, not_false_eq_true, true_and]
            exact ⟨fun h => h.elim Or.inr fun h => Or.inl (key.mp h),
              fun h => h.elim (fun h => Or.inr h.2) Or.inl⟩

theorem enter_sorted {n : Nat} {txt : List Tok} : ∀ {p : List Line}, Sorted p →
    Sorted (enter n txt p)
  | [], _ => by
      unfold enter
      by_cases ht : txt = []
      · rw [if_pos ht]; exact List.Pairwise.nil
      · rw [if_neg ht]; exact List.pairwise_singleton _ _
  | a :: p, h => by
      have hp : Sorted p := (List.pairwise_cons.mp h).2
      have ha := (List.pairwise_cons.mp h).1
      unfold enter
      by_cases h1 : a.num < n
      · rw [if_pos h1]
        refine List.pairwise_cons.mpr ⟨fun l hl => ?_, enter_sorted hp⟩
        rcases (enter_mem hp l).mp hl with ⟨-, hl⟩ | ⟨-, rfl⟩
        · exact ha l hl
        · exact h1
      · rw [if_neg h1]
        by_cases h2 : a.num = n
        · rw [if_pos h2]
          by_cases ht : txt = []
          · rw [if_pos ht]; exact hp
          · rw [if_neg ht]
            exact List.pairwise_cons.mpr ⟨fun l hl => by have := ha l hl; show n < l.num; omega, hp⟩
        · rw [if_neg h2]
          by_cases ht : txt = []
          · rw [if_pos ht]; exact h
          · rw [if_neg ht]
            refine List.pairwise_cons.mpr ⟨fun l hl => ?_, h⟩
            rcases List.mem_cons.mp hl with rfl | hl
            · show n < l.num; omega
            · have := ha l hl; show n < l.num; omega

theorem enter_all : ∀ (es : List (Nat × List Tok)) (p : List Line), Sorted p →
    Sorted (es.foldl (fun p e => enter e.1 e.2 p) p) ∧
    ∀ l : Line, l ∈ es.foldl (fun p e => enter e.1 e.2 p) p ↔
      match (es.filter fun e => e.1 = l.num).getLast? with
      | some e => l.txt ≠ [] ∧ e.2 = l.txt
      | none => l ∈ p
  | [], p, h => ⟨h, fun l => Iff.rfl⟩
  | e :: es, p, h => by
      obtain ⟨h1, h2⟩ := enter_all es (enter e.1 e.2 p) (enter_sorted h)
      refine ⟨h1, fun l => ?_⟩
      rw [List.foldl_cons, h2 l, List.filter_cons]
      cases hf : (es.filter fun e => e.1 = l.num).getLast? with
      | some x =>
        by_cases he : e.1 = l.num
        · rw [if_pos (by simpa using he), List.getLast?_cons, hf]; rfl
        · rw [if_neg (by simpa using he), hf]
      | none =>
        dsimp only
        rw [enter_mem h]
        by_cases he : e.1 = l.num
        · rw [if_pos (by simpa using he), List.getLast?_cons, hf]
          dsimp only [Option.getD]
          constructor
          · rintro (⟨h3, -⟩ | ⟨h3, rfl⟩)
            · exact absurd he.symm h3
            · exact ⟨h3, rfl⟩
          · rintro ⟨h3, h4⟩
            right
            refine ⟨by rw [h4]; exact h3, ?_⟩
            cases l; simp only [Line.mk.injEq]; exact ⟨he.symm, h4.symm⟩
        · rw [if_neg (by simpa using he), hf]
          constructor
          · rintro (⟨-, h4⟩ | ⟨-, h4⟩)
            · exact h4
            · exact absurd (by rw [h4]) he
          · exact fun h4 => Or.inl ⟨fun hc => he hc.symm, h4⟩

theorem delRange_filter (n1 n2 : Nat) : ∀ {p : List Line}, Sorted p →
    delRange n1 n2 p = p.filter fun l => ¬ (n1 ≤ l.num ∧ l.num ≤ n2)
  | [], _ => rfl
  | a :: p, h => by
      have hp : Sorted p := (List.pairwise_cons.mp h).2
      have ha := (List.pairwise_cons.mp h).1
      unfold delRange
      by_cases h1 : n2 < a.num
      · rw [if_pos h1]
        symm
        rw [List.filter_eq_self]
        intro l hl
        rcases List.mem_cons.mp hl with rfl | hl
        · simp; omega
        · have := ha l hl; simp; omega
      · rw [if_neg h1, List.filter_cons]
        by_cases h2 : n1 ≤ a.num
        · rw [if_pos h2, if_neg (by simp; omega), delRange_filter n1 n2 hp]
        · rw [if_neg h2, if_pos (by simp; omega), delRange_filter n1 n2 hp]

theorem findline_split {n : Int} : ∀ {pre : List Line} {l : Line} {ls : List Line},
    (∀ x ∈ pre, (x.num : Int) ≠ n) → (l.num : Int) = n →
    findline n (pre ++ l :: ls) = some (l :: ls)
  | [], l, ls, _, h => by
      show findline n (l :: ls) = _
      unfold findline; rw [if_pos h]
  | a :: pre, l, ls, h, hl => by
      rw [List.cons_append]
      unfold findline
      rw [if_neg (h a List.mem_cons_self)]
      exact findline_split (fun x hx => h x (List.mem_cons_of_mem _ hx)) hl

theorem findline_none {n : Int} : ∀ {p : List Line}, (∀ x ∈ p, (x.num : Int) ≠ n) →
    findline n p = none
  | [], _ => rfl
  | a :: p, h => by
      unfold findline
      rw [if_neg (h a List.mem_cons_self)]
      exact findline_none fun x hx => h x (List.mem_cons_of_mem _ hx)

end Verif.Pbasic
