import Verif.Equation.Model
import Verif.Formula.Props

/-! # Sorting and merging of the entries of elements -/

namespace Verif.Equation

open Verif.Formula

theorem strLe_refl (a : List Char) : strLe a a = true := by
  induction a with
  | nil => rfl
  | cons c l ih => simp [strLe, ih]

theorem strLe_total (a : List Char) : ∀ b, strLe a b = true ∨ strLe b a = true := by
  induction a with
  | nil => intro b; exact Or.inl rfl
  | cons c l ih =>
    intro b
    cases b with
    | nil => exact Or.inr rfl
    | cons d m =>
      simp only [strLe, Bool.or_eq_true, decide_eq_true_eq, Bool.and_eq_true, beq_iff_eq]
      rcases Nat.lt_trichotomy c.toNat d.toNat with h | h | h
      · exact Or.inl (Or.inl h)
      · rcases ih m with h' | h'
        · exact Or.inl (Or.inr ⟨h, h'⟩)
        · exact Or.inr (Or.inr ⟨h.symm, h'⟩)
      · exact Or.inr (Or.inl h)

theorem strLe_trans (a : List Char) : ∀ b c, strLe a b = true → strLe b c = true →
    strLe a c = true := by
  induction a with
  | nil => intro b c _ _; rfl
  | cons x a ih =>
    intro b c h1 h2
    match b, c, h1, h2 with
    | [], _, h1, _ => simp [strLe] at h1
    | _ :: _, [], _, h2 => simp [strLe] at h2
    | y :: b, z :: c, h1, h2 =>
      simp only [strLe, Bool.or_eq_true, decide_eq_true_eq, Bool.and_eq_true, beq_iff_eq] at *
      rcases h1 with h1 | ⟨h1, h1'⟩
      · rcases h2 with h2 | ⟨h2, _⟩ <;> left <;> omega
      · rcases h2 with h2 | ⟨h2, h2'⟩
        · left; omega
        · exact Or.inr ⟨by omega, ih b c h1' h2'⟩

theorem strLe_antisymm (a : List Char) : ∀ b, strLe a b = true → strLe b a = true → a = b := by
  induction a with
  | nil =>
    intro b _ h
    cases b with
    | nil => rfl
    | cons _ _ => simp [strLe] at h
  | cons c l ih =>
    intro b h1 h2
    cases b with
    | nil => simp [strLe] at h1
    | cons d m =>
      simp only [strLe, Bool.or_eq_true, decide_eq_true_eq, Bool.and_eq_true, beq_iff_eq] at h1 h2
      rcases h1 with h1 | ⟨h1, h1'⟩
      · rcases h2 with h2 | ⟨h2, _⟩ <;> omega
      · rcases h2 with h2 | ⟨_, h2'⟩
        · omega
        · rw [Char.toNat_inj.mp h1, ih m h1' h2']

/-- Order of the entries by name. -/
abbrev byName (a b : Name × ℚ) : Prop := strLe a.1 b.1 = true

instance : Std.Total byName := ⟨fun a b => strLe_total a.1 b.1⟩
instance : IsTrans (Name × ℚ) byName := ⟨fun a b c => strLe_trans a.1 b.1 c.1⟩

theorem total_perm {l m : List (Name × ℚ)} (h : l.Perm m) (x : Name) : total l x = total m x := by
  unfold total
  exact (h.map _).sum_eq

theorem merge_total (l : List (Name × ℚ)) : ∀ (p : Name × ℚ) (x : Name),
    total (merge p l) x = total (p :: l) x := by
  induction l with
  | nil => intro p x; rfl
  | cons q l ih =>
    intro p x
    simp only [merge]
    split_ifs with h
    · rw [ih, total_cons, total_cons, total_cons, h]
      dsimp only
      split_ifs <;> ring
    · rw [total_cons, ih, total_cons, total_cons, total_cons]

theorem merge_mem (l : List (Name × ℚ)) : ∀ (p : Name × ℚ), ∀ q ∈ merge p l,
    q.1 = p.1 ∨ ∃ r ∈ l, r.1 = q.1 := by
  induction l with
  | nil => intro p q hq; simp only [merge, List.mem_singleton] at hq; exact Or.inl (by rw [hq])
  | cons a l ih =>
    intro p q hq
    simp only [merge] at hq
    split_ifs at hq with h
    · rcases ih _ q hq with h' | ⟨r, hr, h'⟩
      · exact Or.inl h'
      · exact Or.inr ⟨r, by simp [hr], h'⟩
    · rcases List.mem_cons.mp hq with h' | h'
      · exact Or.inl (by rw [h'])
      · rcases ih _ q h' with h'' | ⟨r, hr, h''⟩
        · exact Or.inr ⟨a, by simp, h''.symm⟩
        · exact Or.inr ⟨r, by simp [hr], h''⟩

/-- After merging a sorted list every element occurs once. -/
theorem merge_nodup (l : List (Name × ℚ)) : ∀ (p : Name × ℚ), (p :: l).Pairwise byName →
    ((merge p l).map Prod.fst).Nodup := by
  induction l with
  | nil => intro p _; simp [merge]
  | cons a l ih =>
    intro p hs
    simp only [merge]
    rw [List.pairwise_cons, List.pairwise_cons] at hs
    split_ifs with h
    · apply ih
      rw [List.pairwise_cons]
      exact ⟨fun b hb => hs.1 b (by simp [hb]), hs.2.2⟩
    · rw [List.map_cons, List.nodup_cons]
      refine ⟨?_, ih a (List.pairwise_cons.mpr hs.2)⟩
      intro hm
      rw [List.mem_map] at hm
      obtain ⟨q, hq, hqp⟩ := hm
      rcases merge_mem l a q hq with h' | ⟨r, hr, h'⟩
      · exact h (by rw [← h', hqp])
      · apply h
        apply strLe_antisymm
        · have := hs.2.1 r hr
          simp only [byName] at this
          rw [h', hqp] at this
          exact this
        · exact hs.1 a (by simp)

/-- Merging keeps the sum of the coefficients of every element. -/
theorem combine_total (l : List (Name × ℚ)) (x : Name) : total (combine l) x = total l x := by
  rw [← total_perm (List.perm_insertionSort byName l) x]
  unfold combine
  split
  · next h => rw [h]
  · next p m h => rw [h, merge_total]

/-- After merging every element occurs once. -/
theorem combine_nodup (l : List (Name × ℚ)) : ((combine l).map Prod.fst).Nodup := by
  have hs := List.pairwise_insertionSort byName l
  unfold combine
  split
  · exact List.nodup_nil
  · next p m h => exact merge_nodup m p (by rw [← h]; exact hs)

theorem total_of_nodup (l : List (Name × ℚ)) (h : (l.map Prod.fst).Nodup) (p : Name × ℚ)
    (hp : p ∈ l) : total l p.1 = p.2 := by
  induction l with
  | nil => simp at hp
  | cons q l ih =>
    rw [List.map_cons, List.nodup_cons] at h
    rw [total_cons]
    rcases List.mem_cons.mp hp with rfl | hp
    · rw [if_pos rfl]
      have : ∀ m : List (Name × ℚ), p.1 ∉ m.map Prod.fst → total m p.1 = 0 := by
        intro m
        induction m with
        | nil => intro _; rfl
        | cons r m ih =>
          intro hm
          simp only [List.map_cons, List.mem_cons, not_or] at hm
          rw [total_cons, if_neg hm.1, ih hm.2, add_zero]
      rw [this l h.1, add_zero]
    · rw [if_neg, ih h.2 hp, zero_add]
      intro e
      exact h.1 (by rw [← e]; exact List.mem_map_of_mem hp)

theorem total_not_mem (l : List (Name × ℚ)) (x : Name) (h : ∀ p ∈ l, p.1 ≠ x) : total l x = 0 := by
  induction l with
  | nil => rfl
  | cons r m ih =>
    rw [total_cons, if_neg (Ne.symm (h r (by simp))), ih (fun p hp => h p (by simp [hp])), add_zero]

/-- The test of all entries is a test of the sums of all elements, listed or not. -/
theorem combine_all (l : List (Name × ℚ)) (P : ℚ → Prop) (h0 : P 0) :
    (∀ p ∈ combine l, P p.2 ∨ p.1 = ['e']) ↔ ∀ x, x ≠ ['e'] → P (total l x) := by
  constructor
  · intro h x hx
    rw [← combine_total]
    by_cases hm : ∃ p ∈ combine l, p.1 = x
    · obtain ⟨p, hp, rfl⟩ := hm
      rw [total_of_nodup _ (combine_nodup l) p hp]
      exact (h p hp).resolve_right hx
    · rw [total_not_mem _ _ (fun p hp e => hm ⟨p, hp, e⟩)]
      exact h0
  · intro h p hp
    by_cases he : p.1 = ['e']
    · exact Or.inr he
    · left
      have := h p.1 he
      rwa [← combine_total, total_of_nodup _ (combine_nodup l) p hp] at this

end Verif.Equation
