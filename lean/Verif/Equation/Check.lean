import Verif.Equation.Combine
import Verif.Equation.Spec

/-! # The test that an equation balances -/

namespace Verif.Equation

open Verif.Formula

/-- A call of the reader of formulas that returns OK leaves the count of open parentheses between 0
and one less than before (0 if it was 0). -/
theorem parse_paren : ∀ (n : Nat) (s : List Char) (c : ℚ) (p : Int) (t : St), 0 ≤ p →
    parse n s c p = .ok t → 0 ≤ t.paren ∧ t.paren ≤ max (p - 1) 0 := by
  intro n
  induction n with
  | zero => intro s c p t _ h; simp [parse] at h
  | succ n ih =>
    intro s c p t hp h
    have fin : ∀ (s : List Char) (t : St), finish s p = .ok t →
        0 ≤ t.paren ∧ t.paren ≤ max (p - 1) 0 := by
      intro s t h
      unfold finish at h
      split_ifs at h with h0
      cases h
      simp only [ne_eq, not_not] at h0
      constructor <;> simp [h0]
    cases s with
    | nil => exact fin _ _ h
    | cons ch r =>
      simp only [parse] at h
      split_ifs at h with h1 h2 h3 h4 h5 h6
      · exact fin _ _ h
      · cases h
        constructor
        · show 0 ≤ p - 1; omega
        · exact le_max_left _ _
      · obtain ⟨e, -, h⟩ := bind_eq_ok h
        obtain ⟨d, -, h⟩ := bind_eq_ok h
        obtain ⟨u, hu, h⟩ := bind_eq_ok h
        cases h
        exact (ih _ _ _ u hp hu)
      · obtain ⟨i, hi, h⟩ := bind_eq_ok h
        obtain ⟨d, -, h⟩ := bind_eq_ok h
        obtain ⟨u, hu, h⟩ := bind_eq_ok h
        cases h
        have a := ih _ _ _ _ (by omega) hi
        have b := ih _ _ _ _ a.1 hu
        dsimp only
        omega
      · obtain ⟨d, -, h⟩ := bind_eq_ok h
        obtain ⟨i, hi, h⟩ := bind_eq_ok h
        obtain ⟨u, hu, h⟩ := bind_eq_ok h
        cases h
        have a := ih _ _ _ _ hp hi
        have b := ih _ _ _ _ a.1 hu
        dsimp only
        omega

/-- Between two species no parenthesis is open. -/
theorem elements_paren {s : List Char} {c : ℚ} {t : St} (h : elements s c = .ok t) : t.paren = 0 := by
  have := parse_paren _ _ _ _ _ (le_refl 0) h
  omega

/-- The sums that `check_eqn` forms: of the coefficients times charges, and for every element. -/
def chargeSum (l : List Tok) : ℚ := (l.map fun t => t.coef * t.z).sum

/-- The loop over the species returns OK if and only if every name is a formula; it adds up the charges
and the elements of all of them. -/
theorem sumUp_ok (l : List Tok) : ∀ (r : ℚ × List (Name × ℚ) × Bool), sumUp 0 l = .ok r →
    r.1 = chargeSum l ∧ ∃ es : List St, List.Forall₂ (fun t e => elements t.name t.coef = .ok e) l es ∧
      (∀ x, total r.2.1 x = (es.map fun e => total e.elts x).sum) ∧
      (r.2.2 = es.any St.bad) := by
  induction l with
  | nil =>
    intro r h
    cases h
    exact ⟨rfl, [], .nil, fun x => rfl, rfl⟩
  | cons t l ih =>
    intro r h
    simp only [sumUp] at h
    obtain ⟨e, he, h⟩ := bind_eq_ok h
    rw [elements_paren he] at h
    obtain ⟨q, hq, h⟩ := bind_eq_ok h
    cases h
    obtain ⟨h1, es, h2, h3, h4⟩ := ih q hq
    refine ⟨?_, e :: es, .cons he h2, fun x => ?_, ?_⟩
    · simp [chargeSum, h1]
    · rw [total_append, h3 x]; simp
    · simp [h4]

theorem sumUp_of {l : List Tok} {es : List St}
    (h : List.Forall₂ (fun t e => elements t.name t.coef = .ok e) l es) :
    ∃ r, sumUp 0 l = .ok r := by
  induction h with
  | nil => exact ⟨_, rfl⟩
  | @cons t e l es he _ ih =>
    obtain ⟨r, hr⟩ := ih
    simp only [sumUp]
    have : parse (t.name.length + 1) t.name t.coef 0 = .ok e := he
    rw [this, bind_ok, elements_paren he, hr, bind_ok]
    exact ⟨_, rfl⟩

theorem equal_iff (a b e : ℚ) : equal a b e = true ↔ |a - b| ≤ e := by simp [equal]

/-- **C169, all texts.** An equation passes if and only if its first species has the coefficient −1,
the names of all species are formulas, the charges sum up to zero, and so do the amounts of every
element except `e`, all within the tolerance. -/
theorem check_iff (l : List Tok) (b : Bool) : checkEqn l = .ok b ↔
    (∃ t m, l = t :: m ∧ |t.coef - -1| ≤ 1 / 10 ^ 9) ∧ |chargeSum l| ≤ 1 / 10 ^ 9 ∧
    ∃ es : List St, List.Forall₂ (fun t e => elements t.name t.coef = .ok e) l es ∧
      (∀ x, x ≠ ['e'] → |(es.map fun e => total e.elts x).sum| ≤ 1 / 10 ^ 9) ∧
      b = es.any St.bad := by
  have h0 : |(0 : ℚ) - 0| ≤ tol := by simp [tol]
  constructor
  · intro h
    cases l with
    | nil => simp [checkEqn] at h
    | cons t m =>
      simp only [checkEqn] at h
      split_ifs at h with h1
      rw [Bool.not_eq_false, equal_iff] at h1
      obtain ⟨r, hr, h⟩ := bind_eq_ok h
      split_ifs at h with h2
      cases h
      obtain ⟨h3, es, h4, h5, h6⟩ := sumUp_ok _ r hr
      refine ⟨⟨t, m, rfl, h1⟩, ?_, es, h4, ?_, h6⟩
      · have := (equal_iff _ _ _).mp h2.1
        rw [h3, sub_zero] at this
        exact this
      · intro x hx
        have ha := h2.2
        rw [List.all_eq_true] at ha
        have := (combine_all r.2.1 (fun q => |q - 0| ≤ tol) h0).mp (fun p hp => by
          have := ha p hp
          rw [Bool.or_eq_true, equal_iff, beq_iff_eq] at this
          exact this) x hx
        rw [h5 x, sub_zero] at this
        exact this
  · rintro ⟨⟨t, m, rfl, h1⟩, h2, es, h4, h5, rfl⟩
    obtain ⟨r, hr⟩ := sumUp_of h4
    obtain ⟨h3, es', h4', h5', h6'⟩ := sumUp_ok _ r hr
    have he : es' = es := by
      clear h5 h5' h6' hr h1 h2
      revert h4 h4'
      generalize t :: m = l
      intro h4 h4'
      induction h4 generalizing es' with
      | nil => cases h4'; rfl
      | cons a _ ih =>
        cases h4' with
        | cons a' h' =>
          rw [a] at a'
          cases a'
          rw [ih _ h']
    subst he
    simp only [checkEqn]
    rw [if_neg (by rw [Bool.not_eq_false, equal_iff]; exact h1), hr, bind_ok, if_pos, h6']
    refine ⟨(equal_iff _ _ _).mpr (by rw [h3, sub_zero]; exact h2), ?_⟩
    rw [List.all_eq_true]
    intro p hp
    rw [Bool.or_eq_true, equal_iff, beq_iff_eq]
    refine (combine_all r.2.1 (fun q => |q - 0| ≤ tol) h0).mpr (fun x hx => ?_) p hp
    rw [h5' x, sub_zero]
    exact h5 x hx

end Verif.Equation
