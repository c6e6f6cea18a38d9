import Verif.Formula.Spec
import Mathlib.Tactic.Ring
import Mathlib.Tactic.SplitIfs
import Mathlib.Tactic.Linarith
import Mathlib.Tactic.FieldSimp
import Mathlib.Data.List.TakeWhile
import Mathlib.Algebra.BigOperators.Group.List.Basic

/-! # Helper lemmas: the reader without fuel -/

namespace Verif.Formula

@[simp] theorem bind_ok {α β : Type} (a : α) (f : α → Res β) : (Res.ok a).bind f = f a := rfl
@[simp] theorem bind_err {α β : Type} (f : α → Res β) : (Res.err : Res α).bind f = .err := rfl
@[simp] theorem bind_ub {α β : Type} (f : α → Res β) : (Res.ub : Res α).bind f = .ub := rfl
@[simp] theorem bind_stop {α β : Type} (f : α → Res β) : (Res.stop : Res α).bind f = .stop := rfl
@[simp] theorem bind_fuel {α β : Type} (f : α → Res β) : (Res.fuel : Res α).bind f = .fuel := rfl

theorem bind_eq_ok {α β : Type} {x : Res α} {f : α → Res β} {b : β} (h : x.bind f = .ok b) :
    ∃ a, x = .ok a ∧ f a = .ok b := by
  cases x <;> simp_all

theorem bracket_len (r : List Char) : ∀ c, (bracket c r).2.1.length ≤ r.length := by
  induction r with
  | nil => intro c; simp [bracket]
  | cons d r ih =>
    intro c
    simp only [bracket]
    split_ifs
    · simp
    · have := ih d; simp; omega

theorem dropWhile_len (p : Char → Bool) (l : List Char) : (l.dropWhile p).length ≤ l.length :=
  (List.dropWhile_sublist p).length_le

theorem getElt_len {s : List Char} {e : Name × List Char × Bool} (h : getElt s = .ok e) :
    e.2.1.length < s.length := by
  cases s with
  | nil => simp [getElt] at h
  | cons c r =>
    simp only [getElt] at h
    split_ifs at h with h1
    · cases r with
      | nil => simp at h
      | cons d r' =>
        simp only at h
        split_ifs at h with h2
        · cases h
          have := dropWhile_len isTail (d :: r')
          simp only [List.length_cons] at this ⊢; omega
        · cases h
          have := dropWhile_len isTail (bracket d r').2.1
          have := bracket_len r' d
          simp only [List.length_cons]; omega
    · cases h
      have := dropWhile_len isTail r
      simp only [List.length_cons]; omega

theorem numChars_append (s : List Char) : ∀ b, (numChars b s).1 ++ (numChars b s).2 = s := by
  induction s with
  | nil => intro b; rfl
  | cons c r ih =>
    intro b
    simp only [numChars]
    split_ifs <;> simp [ih]

theorem getNum_len {s : List Char} {d : ℚ × List Char} (h : getNum s = .ok d) :
    d.2.length ≤ s.length := by
  have e := congrArg List.length (numChars_append s false)
  simp only [getNum] at h
  split_ifs at h
  · cases h; simp
  · cases h; simp at e ⊢; omega

/-- With fuel for every character the result does not depend on the fuel, and nothing is put back. -/
theorem parse_stable : ∀ (k : Nat) (s : List Char), s.length ≤ k → ∀ (n m : Nat) (c : ℚ) (p : Int),
    s.length < n → s.length < m →
    parse n s c p = parse m s c p ∧ parse n s c p ≠ .fuel ∧
      ∀ t, parse n s c p = .ok t → t.rest.length ≤ s.length := by
  intro k
  induction k with
  | zero =>
    intro s hs n m c p hn hm
    obtain rfl : s = [] := List.length_eq_zero_iff.mp (by omega)
    obtain ⟨n, rfl⟩ : ∃ x, n = x + 1 := ⟨n - 1, by simp at hn; omega⟩
    obtain ⟨m, rfl⟩ : ∃ x, m = x + 1 := ⟨m - 1, by simp at hm; omega⟩
    simp only [parse, finish]
    split_ifs <;> simp
  | succ k ih =>
    intro s hs n m c p hn hm
    cases s with
    | nil => exact ih [] (by simp) n m c p hn hm
    | cons ch r =>
      simp only [List.length_cons] at hs hn hm ⊢
      obtain ⟨n, rfl⟩ : ∃ x, n = x + 1 := ⟨n - 1, by omega⟩
      obtain ⟨m, rfl⟩ : ∃ x, m = x + 1 := ⟨m - 1, by omega⟩
      simp only [parse]
      by_cases h1 : ch = '+' ∨ ch = '-'
      · simp only [if_pos h1, finish]
        split_ifs <;> simp
      simp only [if_neg h1]
      by_cases h2 : ch = ')'
      · simp only [if_pos h2]
        split_ifs <;> simp
      simp only [if_neg h2]
      by_cases h3 : starts ch r = true
      · simp only [if_pos h3]
        cases he : getElt (ch :: r) with
        | ok e =>
          have le := getElt_len he
          simp only [List.length_cons] at le
          simp only [bind_ok]
          cases hd : getNum e.2.1 with
          | ok d =>
            have ld := getNum_len hd
            simp only [bind_ok]
            obtain ⟨i1, i2, i3⟩ := ih d.2 (by omega) n m c p (by omega) (by omega)
            rw [← i1]
            cases hp : parse n d.2 c p with
            | ok t =>
              refine ⟨rfl, by simp, ?_⟩
              intro u hu
              simp only [bind_ok] at hu
              cases hu
              have := i3 t hp
              simp only; omega
            | fuel => exact absurd hp i2
            | _ => simp
          | fuel => simp only [getNum] at hd; split_ifs at hd
          | _ => simp
        | fuel =>
          simp only [getElt] at he
          split_ifs at he
          split at he
          · simp at he
          · split_ifs at he
        | _ => simp
      simp only [if_neg h3]
      by_cases h4 : ch = '('
      · simp only [if_pos h4]
        obtain ⟨j1, j2, j3⟩ := ih r (by omega) n m c (p + 1) (by omega) (by omega)
        rw [← j1]
        cases hi : parse n r c (p + 1) with
        | ok i =>
          have li := j3 i hi
          simp only [bind_ok]
          cases hd : getNum i.rest with
          | ok d =>
            have ld := getNum_len hd
            simp only [bind_ok]
            obtain ⟨i1, i2, i3⟩ := ih d.2 (by omega) n m c i.paren (by omega) (by omega)
            rw [← i1]
            cases hp : parse n d.2 c i.paren with
            | ok t =>
              refine ⟨rfl, by simp, ?_⟩
              intro u hu
              simp only [bind_ok] at hu
              cases hu
              have := i3 t hp
              simp only; omega
            | fuel => exact absurd hp i2
            | _ => simp
          | fuel => simp only [getNum] at hd; split_ifs at hd
          | _ => simp
        | fuel => exact absurd hi j2
        | _ => simp
      simp only [if_neg h4]
      by_cases h5 : ch = ':'
      · simp only [if_pos h5]
        cases hd : getNum r with
        | ok d =>
          have ld := getNum_len hd
          simp only [bind_ok]
          obtain ⟨j1, j2, j3⟩ := ih d.2 (by omega) n m c p (by omega) (by omega)
          rw [← j1]
          cases hi : parse n d.2 c p with
          | ok i =>
            have li := j3 i hi
            simp only [bind_ok]
            obtain ⟨i1, i2, i3⟩ := ih i.rest (by omega) n m c i.paren (by omega) (by omega)
            rw [← i1]
            cases hp : parse n i.rest c i.paren with
            | ok t =>
              refine ⟨rfl, by simp, ?_⟩
              intro u hu
              simp only [bind_ok] at hu
              cases hu
              have := i3 t hp
              simp only; omega
            | fuel => exact absurd hp i2
            | _ => simp
          | fuel => exact absurd hi j2
          | _ => simp
        | fuel => simp only [getNum] at hd; split_ifs at hd
        | _ => simp
      simp [if_neg h5]

/-- The reader with enough fuel. -/
def rd (s : List Char) (c : ℚ) (p : Int) : Res St := parse (s.length + 1) s c p

theorem parse_eq_rd {n : Nat} {s : List Char} (h : s.length < n) (c : ℚ) (p : Int) :
    parse n s c p = rd s c p :=
  (parse_stable s.length s (Nat.le_refl _) n (s.length + 1) c p h (by omega)).1

theorem rd_rest {s : List Char} {c : ℚ} {p : Int} {t : St} (h : rd s c p = .ok t) :
    t.rest.length ≤ s.length :=
  (parse_stable s.length s (Nat.le_refl _) (s.length + 1) (s.length + 1) c p (by omega)
    (by omega)).2.2 t h

theorem rd_nil (c : ℚ) (p : Int) : rd [] c p = finish [] p := rfl

/-- `Res.bind` with functions that agree on the value. -/
theorem bind_congr {α β : Type} {x : Res α} {f g : α → Res β} (h : ∀ a, x = .ok a → f a = g a) :
    x.bind f = x.bind g := by
  cases x with
  | ok a => exact h a rfl
  | _ => rfl

/-- One turn of the loop. -/
theorem rd_cons (ch : Char) (r : List Char) (c : ℚ) (p : Int) :
    rd (ch :: r) c p =
      if ch = '+' ∨ ch = '-' then finish (ch :: r) p
      else if ch = ')' then
        if p - 1 < 0 then .err else .ok ⟨r, [], p - 1, false⟩
      else if starts ch r then
        (getElt (ch :: r)).bind fun e =>
        (getNum e.2.1).bind fun d =>
        (rd d.2 c p).bind fun t =>
        .ok ⟨t.rest, (e.1, d.1 * c) :: t.elts, t.paren, e.2.2 || t.bad⟩
      else if ch = '(' then
        (rd r c (p + 1)).bind fun i =>
        (getNum i.rest).bind fun d =>
        (rd d.2 c i.paren).bind fun t =>
        .ok ⟨t.rest, scale d.1 i.elts ++ t.elts, t.paren, i.bad || t.bad⟩
      else if ch = ':' then
        (getNum r).bind fun d =>
        (rd d.2 c p).bind fun i =>
        (rd i.rest c i.paren).bind fun t =>
        .ok ⟨t.rest, scale d.1 i.elts ++ t.elts, t.paren, i.bad || t.bad⟩
      else .err := by
  conv_lhs => unfold rd
  simp only [List.length_cons, parse]
  by_cases h1 : ch = '+' ∨ ch = '-'
  · simp only [if_pos h1]
  simp only [if_neg h1]
  by_cases h2 : ch = ')'
  · simp only [if_pos h2]
  simp only [if_neg h2]
  by_cases h3 : starts ch r = true
  · simp only [if_pos h3]
    refine bind_congr fun e he => bind_congr fun d hd => ?_
    have le := getElt_len he
    have ld := getNum_len hd
    simp only [List.length_cons] at le
    rw [parse_eq_rd (by omega)]
  simp only [if_neg h3]
  by_cases h4 : ch = '('
  · simp only [if_pos h4]
    rw [parse_eq_rd (by omega)]
    refine bind_congr fun i hi => bind_congr fun d hd => ?_
    have li := rd_rest hi
    have ld := getNum_len hd
    rw [parse_eq_rd (by omega)]
  simp only [if_neg h4]
  by_cases h5 : ch = ':'
  · simp only [if_pos h5]
    refine bind_congr fun d hd => ?_
    have ld := getNum_len hd
    rw [parse_eq_rd (by omega)]
    refine bind_congr fun i hi => ?_
    have li := rd_rest hi
    rw [parse_eq_rd (by omega)]
  simp [if_neg h5]

end Verif.Formula
