import Verif.Pbasic.LexProof
import Mathlib.Tactic.IntervalCases

/-!
# Lemmas on the size of letters
-/

namespace Verif.Pbasic

/-- The capital letters. -/
def capitals : List Char :=
  ['A', 'B', 'C', 'D', 'E', 'F', 'G', 'H', 'I', 'J', 'K', 'L', 'M', 'N', 'O', 'P', 'Q', 'R', 'S',
    'T', 'U', 'V', 'W', 'X', 'Y', 'Z']

theorem lower_cases (c : Char) : c.toLower = c ∨ c ∈ capitals := by
  by_cases h : c.val ≥ 'A'.val ∧ c.val ≤ 'Z'.val
  · right
    obtain ⟨h1, h2⟩ := h
    have h3 : 65 ≤ c.toNat := h1
    have h4 : c.toNat ≤ 90 := h2
    have h5 : c = Char.ofNat c.toNat := (Char.ofNat_toNat c).symm
    generalize c.toNat = n at h3 h4 h5
    subst h5
    interval_cases n <;> decide
  · left
    unfold Char.toLower
    rw [dif_neg h]

theorem capital_facts : ∀ c ∈ capitals, c.toLower ∈ letters ∧ c.isAlpha = true ∧
    c.toLower.isAlpha = true ∧ isWordChar c = true ∧ isWordChar c.toLower = true ∧ c.isDigit = false ∧
    c.toLower.isDigit = false ∧ c ≠ '<' ∧ c ≠ '>' ∧ c.toLower ≠ '<' ∧ c.toLower ≠ '>' ∧ c ≠ '"' ∧
    c ≠ '\'' ∧ c.toLower ≠ '"' ∧ c.toLower ≠ '\'' ∧ sign c = none ∧ sign c.toLower = none ∧
    c.toLower.toLower = c.toLower ∧ c ≠ ' ' ∧ c.toLower ≠ ' ' ∧ c ≠ '.' ∧ c.toLower ≠ '.' ∧ c ≠ '+' ∧
    c.toLower ≠ '+' ∧ c ≠ '-' ∧ c.toLower ≠ '-' ∧ c ≠ '=' ∧ c.toLower ≠ '=' ∧ c ≠ '0' ∧
    c.toLower ≠ '0' ∧ (c.toLower = 'e' ↔ c = 'E') ∧ c ≠ 'e' ∧ c ≠ 'x' ∧ c.toLower ≠ 'E' ∧
    c.toLower ≠ 'X' ∧ (c.toLower = 'x' ↔ c = 'X') := by
  decide +kernel

theorem lower_digit (c : Char) : c.toLower.isDigit = c.isDigit := by
  rcases lower_cases c with h | h
  · rw [h]
  · have := capital_facts c h; simp [this]

theorem lower_word (c : Char) : isWordChar c.toLower = isWordChar c := by
  rcases lower_cases c with h | h
  · rw [h]
  · have := capital_facts c h; simp [this]

theorem lower_lower (c : Char) : c.toLower.toLower = c.toLower := by
  rcases lower_cases c with h | h
  · rw [h, h]
  · have := capital_facts c h; simp [this]

theorem lower_eq {c d : Char} (hd : d.toLower = d) (h : d ∉ letters) : c.toLower = d ↔ c = d := by
  rcases lower_cases c with h1 | h1
  · rw [h1]
  · have h2 := (capital_facts c h1).1
    constructor
    · intro h3; rw [h3] at h2; exact absurd h2 h
    · rintro rfl; exact hd

/-- A text in small letters. -/
abbrev low (cs : List Char) : List Char := cs.map Char.toLower

theorem low_cons (c : Char) (r : List Char) : low (c :: r) = c.toLower :: low r := rfl

theorem low_takeDigits (l : List Char) : (low l).takeWhile Char.isDigit = l.takeWhile Char.isDigit := by
  induction l with
  | nil => rfl
  | cons c l ih =>
      simp only [List.map_cons, List.takeWhile_cons, lower_digit, ih]
      by_cases h : c.isDigit = true
      · rw [if_pos h, if_pos h]
        rcases lower_cases c with h1 | h1
        · rw [h1]
        · rw [(capital_facts c h1).2.2.2.2.2.1] at h; cases h
      · rw [if_neg h, if_neg h]

theorem low_dropDigits (l : List Char) :
    (low l).dropWhile Char.isDigit = low (l.dropWhile Char.isDigit) := by
  induction l with
  | nil => rfl
  | cons c l ih =>
      simp only [List.map_cons, List.dropWhile_cons, lower_digit, ih]
      split <;> rfl

theorem low_takeWord (l : List Char) :
    (low l).takeWhile isWordChar = low (l.takeWhile isWordChar) := by
  induction l with
  | nil => rfl
  | cons c l ih =>
      simp only [List.map_cons, List.takeWhile_cons, lower_word, ih]
      split <;> rfl

theorem low_dropWord (l : List Char) :
    (low l).dropWhile isWordChar = low (l.dropWhile isWordChar) := by
  induction l with
  | nil => rfl
  | cons c l ih =>
      simp only [List.map_cons, List.dropWhile_cons, lower_word, ih]
      split <;> rfl

theorem low_cut (w : List Char) : cutWord (low w) = cutWord w := by
  unfold cutWord
  rw [← List.map_take, List.map_map]
  refine List.map_congr_left fun c _ => lower_lower c

theorem low_fraction (l : List Char) :
    fraction (low l) = ((fraction l).1, low (fraction l).2) := by
  cases l with
  | nil => rfl
  | cons c l =>
      simp only [List.map_cons, fraction, lower_eq (c := c) (d := '.') (by decide) (by decide),
        low_takeDigits, low_dropDigits]
      split <;> rfl

theorem low_expSign (l : List Char) : expSign (low l) = ((expSign l).1, low (expSign l).2) := by
  cases l with
  | nil => rfl
  | cons c l =>
      simp only [List.map_cons, expSign, lower_eq (c := c) (d := '+') (by decide) (by decide),
        lower_eq (c := c) (d := '-') (by decide) (by decide)]
      split
      · rfl
      · split <;> rfl

theorem lower_e (c : Char) : (c.toLower = 'e' ∨ c.toLower = 'E') ↔ (c = 'e' ∨ c = 'E') := by
  rcases lower_cases c with h | h
  · rw [h]
  · have := capital_facts c h
    simp [this]

theorem low_exponent (l : List Char) : exponent (low l) = ((exponent l).1, low (exponent l).2) := by
  cases l with
  | nil => rfl
  | cons c l =>
      simp only [List.map_cons, exponent, lower_e, low_expSign, low_takeDigits, low_dropDigits]
      split
      · split <;> rfl
      · rfl

theorem low_strtod (l : List Char) :
    strtod (low l) = (strtod l).map fun p => (p.1, low p.2) := by
  simp only [strtod, low_takeDigits, low_dropDigits, low_fraction, low_exponent]
  split <;> rfl

theorem lower_x (c : Char) : (c.toLower == 'x' || c.toLower == 'X') = (c == 'x' || c == 'X') := by
  rcases lower_cases c with h | h
  · rw [h]
  · have := capital_facts c h
    rw [Bool.eq_iff_iff]
    simp [this]

theorem low_hexStart (l : List Char) : hexStart (low l) = hexStart l := by
  have key : ∀ l : List Char, hexStart l = match l with
      | c :: d :: _ => decide (c = '0') && (d == 'x' || d == 'X')
      | _ => false := by
    intro l
    unfold hexStart
    split
    · rename_i c r; simp
    · rename_i h
      split
      · rename_i c d r
        have : c ≠ '0' := by rintro rfl; exact h _ _ rfl
        simp [this]
      · rfl
  rw [key, key]
  cases l with
  | nil => rfl
  | cons c l =>
      cases l with
      | nil => rfl
      | cons d l =>
          simp only [List.map_cons, lower_x, lower_eq (c := c) (d := '0') (by decide) (by decide)]

theorem low_sign (c : Char) : sign c.toLower = sign c := by
  rcases lower_cases c with h | h
  · rw [h]
  · have := capital_facts c h; simp [this]

theorem low_alpha (c : Char) : c.toLower.isAlpha = c.isAlpha := by
  rcases lower_cases c with h | h
  · rw [h]
  · have := capital_facts c h; simp [this]

theorem low_less (l : List Char) : afterLess (low l) = ((afterLess l).1, low (afterLess l).2) := by
  cases l with
  | nil => rfl
  | cons c l =>
      simp only [List.map_cons, afterLess, lower_eq (c := c) (d := '=') (by decide) (by decide),
        lower_eq (c := c) (d := '>') (by decide) (by decide)]
      split
      · rfl
      · split <;> rfl

theorem low_greater (l : List Char) :
    afterGreater (low l) = ((afterGreater l).1, low (afterGreater l).2) := by
  cases l with
  | nil => rfl
  | cons c l =>
      simp only [List.map_cons, afterGreater, lower_eq (c := c) (d := '=') (by decide) (by decide)]
      split <;> rfl

theorem less_rest (l : List Char) : ∀ c ∈ (afterLess l).2, c ∈ l := by
  cases l with
  | nil => simp [afterLess]
  | cons a l =>
      intro c hc
      simp only [afterLess] at hc
      split at hc
      · exact List.mem_cons_of_mem _ hc
      · split at hc
        · exact List.mem_cons_of_mem _ hc
        · exact hc

theorem greater_rest (l : List Char) : ∀ c ∈ (afterGreater l).2, c ∈ l := by
  cases l with
  | nil => simp [afterGreater]
  | cons a l =>
      intro c hc
      simp only [afterGreater] at hc
      split at hc
      · exact List.mem_cons_of_mem _ hc
      · exact hc

/-- The token at a place does not depend on the size of letters, unless a string
starts there. -/
theorem low_tokenAt (c : Char) (r : List Char) (h1 : c ≠ '"') (h2 : c ≠ '\'') :
    tokenAt c.toLower (low r) = (tokenAt c r).bind fun p => .ok (p.1, low p.2) := by
  have e1 := lower_eq (c := c) (d := '"') (by decide) (by decide)
  have e2 := lower_eq (c := c) (d := '\'') (by decide) (by decide)
  have e3 := lower_eq (c := c) (d := '<') (by decide) (by decide)
  have e4 := lower_eq (c := c) (d := '>') (by decide) (by decide)
  have e5 := lower_eq (c := c) (d := '.') (by decide) (by decide)
  have t := low_takeWord (c :: r)
  have d := low_dropWord (c :: r)
  have s := low_strtod (c :: r)
  have x := low_hexStart (c :: r)
  rw [low_cons] at t d s x
  unfold tokenAt
  rw [if_neg (show ¬ (c.toLower = '"' ∨ c.toLower = '\'') by simp [e1, e2, h1, h2]),
    if_neg (show ¬ (c = '"' ∨ c = '\'') by simp [h1, h2])]
  simp only [e3, e4]
  by_cases h3 : c = '<'
  · rw [if_pos h3, if_pos h3, low_less]
    rfl
  · rw [if_neg h3, if_neg h3]
    by_cases h4 : c = '>'
    · rw [if_pos h4, if_pos h4, low_greater]
      rfl
    · rw [if_neg h4, if_neg h4, low_sign]
      cases sign c with
      | some t => rfl
      | none =>
          dsimp only
          rw [low_alpha, t, d, s, x, low_cut, lower_digit]
          have e5' : (c.toLower == '.') = (c == '.') := by
            rw [Bool.eq_iff_iff]; simp [e5]
          rw [e5']
          by_cases h5 : c.isAlpha = true
          · rw [if_pos h5, if_pos h5]
            split <;> rfl
          · rw [if_neg h5, if_neg h5]
            by_cases h6 : (c.isDigit || c == '.') = true
            · rw [if_pos h6, if_pos h6]
              split
              · rfl
              · cases strtod (c :: r) <;> rfl
            · rw [if_neg h6, if_neg h6]
              rfl

theorem mem_dropWhile {p : Char → Bool} {c : Char} {l : List Char} (h : c ∈ l.dropWhile p) : c ∈ l :=
  (List.dropWhile_suffix p).subset h

/-- What follows a token is a part of the text. -/
theorem exponent_rest (l : List Char) : ∀ c ∈ (exponent l).2, c ∈ l := by
  cases l with
  | nil => simp [exponent]
  | cons a l =>
      intro c hc
      unfold exponent at hc
      dsimp only at hc
      split at hc
      · split at hc
        · exact hc
        · have h1 := mem_dropWhile hc
          unfold expSign at h1
          cases l with
          | nil => exact absurd h1 (by simp)
          | cons b l =>
              dsimp only at h1
              split at h1
              · simp [h1]
              · split at h1
                · simp [h1]
                · exact List.mem_cons_of_mem _ h1
      · exact hc

theorem fraction_rest (l : List Char) : ∀ c ∈ (fraction l).2, c ∈ l := by
  cases l with
  | nil => simp [fraction]
  | cons a l =>
      intro c hc
      unfold fraction at hc
      dsimp only at hc
      split at hc
      · exact List.mem_cons_of_mem _ (mem_dropWhile hc)
      · exact hc

theorem tokenAt_rest {c : Char} {r : List Char} {t : Tok} {r' : List Char} {x : Char}
    (h : tokenAt c r = .ok (t, r')) (hx : x ∈ r') : x ∈ c :: r := by
  have ok : ∀ {t1 t2 : Tok} {a b : List Char}, Res.ok (t1, a) = Res.ok (t2, b) → a = b := by
    intro t1 t2 a b h
    exact (Prod.mk.inj (Res.ok.inj h)).2
  unfold tokenAt at h
  split at h
  · split at h
    · cases h
    · rename_i a r2 heq
      rw [ok h] at heq
      exact List.mem_cons_of_mem _ (mem_dropWhile (by rw [heq]; simp [hx]))
  · split at h
    · exact List.mem_cons_of_mem _ (less_rest _ _ (by rw [Res.ok.inj h]; exact hx))
    · split at h
      · exact List.mem_cons_of_mem _ (greater_rest _ _ (by rw [Res.ok.inj h]; exact hx))
      · split at h
        · rw [← ok h] at hx; simp [hx]
        · split at h
          · dsimp only at h
            split at h
            · rw [← ok h] at hx; simp at hx
            · rw [← ok h] at hx; exact mem_dropWhile hx
          · split at h
            · split at h
              · cases h
              · split at h
                · rw [← ok h] at hx; simp [hx]
                · rename_i q r2 heq
                  rw [ok h] at heq
                  unfold strtod at heq
                  dsimp only at heq
                  split at heq
                  · cases heq
                  · have h1 := (Prod.mk.inj (Option.some.inj heq)).2
                    rw [← h1] at hx
                    exact mem_dropWhile (fraction_rest _ _ (exponent_rest _ _ hx))
            · rw [← ok h] at hx; simp [hx]

theorem low_dropSpaces (l : List Char) :
    (low l).dropWhile (· == ' ') = low (l.dropWhile (· == ' ')) := by
  induction l with
  | nil => rfl
  | cons c l ih =>
      have e : (c.toLower == ' ') = (c == ' ') := by
        rw [Bool.eq_iff_iff]
        simp [lower_eq (c := c) (d := ' ') (by decide) (by decide)]
      simp only [List.map_cons, List.dropWhile_cons, e, ih]
      split <;> rfl

theorem low_lex : ∀ (n : Nat) (cs : List Char), '"' ∉ cs → '\'' ∉ cs → lex n (low cs) = lex n cs
  | 0, _, _, _ => rfl
  | n + 1, cs, h1, h2 => by
      unfold lex
      rw [low_dropSpaces]
      cases hd : cs.dropWhile (· == ' ') with
      | nil => rfl
      | cons c r =>
          have hm : ∀ x, x ∈ c :: r → x ∈ cs := fun x hx => mem_dropWhile (by rw [hd]; exact hx)
          have n1 : c ≠ '"' := by rintro rfl; exact h1 (hm _ (by simp))
          have n2 : c ≠ '\'' := by rintro rfl; exact h2 (hm _ (by simp))
          rw [low_cons]
          dsimp only
          rw [low_tokenAt c r n1 n2]
          cases ht : tokenAt c r with
          | ok p =>
              simp only [Res.bind]
              rw [low_lex n p.2 (fun hx => h1 (hm _ (tokenAt_rest ht hx)))
                (fun hx => h2 (hm _ (tokenAt_rest ht hx)))]
          | err => rfl
          | ub => rfl
          | out => rfl

end Verif.Pbasic
