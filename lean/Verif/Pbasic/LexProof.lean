import Verif.Pbasic.LexSpec
import Mathlib.Tactic.FieldSimp
import Mathlib.Tactic.Ring

/-!
# Lemmas on the division of a text into tokens
-/

namespace Verif.Pbasic

/-! ## Rows of characters -/

theorem takeWhile_rest {p : Char → Bool} : ∀ {w rest : List Char}, (∀ c ∈ w, p c = true) →
    (∀ c, rest.head? = some c → p c = false) → (w ++ rest).takeWhile p = w
  | [], [], _, _ => rfl
  | [], c :: r, _, h => by
      have := h c rfl
      simp [this]
  | a :: w, rest, ha, h => by
      have h1 := ha a (by simp)
      have h2 := takeWhile_rest (w := w) (fun c hc => ha c (List.mem_cons_of_mem _ hc)) h
      simp [h1, h2]

theorem dropWhile_rest {p : Char → Bool} : ∀ {w rest : List Char}, (∀ c ∈ w, p c = true) →
    (∀ c, rest.head? = some c → p c = false) → (w ++ rest).dropWhile p = rest
  | [], [], _, _ => rfl
  | [], c :: r, _, h => by
      have := h c rfl
      simp [this]
  | a :: w, rest, ha, h => by
      have h1 := ha a (by simp)
      have h2 := dropWhile_rest (w := w) (fun c hc => ha c (List.mem_cons_of_mem _ hc)) h
      simp [h1, h2]

theorem wordChar_iff {c : Char} : isWordChar c = true ↔ Wordly c := by
  simp only [isWordChar, Wordly, Bool.or_eq_true, beq_iff_eq]
  tauto

theorem wordChar_not {c : Char} (h : ¬ Wordly c) : isWordChar c = false := by
  rw [← Bool.not_eq_true, wordChar_iff]; exact h

/-! ## Digits -/

theorem digit_facts : ∀ c ∈ digits, c.isDigit = true ∧ c.toNat - 48 = digits.idxOf c ∧ 48 ≤ c.toNat ∧
    c.toNat ≤ 57 ∧ Wordly c ∧ c ≠ '"' ∧ c ≠ '\'' ∧ c ≠ '<' ∧ c ≠ '>' ∧ sign c = none ∧
    c.isAlpha = false ∧ c ≠ ' ' ∧ c ≠ '\t' ∧ c ≠ '\r' ∧ isSpace c = false ∧ c ≠ '.' ∧ c ≠ 'x' ∧ c ≠ 'X' ∧
    c ≠ '+' ∧ c ≠ '-' ∧ c ≠ 'e' ∧ c ≠ 'E' := by
  unfold Wordly
  decide

theorem natOf_foldl : ∀ {ds : List Char} (n : Nat), (∀ c ∈ ds, c ∈ digits) →
    ds.foldl (fun n c => 10 * n + (c.toNat - 48)) n = n * 10 ^ ds.length + decimal ds
  | [], n, _ => by simp [decimal]
  | d :: ds, n, h => by
      have h1 := (digit_facts d (h d (by simp))).2.1
      rw [List.foldl_cons, natOf_foldl _ (fun c hc => h c (List.mem_cons_of_mem _ hc)), h1]
      simp only [decimal, List.length_cons, pow_succ]
      ring

theorem natOf_eq {ds : List Char} (h : ∀ c ∈ ds, c ∈ digits) : natOf ds = decimal ds := by
  unfold natOf
  rw [natOf_foldl 0 h]; simp

theorem decimal_append : ∀ {a b : List Char}, decimal (a ++ b) = decimal a * 10 ^ b.length + decimal b
  | [], b => by simp [decimal]
  | d :: a, b => by
      simp only [List.cons_append, decimal, List.length_append, decimal_append (a := a), pow_add]
      ring

theorem digits_all {a : List Char} (h : ∀ c ∈ a, c ∈ digits) : ∀ c ∈ a, c.isDigit = true :=
  fun c hc => (digit_facts c (h c hc)).1

/-! ## Numbers -/

theorem exponent_none {rest : List Char} (h : ∀ c, rest.head? = some c → ¬ Wordly c) :
    exponent rest = (0, rest) := by
  cases rest with
  | nil => rfl
  | cons c r =>
      have h1 := h c rfl
      refine if_neg ?_
      rintro (rfl | rfl)
      · exact h1 (by unfold Wordly; decide)
      · exact h1 (by unfold Wordly; decide)

theorem notDigit_of {rest : List Char} (h : ∀ c, rest.head? = some c → ¬ Wordly c) :
    ∀ c, rest.head? = some c → c.isDigit = false := by
  intro c hc
  by_contra h1
  refine h c hc (Or.inl ?_)
  simp only [Bool.not_eq_false] at h1
  simp [Char.isAlphanum, h1]

theorem expSign_digit {a : Char} {r : List Char} (ha : a ∈ digits) : expSign (a :: r) = (1, a :: r) := by
  have hf := digit_facts a ha
  unfold expSign
  simp [hf]

theorem exponent_sign {e : Char} {sg d rest : List Char} {k : Int} (he : e = 'e' ∨ e = 'E')
    (hs : expSign (sg ++ d ++ rest) = (k, d ++ rest)) (hd : ∀ c ∈ d, c ∈ digits) (hne : d ≠ [])
    (h : ∀ c, rest.head? = some c → ¬ Wordly c) :
    exponent (e :: (sg ++ d) ++ rest) = (k * (decimal d : Int), rest) := by
  have ht := takeWhile_rest (digits_all hd) (notDigit_of h)
  have hdr := dropWhile_rest (digits_all hd) (notDigit_of h)
  rw [List.cons_append]
  refine (if_pos he).trans ?_
  rw [hs]
  dsimp only
  rw [ht, hdr, natOf_eq hd, if_neg hne]

theorem expSign_none {d rest : List Char} (hd : ∀ c ∈ d, c ∈ digits) (hne : d ≠ []) :
    expSign (d ++ rest) = (1, d ++ rest) := by
  cases d with
  | nil => exact absurd rfl hne
  | cons a d' => exact expSign_digit (hd a (by simp))

theorem fraction_none {rest : List Char} (h : rest.head? ≠ some '.') : fraction rest = ([], rest) := by
  cases rest with
  | nil => rfl
  | cons c r => exact if_neg fun hc => h (by rw [hc]; rfl)

/-- The number before an exponent; `rest` starts the exponent or follows the
number. -/
theorem strtod_mantissa {m rest rest' : List Char} {v : ℚ} {k : Int} (hm : Mantissa m v)
    (h1 : ∀ c, rest.head? = some c → c.isDigit = false ∧ c ≠ '.')
    (h2 : exponent rest = (k, rest')) : strtod (m ++ rest) = some (v * 10 ^ k, rest') := by
  have hd : ∀ c, rest.head? = some c → c.isDigit = false := fun c hc => (h1 c hc).1
  cases hm with
  | whole ha hne =>
      unfold strtod
      dsimp only
      rw [takeWhile_rest (digits_all ha) hd, dropWhile_rest (digits_all ha) hd,
        fraction_none (fun hc => (h1 _ hc).2 rfl)]
      dsimp only
      rw [List.append_nil, if_neg hne, h2, natOf_eq ha]
      simp
  | @point a b ha hb hne =>
      have h3 : ∀ c, ('.' :: (b ++ rest)).head? = some c → c.isDigit = false := by
        intro c hc
        simp only [List.head?_cons, Option.some.injEq] at hc
        subst hc; decide
      unfold strtod
      dsimp only
      rw [List.append_assoc, List.cons_append, takeWhile_rest (digits_all ha) h3,
        dropWhile_rest (digits_all ha) h3]
      rw [show fraction ('.' :: (b ++ rest)) = (b, rest) by
        simp only [fraction, ↓reduceIte]
        rw [takeWhile_rest (digits_all hb) hd, dropWhile_rest (digits_all hb) hd]]
      dsimp only
      rw [if_neg hne, h2, natOf_eq (by simpa [or_imp, forall_and] using ⟨ha, hb⟩), decimal_append]
      dsimp only
      rw [zpow_sub₀ (by norm_num), zpow_natCast]
      congr 2
      have : (10 : ℚ) ^ b.length ≠ 0 := by positivity
      push_cast
      field_simp

theorem strtod_numeral {w rest : List Char} {q : ℚ} (hw : Numeral w q)
    (h : ∀ c, rest.head? = some c → ¬ Wordly c ∧ c ≠ '.') : strtod (w ++ rest) = some (q, rest) := by
  have h0 : ∀ c, rest.head? = some c → ¬ Wordly c := fun c hc => (h c hc).1
  have he : ∀ {e : Char} {x : List Char}, e = 'e' ∨ e = 'E' →
      ∀ c, (e :: x).head? = some c → c.isDigit = false ∧ c ≠ '.' := by
    intro e x he c hc
    simp only [List.head?_cons, Option.some.injEq] at hc
    subst hc
    rcases he with rfl | rfl <;> decide
  cases hw with
  | plain hm =>
      have := strtod_mantissa hm (fun c hc => ⟨notDigit_of h0 c hc, (h c hc).2⟩) (exponent_none h0)
      simpa using this
  | @up m d v e sg hm hE hs hd hne =>
      have h3 : expSign (sg ++ d ++ rest) = (1, d ++ rest) := by
        rcases hs with rfl | rfl
        · exact expSign_none hd hne
        · rfl
      have := strtod_mantissa hm (he hE) (exponent_sign hE h3 hd hne h0)
      rw [List.append_assoc]
      refine this.trans ?_
      rw [one_mul, zpow_natCast]
  | @down m d v e hm hE hd hne =>
      have h3 : expSign (['-'] ++ d ++ rest) = (-1, d ++ rest) := rfl
      have := strtod_mantissa hm (he hE) (exponent_sign hE h3 hd hne h0)
      rw [List.append_assoc]
      refine this.trans ?_
      rw [neg_one_mul, zpow_neg, zpow_natCast, div_eq_mul_inv]

/-! ## Words -/

theorem letter_facts : ∀ d ∈ letters, ∀ c, c = d ∨ c = d.toUpper → c.isAlpha = true ∧ Wordly c ∧
    c.toLower = d ∧ c ≠ '"' ∧ c ≠ '\'' ∧ c ≠ '<' ∧ c ≠ '>' ∧ sign c = none ∧ isSpace c = false ∧
    untab c = c ∧ c ≠ ' ' ∧ c.isDigit = false := by
  have h : ∀ d ∈ letters, (∀ c ∈ [d, d.toUpper], c.isAlpha = true ∧ Wordly c ∧
      c.toLower = d ∧ c ≠ '"' ∧ c ≠ '\'' ∧ c ≠ '<' ∧ c ≠ '>' ∧ sign c = none ∧ isSpace c = false ∧
      untab c = c ∧ c ≠ ' ' ∧ c.isDigit = false) := by
    unfold Wordly
    decide +kernel
  intro d hd c hc
  exact h d hd c (by rcases hc with rfl | rfl <;> simp)

theorem nameChar_facts : ∀ d ∈ nameChars, ∀ c, c = d ∨ c = d.toUpper → Wordly c ∧
    c.toLower = d ∧ isSpace c = false ∧ untab c = c ∧ isBreak c = false := by
  have h : ∀ d ∈ nameChars, (∀ c ∈ [d, d.toUpper], Wordly c ∧
      c.toLower = d ∧ isSpace c = false ∧ untab c = c ∧ isBreak c = false) := by
    unfold Wordly
    decide +kernel
  intro d hd c hc
  exact h d hd c (by rcases hc with rfl | rfl <;> simp)

theorem anyCase_length {w s : List Char} (h : AnyCase w s) : w.length = s.length := h.length_eq

theorem anyCase_lower {w s : List Char} (h : AnyCase w s) (hs : ∀ d ∈ s, d ∈ nameChars) :
    w.map Char.toLower = s ∧ ∀ c ∈ w, Wordly c ∧ isSpace c = false ∧ untab c = c := by
  induction h with
  | nil => simp
  | @cons c d w s hc h ih =>
      obtain ⟨h1, h2⟩ := ih fun x hx => hs x (List.mem_cons_of_mem _ hx)
      obtain ⟨h3, h4, h5, h6, -⟩ := nameChar_facts d (hs d (by simp)) c hc
      refine ⟨by rw [List.map_cons, h4, h1], ?_⟩
      intro x hx
      rcases List.mem_cons.mp hx with rfl | hx
      · exact ⟨h3, h5, h6⟩
      · exact h2 x hx

/-- A word that starts with a letter. -/
theorem tokenAt_word {w n rest : List Char} {d : Char} (hd : d ∈ letters)
    (hn : ∀ x ∈ n, x ∈ nameChars) (hl : (d :: n).length ≤ 20) (hw : AnyCase w (d :: n))
    (hr : ∀ c, rest.head? = some c → ¬ Wordly c) :
    ∃ c r, w ++ rest = c :: r ∧ c ≠ ' ' ∧ tokenAt c r =
      if wordTok (d :: n) = .kw .krem then .ok (wordTok (d :: n), []) else .ok (wordTok (d :: n), rest) := by
  have hall : ∀ x ∈ d :: n, x ∈ nameChars := by
    intro x hx
    rcases List.mem_cons.mp hx with rfl | hx
    · exact List.mem_append_left _ (List.mem_append_left _ hd)
    · exact hn x hx
  obtain ⟨h1, h2⟩ := anyCase_lower hw hall
  have hlen : w.length ≤ 20 := by rw [anyCase_length hw]; exact hl
  cases hw with
  | @cons c _ w' _ hc hw' =>
      obtain ⟨g1, -, -, g4, g5, g6, g7, g8, -, -, g9, -⟩ := letter_facts d hd c hc
      refine ⟨c, w' ++ rest, rfl, g9, ?_⟩
      have ht : (c :: (w' ++ rest)).takeWhile isWordChar = c :: w' :=
        takeWhile_rest (w := c :: w') (fun x hx => wordChar_iff.mpr (h2 x hx).1)
          (fun x hx => wordChar_not (hr x hx))
      have hdr : (c :: (w' ++ rest)).dropWhile isWordChar = rest :=
        dropWhile_rest (w := c :: w') (fun x hx => wordChar_iff.mpr (h2 x hx).1)
          (fun x hx => wordChar_not (hr x hx))
      have hcut : cutWord (c :: w') = d :: n := by
        unfold cutWord
        rw [List.take_of_length_le hlen, h1]
      unfold tokenAt
      rw [if_neg (by simp [g4, g5]), if_neg g6, if_neg g7, g8]
      dsimp only
      rw [if_pos g1, ht, hdr, hcut]

theorem words_facts : ∀ e ∈ words, table.lookup e.2 = some e.1 ∧ e.1 ≠ .kw .krem ∧
    e.2.toList.length ≤ 20 ∧ (∀ c ∈ e.2.toList, c ∈ nameChars) ∧
    ∃ d n, e.2.toList = d :: n ∧ d ∈ letters := by
  have h : ∀ e ∈ words, table.lookup e.2 = some e.1 ∧ e.1 ≠ .kw .krem ∧
    e.2.toList.length ≤ 20 ∧ (∀ c ∈ e.2.toList, c ∈ nameChars) ∧
    (e.2.toList.head?.all (· ∈ letters)) = true ∧ e.2.toList ≠ [] := by decide +kernel
  intro e he
  obtain ⟨h1, h2, h3, h4, h5, h6⟩ := h e he
  refine ⟨h1, h2, h3, h4, ?_⟩
  cases hl : e.2.toList with
  | nil => exact absurd hl h6
  | cons d n => rw [hl] at h5; exact ⟨d, n, rfl, by simpa using h5⟩

theorem lookup_none {s : String} (h : ¬ Reserved s) : table.lookup s = none := by
  rw [List.lookup_eq_none_iff]
  intro p hp
  simp only [bne_iff_ne, ne_eq]
  rintro rfl
  exact h ⟨p.2, hp⟩

/-! ## One token -/

theorem mantissa_chars {m : List Char} {v : ℚ} (h : Mantissa m v) :
    (∀ c ∈ m, c ∈ digits ∨ c = '.') ∧ m ≠ [] := by
  cases h with
  | whole ha hne => exact ⟨fun c hc => Or.inl (ha c hc), hne⟩
  | point ha hb hne =>
      refine ⟨fun c hc => ?_, by simp⟩
      rcases List.mem_append.mp hc with hc | hc
      · exact Or.inl (ha c hc)
      · rcases List.mem_cons.mp hc with rfl | hc
        · exact Or.inr rfl
        · exact Or.inl (hb c hc)

/-- The characters of a number, of which the first and the last are digits or
points. -/
theorem numeral_chars {w : List Char} {q : ℚ} (h : Numeral w q) :
    (∃ c w', w = c :: w' ∧ (c ∈ digits ∨ c = '.')) ∧
    (∃ d, w.getLast? = some d ∧ (d ∈ digits ∨ d = '.')) ∧
    ∀ c ∈ w, c ∈ digits ∨ c ∈ ['.', 'e', 'E', '+', '-'] := by
  have first : ∀ {m x : List Char} {v : ℚ}, Mantissa m v →
      ∃ c w', m ++ x = c :: w' ∧ (c ∈ digits ∨ c = '.') := by
    intro m x v hm
    obtain ⟨h1, h2⟩ := mantissa_chars hm
    cases m with
    | nil => exact absurd rfl h2
    | cons c m' => exact ⟨c, m' ++ x, rfl, h1 c (by simp)⟩
  have last : ∀ {x d : List Char}, (∀ c ∈ d, c ∈ digits ∨ c = '.') → d ≠ [] →
      ∃ a, (x ++ d).getLast? = some a ∧ (a ∈ digits ∨ a = '.') := by
    intro x d hd hne
    refine ⟨d.getLast hne, ?_, hd _ (List.getLast_mem hne)⟩
    rw [List.getLast?_append, List.getLast?_eq_some_getLast hne]; rfl
  have mc : ∀ {m : List Char} {v : ℚ}, Mantissa m v → ∀ c ∈ m,
      c ∈ digits ∨ c ∈ ['.', 'e', 'E', '+', '-'] := by
    intro m v hm c hc
    rcases (mantissa_chars hm).1 c hc with h | rfl
    · exact Or.inl h
    · exact Or.inr (by simp)
  cases h with
  | plain hm =>
      refine ⟨?_, ?_, mc hm⟩
      · simpa using first (x := []) hm
      · simpa using last (x := []) (mantissa_chars hm).1 (mantissa_chars hm).2
  | @up m d v e sg hm hE hs hd hne =>
      refine ⟨first hm, ?_, ?_⟩
      · have := last (x := m ++ e :: sg) (d := d) (fun c hc => Or.inl (hd c hc)) hne
        simpa using this
      · intro c hc
        simp only [List.mem_append, List.mem_cons] at hc
        rcases hc with hc | hc | hc | hc
        · exact mc hm c hc
        · rcases hE with rfl | rfl <;> simp [hc]
        · rcases hs with rfl | rfl
          · simp at hc
          · simp at hc; simp [hc]
        · exact Or.inl (hd c hc)
  | @down m d v e hm hE hd hne =>
      refine ⟨first hm, ?_, ?_⟩
      · have := last (x := m ++ [e, '-']) (d := d) (fun c hc => Or.inl (hd c hc)) hne
        simpa using this
      · intro c hc
        simp only [List.mem_append, List.mem_cons] at hc
        rcases hc with hc | hc | hc | hc
        · exact mc hm c hc
        · rcases hE with rfl | rfl <;> simp [hc]
        · simp [hc]
        · exact Or.inl (hd c hc)

theorem hexStart_false {c : Char} {w rest : List Char}
    (hw : ∀ x ∈ w, x ≠ 'x' ∧ x ≠ 'X') (hr : ∀ x, rest.head? = some x → x ≠ 'x' ∧ x ≠ 'X') :
    hexStart (c :: (w ++ rest)) = false := by
  unfold hexStart
  split
  · rename_i d r heq
    have h1 := (List.cons.inj heq).2
    have h2 : d ≠ 'x' ∧ d ≠ 'X' := by
      cases w with
      | nil => rw [List.nil_append] at h1; exact hr d (by rw [h1]; rfl)
      | cons a w => rw [List.cons_append] at h1; rw [← (List.cons.inj h1).1]; exact hw a (by simp)
    simp [h2]
  · rfl

theorem tokenAt_numeral {w rest : List Char} {q : ℚ} (hw : Numeral w q)
    (h : ∀ c, rest.head? = some c → ¬ Wordly c ∧ c ≠ '.') :
    ∃ c r, w ++ rest = c :: r ∧ c ≠ ' ' ∧ tokenAt c r = .ok (.num q, rest) := by
  have h1 := strtod_numeral hw h
  obtain ⟨⟨c, w', rfl, hc⟩, -, hall⟩ := numeral_chars hw
  have hx : ∀ x : Char, x ∈ digits ∨ x ∈ ['.', 'e', 'E', '+', '-'] → x ≠ 'x' ∧ x ≠ 'X' := by
    rintro x (hx | hx)
    · have := digit_facts x hx
      exact ⟨this.2.2.2.2.2.2.2.2.2.2.2.2.2.2.2.2.1, this.2.2.2.2.2.2.2.2.2.2.2.2.2.2.2.2.2.1⟩
    · revert x; decide
  have hhex : hexStart (c :: (w' ++ rest)) = false := by
    refine hexStart_false (fun x hx' => hx x (hall x (List.mem_cons_of_mem _ hx'))) ?_
    intro x hx'
    have := (h x hx').1
    constructor
    · rintro rfl; exact this (by unfold Wordly; decide)
    · rintro rfl; exact this (by unfold Wordly; decide)
  have hf : c ≠ '"' ∧ c ≠ '\'' ∧ c ≠ '<' ∧ c ≠ '>' ∧ sign c = none ∧ c.isAlpha = false ∧ c ≠ ' ' ∧
      (c.isDigit || c == '.') = true := by
    rcases hc with hc | rfl
    · have := digit_facts c hc
      simp [this]
    · decide
  obtain ⟨g1, g2, g3, g4, g5, g6, g7, g8⟩ := hf
  refine ⟨c, w' ++ rest, rfl, g7, ?_⟩
  unfold tokenAt
  rw [if_neg (by simp [g1, g2]), if_neg g3, if_neg g4, g5]
  dsimp only
  rw [g6, if_neg (by simp), if_pos g8, hhex, if_neg (by simp)]
  rw [List.cons_append] at h1
  rw [h1]

theorem tokenAt_str {q : Char} {s rest : List Char} (hq : q = '"' ∨ q = '\'') (hs : q ∉ s) :
    tokenAt q (s ++ [q] ++ rest) = .ok (.str s, rest) := by
  have h1 : ∀ c ∈ s, (c != q) = true := by
    intro c hc
    simp only [bne_iff_ne, ne_eq]
    rintro rfl; exact hs hc
  have h2 : ∀ c, (q :: rest).head? = some c → (c != q) = false := by
    intro c hc
    simp only [List.head?_cons, Option.some.injEq] at hc
    simp [hc]
  have e1 := takeWhile_rest h1 h2
  have e2 := dropWhile_rest h1 h2
  unfold tokenAt
  rw [if_pos hq, List.append_assoc, List.singleton_append, e1, e2]

theorem tokenAt_sign {t : Tok} {w rest : List Char} (h : (t, w) ∈ signs) (ha : Apart w rest) :
    ∃ c r, w ++ rest = c :: r ∧ c ≠ ' ' ∧ tokenAt c r = .ok (t, rest) := by
  have hlt : w = ['<'] → ∀ c, rest.head? = some c → c ≠ '=' ∧ c ≠ '>' :=
    fun h c hc => (ha c hc).2.1 h
  have hgt : w = ['>'] → ∀ c, rest.head? = some c → c ≠ '=' := fun h c hc => (ha c hc).2.2 h
  unfold signs at h
  simp only [List.mem_cons, Prod.mk.injEq, List.not_mem_nil, or_false] at h
  rcases h with ⟨rfl, rfl⟩ | ⟨rfl, rfl⟩ | ⟨rfl, rfl⟩ | ⟨rfl, rfl⟩ | ⟨rfl, rfl⟩ | ⟨rfl, rfl⟩ | ⟨rfl, rfl⟩ |
    ⟨rfl, rfl⟩ | ⟨rfl, rfl⟩ | ⟨rfl, rfl⟩ | ⟨rfl, rfl⟩ | ⟨rfl, rfl⟩ | ⟨rfl, rfl⟩ | ⟨rfl, rfl⟩ |
    ⟨rfl, rfl⟩ | ⟨rfl, rfl⟩ | ⟨rfl, rfl⟩ | ⟨rfl, rfl⟩ <;>
    first
    | exact ⟨_, _, rfl, by decide, rfl⟩
    | skip
  · have h1 := hlt rfl
    refine ⟨_, _, rfl, by decide, ?_⟩
    change tokenAt _ rest = _
    cases rest with
    | nil => rfl
    | cons c r =>
        obtain ⟨h2, h3⟩ := h1 c rfl
        unfold tokenAt
        rw [if_neg (by decide), if_pos rfl]
        simp only [afterLess, if_neg h2, if_neg h3]
  · have h1 := hgt rfl
    refine ⟨_, _, rfl, by decide, ?_⟩
    change tokenAt _ rest = _
    cases rest with
    | nil => rfl
    | cons c r =>
        have h2 := h1 c rfl
        unfold tokenAt
        rw [if_neg (by decide), if_neg (by decide), if_pos rfl]
        simp only [afterGreater, if_neg h2]

/-- The written form of a token is read as that token. -/
theorem tokenAt_spells {t : Tok} {w rest : List Char} (h : Spells t w) (ha : Apart w rest) :
    ∃ c r, w ++ rest = c :: r ∧ c ≠ ' ' ∧ tokenAt c r = .ok (t, rest) := by
  cases h with
  | sign h => exact tokenAt_sign h ha
  | @word _ s _ h hw =>
      obtain ⟨h1, h2, h3, h4, d, n, h5, h6⟩ := words_facts _ h
      dsimp only at h1 h2 h3 h4 h5
      rw [h5] at hw h3 h4
      have hlast : ∃ x, w.getLast? = some x ∧ (Wordly x ∨ x = '.') := by
        have hne : w ≠ [] := by rintro rfl; cases hw
        exact ⟨w.getLast hne, List.getLast?_eq_some_getLast hne,
          Or.inl ((anyCase_lower hw h4).2 _ (List.getLast_mem hne)).1⟩
      have htok : wordTok (d :: n) = t := by
        unfold wordTok
        rw [← h5, String.ofList_toList, h1]
      obtain ⟨c, r, e1, e2, e3⟩ := tokenAt_word h6 (fun x hx => h4 x (List.mem_cons_of_mem _ hx)) h3 hw
        (fun c hc => ((ha c hc).1 hlast).1)
      refine ⟨c, r, e1, e2, ?_⟩
      rw [e3, htok, if_neg h2]
  | @var d n _ hc hn hl hr hw =>
      have hall : ∀ x ∈ d :: n, x ∈ nameChars := by
        intro x hx
        rcases List.mem_cons.mp hx with rfl | hx
        · exact List.mem_append_left _ (List.mem_append_left _ hc)
        · exact hn x hx
      have hlast : ∃ x, w.getLast? = some x ∧ (Wordly x ∨ x = '.') := by
        have hne : w ≠ [] := by rintro rfl; cases hw
        exact ⟨w.getLast hne, List.getLast?_eq_some_getLast hne,
          Or.inl ((anyCase_lower hw hall).2 _ (List.getLast_mem hne)).1⟩
      have htok : wordTok (d :: n) =
          .var ⟨String.ofList (d :: n), decide ((d :: n).getLast? = some '$')⟩ := by
        unfold wordTok
        rw [lookup_none hr]
        simp only [endsDollar, beq_eq_decide]
      obtain ⟨c, r, e1, e2, e3⟩ := tokenAt_word hc hn hl hw (fun c hc => ((ha c hc).1 hlast).1)
      refine ⟨c, r, e1, e2, ?_⟩
      rw [e3, htok, if_neg (by simp)]
  | num h =>
      obtain ⟨-, ⟨d, hd, hd'⟩, -⟩ := numeral_chars h
      refine tokenAt_numeral h fun c hc => (ha c hc).1 ⟨d, hd, ?_⟩
      rcases hd' with hd' | rfl
      · exact Or.inl (digit_facts d hd').2.2.2.2.1
      · exact Or.inr rfl
  | @str q s hq hs ht hr =>
      refine ⟨q, s ++ [q] ++ rest, rfl, ?_, tokenAt_str hq hs⟩
      rcases hq with rfl | rfl <;> decide

/-! ## A line -/

/-- Only the space is a blank for `parse`. -/
abbrev Sp (c : Char) : Prop := c = ' '

theorem dropSpaces {gap w cs : List Char} {c : Char} {r : List Char} (hg : ∀ x ∈ gap, Sp x)
    (h : w ++ cs = c :: r) (hc : c ≠ ' ') : (gap ++ (w ++ cs)).dropWhile (· == ' ') = c :: r := by
  rw [h]
  refine dropWhile_rest (fun x hx => by simp [show x = ' ' from hg x hx]) ?_
  intro x hx
  simp only [List.head?_cons, Option.some.injEq] at hx
  subst hx; simpa using hc

theorem lex_starts {ts : List Tok} {cs rest : List Char} (h : Starts Sp ts cs rest) (n : Nat) :
    lex (n + ts.length) cs = (lex n rest).bind fun us => .ok (ts ++ us) := by
  induction h with
  | done => cases h : lex n _ <;> simp [h, Res.bind]
  | @next t ts gap w cs rest hg hw ha h ih =>
      obtain ⟨c, r, e1, e2, e3⟩ := tokenAt_spells hw ha
      rw [List.length_cons, ← Nat.add_assoc]
      conv_lhs => unfold lex
      rw [dropSpaces hg e1 e2]
      dsimp only
      rw [e3]
      change (lex (n + ts.length) cs).bind _ = _
      rw [ih]
      cases lex n rest <;> rfl

theorem spells_ne {t : Tok} {w : List Char} (h : Spells t w) : w ≠ [] := by
  rintro rfl
  obtain ⟨c, r, e1, -, e3⟩ := tokenAt_spells (rest := []) h (fun c hc => by simp at hc)
  simp at e1

theorem starts_length {B : Char → Prop} {ts : List Tok} {cs rest : List Char}
    (h : Starts B ts cs rest) : ts.length + rest.length ≤ cs.length := by
  induction h with
  | done => simp
  | next hg hw ha h ih =>
      have := List.length_pos_iff.mpr (spells_ne hw)
      simp only [List.length_cons, List.length_append]
      omega

theorem lex_text {ts : List Tok} {cs : List Char} (h : Text Sp ts cs) :
    lex (cs.length + 1) cs = .ok ts := by
  cases h with
  | plain h =>
      have hl := starts_length h
      obtain ⟨n, hn⟩ : ∃ n, cs.length + 1 = (n + 1) + ts.length :=
        ⟨cs.length - ts.length, by simp at hl; omega⟩
      rw [hn, lex_starts h]
      simp [lex, Res.bind]
  | @remark ts _ gap w r h hg hw ha hl =>
      have hlen := starts_length h
      have hw3 : w.length = 3 := hw.length_eq
      obtain ⟨n, hn⟩ : ∃ n, cs.length + 1 = (n + 2) + ts.length := by
        refine ⟨cs.length - ts.length - 1, ?_⟩
        simp only [List.length_append] at hlen
        omega
      obtain ⟨c, x, e1, e2, e3⟩ := tokenAt_word (d := 'r') (n := ['e', 'm']) (by decide) (by decide)
        (by decide) hw ha
      rw [hn, lex_starts h]
      have e4 : wordTok ['r', 'e', 'm'] = .kw .krem := by decide +kernel
      rw [e4, if_pos rfl] at e3
      have : lex (n + 2) (gap ++ (w ++ r)) = .ok [.kw .krem] := by
        conv_lhs => unfold lex
        rw [dropSpaces hg e1 e2]
        dsimp only
        rw [e3]
        simp [Res.bind, lex]
      rw [this]
      rfl

/-- A line is read as the tokens that it writes. -/
theorem parse_text_eq {ts : List Tok} {cs : List Char} (h : Text Sp ts cs) :
    parse cs = if ts.count .lp = ts.count .rp then .ok ts else .err := by
  unfold parse
  rw [lex_text h]
  rfl

theorem balanced_iff {ts : List Tok} : Balanced ts ↔ ts.count .lp = ts.count .rp := by
  have h : ∀ a, (ts.filter (· = a)).length = ts.count a := by
    intro a
    rw [List.count_eq_length_filter]
    congr 2
  unfold Balanced
  rw [h, h]

/-- A quote that is not closed. -/
theorem lex_unclosed {ts : List Tok} {cs gap s : List Char} {q : Char}
    (h : Starts Sp ts cs (gap ++ q :: s)) (hg : ∀ c ∈ gap, Sp c) (hq : q = '"' ∨ q = '\'')
    (hs : q ∉ s) : lex (cs.length + 1) cs = .err := by
  have hlen := starts_length h
  obtain ⟨n, hn⟩ : ∃ n, cs.length + 1 = (n + 1) + ts.length := by
    refine ⟨cs.length - ts.length, ?_⟩
    simp only [List.length_append] at hlen
    omega
  rw [hn, lex_starts h]
  have h1 : tokenAt q s = .err := by
    unfold tokenAt
    rw [if_pos hq]
    have : s.dropWhile (· != q) = [] := by
      have h2 := dropWhile_rest (p := (· != q)) (w := s) (rest := []) (fun c hc => by
        simp only [bne_iff_ne, ne_eq]
        rintro rfl; exact hs hc) (fun c hc => by simp at hc)
      rwa [List.append_nil] at h2
    rw [this]
  have : lex (n + 1) (gap ++ q :: s) = .err := by
    unfold lex
    rw [show gap ++ q :: s = gap ++ ([q] ++ s) from rfl,
      dropSpaces hg (by rfl : [q] ++ s = q :: s) (by rcases hq with rfl | rfl <;> decide)]
    dsimp only
    rw [h1]
    rfl
  rw [this]
  rfl

end Verif.Pbasic
