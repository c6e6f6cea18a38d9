import Verif.Formula.Lemmas

/-! # Helper lemmas: reading what was written -/

namespace Verif.Formula

/-- What may follow a name or a number: not a character that would continue it. -/
def Sep (k : List Char) : Prop :=
  ∀ c, k.head? = some c → c.isLower = false ∧ c ≠ '_' ∧ c.isDigit = false ∧ c ≠ '.'

theorem upper_lower {c : Char} (h : c.isUpper = true) : c.isLower = false := by
  simp only [Char.isUpper, Char.isLower, Bool.and_eq_true, decide_eq_true_eq,
    Bool.and_eq_false_iff, decide_eq_false_iff_not] at *
  left
  have h1 := h.1; have h2 := h.2
  simp only [GE.ge, UInt32.le_iff_toNat_le] at *
  have e1 : 'A'.val.toNat = 65 := rfl
  have e2 : 'Z'.val.toNat = 90 := rfl
  have e3 : 'a'.val.toNat = 97 := rfl
  omega

theorem upper_digit {c : Char} (h : c.isUpper = true) : c.isDigit = false := by
  simp only [Char.isUpper, Char.isDigit, Bool.and_eq_true, decide_eq_true_eq,
    Bool.and_eq_false_iff, decide_eq_false_iff_not] at *
  right
  have h1 := h.1; have h2 := h.2
  simp only [GE.ge, UInt32.le_iff_toNat_le] at *
  have e1 : 'A'.val.toNat = 65 := rfl
  have e2 : '9'.val.toNat = 57 := rfl
  omega

theorem digit_tail {c : Char} (h : c.isDigit = true) : isTail c = false := by
  have h2 : c.isLower = false := by
    simp only [Char.isLower, Char.isDigit, Bool.and_eq_true, decide_eq_true_eq,
      Bool.and_eq_false_iff, decide_eq_false_iff_not] at *
    left
    have h1 := h.1; have h2 := h.2
    simp only [GE.ge, UInt32.le_iff_toNat_le] at *
    have e1 : 'a'.val.toNat = 97 := rfl
    have e2 : '9'.val.toNat = 57 := rfl
    omega
  have h3 : c ≠ '_' := by rintro rfl; revert h; decide
  simp [isTail, h2, h3]

theorem upper_ne {c d : Char} (h : c.isUpper = true) (hd : d.isUpper = false) : c ≠ d := by
  rintro rfl; simp [h] at hd

theorem upper_sep {c : Char} (h : c.isUpper = true) (k : List Char) : Sep (c :: k) := by
  intro x hx
  simp only [List.head?_cons, Option.some.injEq] at hx
  subst hx
  exact ⟨upper_lower h, upper_ne h (by decide), upper_digit h, upper_ne h (by decide)⟩

theorem tail_false {c : Char} (h1 : c.isLower = false) (h2 : c ≠ '_') : isTail c = false := by
  simp [isTail, h1, h2]

theorem tail_true {c : Char} (h : c.isLower = true ∨ c = '_') : isTail c = true := by
  simpa [isTail] using h

/-- What may follow a name. -/
def NoTail (k : List Char) : Prop := ∀ c, k.head? = some c → isTail c = false

theorem Sep.noTail {k : List Char} (h : Sep k) : NoTail k :=
  fun c hc => tail_false (h c hc).1 (h c hc).2.1

/-- Splitting off the continuation of a name. -/
theorem split_tail {t k : List Char} (ht : ∀ x ∈ t, x.isLower = true ∨ x = '_') (hk : NoTail k) :
    (t ++ k).takeWhile isTail = t ∧ (t ++ k).dropWhile isTail = k := by
  have hk' : k.takeWhile isTail = [] ∧ k.dropWhile isTail = k := by
    cases k with
    | nil => simp
    | cons c r =>
      have := hk c rfl
      simp [this]
  have h1 : ∀ x ∈ t, isTail x = true := fun x hx => tail_true (ht x hx)
  rw [List.takeWhile_append_of_pos h1, List.dropWhile_append_of_pos h1, hk'.1, hk'.2]
  simp

theorem bracket_text : ∀ (b : List Char) (c : Char) (k : List Char), ']' ∉ b →
    bracket c (b ++ ']' :: k) = (c :: b ++ [']'], k, false) := by
  intro b
  induction b with
  | nil => intro c k _; simp [bracket]
  | cons d b ih =>
    intro c k hb
    simp only [List.mem_cons, not_or] at hb
    simp only [List.cons_append, bracket, if_neg (Ne.symm hb.1), ih d k hb.2]

theorem getElt_text {e k : List Char} (he : NameGood e) (hk : NoTail k) :
    getElt (e ++ k) = .ok (e, k, false) := by
  rcases he with ⟨c, t, rfl, hc, ht⟩ | ⟨b, t, rfl, hb, hb', ht⟩
  · have := split_tail ht hk
    simp only [List.cons_append, getElt, if_neg (upper_ne hc (show '['.isUpper = false by decide)),
      this.1, this.2]
  · obtain ⟨d, b, rfl⟩ := List.exists_cons_of_ne_nil hb
    simp only [List.mem_cons, not_or] at hb'
    have := split_tail ht hk
    simp only [List.cons_append, List.append_assoc, getElt, if_true, if_neg (Ne.symm hb'.1),
      bracket_text b d (t ++ k) hb'.2, this.1, this.2]
    simp

theorem starts_text {e : Name} (he : NameGood e) (k : List Char) :
    ∃ c r, e ++ k = c :: r ∧ starts c r = true ∧ c ≠ '+' ∧ c ≠ '-' ∧ c ≠ ')' ∧ Sep (c :: r) := by
  rcases he with ⟨c, t, rfl, hc, ht⟩ | ⟨b, t, rfl, hb, hb', ht⟩
  · exact ⟨c, t ++ k, rfl, by simp [starts, hc], upper_ne hc (by decide), upper_ne hc (by decide),
      upper_ne hc (by decide), upper_sep hc _⟩
  · refine ⟨'[', b ++ ']' :: t ++ k, by simp, by simp [starts], by decide, by decide, by decide, ?_⟩
    intro x hx
    simp only [List.head?_cons, Option.some.injEq] at hx
    subst hx; decide

/-! ## Numbers -/

theorem numChars_digits {l : List Char} (h : ∀ c ∈ l, c.isDigit = true) (b : Bool) (k : List Char) :
    numChars b (l ++ k) = (l ++ (numChars b k).1, (numChars b k).2) := by
  induction l with
  | nil => simp
  | cons c l ih =>
    have hc := h c (by simp)
    simp only [List.cons_append, numChars, if_pos hc, ih (fun x hx => h x (by simp [hx]))]

theorem numChars_sep {k : List Char} (hk : Sep k) (b : Bool) : numChars b k = ([], k) := by
  cases k with
  | nil => rfl
  | cons c r =>
    have := hk c rfl
    simp [numChars, this.2.2.1, this.2.2.2]

theorem numChars_text {n : Num} (hn : n.Good) {k : List Char} (hk : Sep k) :
    numChars false (n.text ++ k) = (n.text, k) := by
  obtain ⟨ip, fp⟩ := n
  obtain ⟨h1, h2, -, -⟩ := hn
  cases fp with
  | none => simp only [Num.text, List.append_nil]; rw [numChars_digits h1, numChars_sep hk]; simp
  | some f =>
    simp only [Num.text, Num.frac, Option.getD_some, List.append_assoc, List.cons_append] at *
    rw [numChars_digits h1]
    have : numChars false ('.' :: (f ++ k)) = ('.' :: f, k) := by
      simp only [numChars, show ('.' : Char).isDigit = false by decide]
      have e := numChars_digits h2 true k
      rw [numChars_sep hk] at e
      simp [e]
    rw [this]

theorem digits_append (l : List Char) : ∀ a : Nat,
    l.foldl (fun a c => 10 * a + (c.toNat - '0'.toNat)) a = a * 10 ^ l.length + placeValue l := by
  induction l with
  | nil => intro a; simp [placeValue]
  | cons c l ih =>
    intro a
    simp only [List.foldl_cons]
    rw [ih]
    simp only [placeValue, List.length_cons, show '0'.toNat = 48 by decide]
    ring

theorem digits_eq (l : List Char) : digits l = placeValue l := by
  unfold digits; rw [digits_append]; simp

theorem placeValue_append (a b : List Char) :
    placeValue (a ++ b) = placeValue a * 10 ^ b.length + placeValue b := by
  induction a with
  | nil => simp [placeValue]
  | cons c a ih => simp only [List.cons_append, placeValue, ih, List.length_append]; ring

theorem strtod_text {n : Num} (hn : n.Good) : strtod n.text = n.value := by
  obtain ⟨ip, fp⟩ := n
  obtain ⟨h1, h2, -, -⟩ := hn
  cases fp with
  | none =>
    simp only [Num.text, List.append_nil, strtod, Num.value, Num.frac, Option.getD_none] at *
    have e1 : ip.takeWhile Char.isDigit = ip := List.takeWhile_eq_self_iff.mpr (by simpa using h1)
    have e2 : ip.dropWhile Char.isDigit = [] := List.dropWhile_eq_nil_iff.mpr (by simpa using h1)
    rw [e1, e2]; simp [digits_eq, placeValue]
  | some f =>
    simp only [Num.text, strtod, Num.value, Num.frac, Option.getD_some] at *
    have e0 : ('.' : Char).isDigit = false := by decide
    have e1 : (ip ++ '.' :: f).takeWhile Char.isDigit = ip := by
      rw [List.takeWhile_append_of_pos h1]; simp [e0]
    have e2 : (ip ++ '.' :: f).dropWhile Char.isDigit = '.' :: f := by
      rw [List.dropWhile_append_of_pos h1]; simp [e0]
    rw [e1, e2, digits_eq, placeValue_append]
    have : (10 : ℚ) ^ f.length ≠ 0 := by positivity
    simp only [List.drop_succ_cons, List.drop_zero]
    push_cast
    field_simp

theorem text_ne_nil {n : Num} (hn : n.Good) : n.text ≠ [] := by
  obtain ⟨ip, fp⟩ := n
  rcases hn.2.2.1 with h | h
  · simp only at h; simp [Num.text, h]
  · cases fp with
    | none => exact absurd rfl h
    | some f => simp [Num.text]

theorem text_len {n : Num} (hn : n.Good) : n.text.length < maxLength := hn.2.2.2

theorem getNum_text {n : Option Num} (hn : CoefGood n) {k : List Char} (hk : Sep k) :
    getNum (coefText n ++ k) = .ok (coefValue n, k) := by
  cases n with
  | none => simp [getNum, coefText, numChars_sep hk, coefValue]
  | some n =>
    have h1 := text_ne_nil hn
    have h2 := text_len hn
    simp only [getNum, coefText, numChars_text hn hk, if_neg h1, strtod_text hn, coefValue]
    rw [if_neg (by omega)]

theorem noTail_coef {n : Option Num} (hn : CoefGood n) {k : List Char} (hk : Sep k) :
    NoTail (coefText n ++ k) := by
  cases n with
  | none => exact hk.noTail
  | some n =>
    obtain ⟨ip, fp⟩ := n
    intro c hc
    simp only [coefText, Num.text] at hc
    cases ip with
    | cons d ip =>
      simp only [List.cons_append, List.head?_cons, Option.some.injEq] at hc
      subst hc
      exact digit_tail (hn.1 d (by simp))
    | nil =>
      cases fp with
      | none => exact absurd hn.2.2.1 (by simp)
      | some f =>
        simp only [List.nil_append, List.cons_append, List.head?_cons, Option.some.injEq] at hc
        subst hc; decide

/-! ## Formulas -/

/-- The entries for a formula. -/
def items (c : ℚ) : Fml → List (Name × ℚ)
  | .nil => []
  | .elt e n r => (e, coefValue n * c) :: items c r
  | .group i n r => scale (coefValue n) (items c i) ++ items c r

theorem total_append (a b : List (Name × ℚ)) (x : Name) :
    total (a ++ b) x = total a x + total b x := by
  simp [total]

theorem total_cons (p : Name × ℚ) (b : List (Name × ℚ)) (x : Name) :
    total (p :: b) x = (if x = p.1 then p.2 else 0) + total b x := by
  simp [total]

theorem total_scale (d : ℚ) (l : List (Name × ℚ)) (x : Name) :
    total (scale d l) x = d * total l x := by
  induction l with
  | nil => simp [total, scale]
  | cons p l ih =>
    have : scale d (p :: l) = (p.1, p.2 * d) :: scale d l := rfl
    rw [this, total_cons, total_cons, ih]
    simp only
    split_ifs <;> ring

theorem total_items (c : ℚ) (f : Fml) (x : Name) : total (items c f) x = c * f.amount x := by
  induction f with
  | nil => simp [items, total, Fml.amount]
  | elt e n r ih =>
    simp only [items, total_cons, ih, Fml.amount]
    split_ifs <;> ring
  | group i n r ih1 ih2 =>
    simp only [items, total_append, total_scale, ih1, ih2, Fml.amount]; ring

theorem sep_text {f : Fml} (hf : f.Good) {k : List Char} (hk : Sep k) : Sep (f.text ++ k) := by
  cases f with
  | nil => exact hk
  | elt e n r =>
    obtain ⟨c, u, h, -, -, -, -, hs⟩ := starts_text hf.1 (coefText n ++ r.text ++ k)
    simp only [Fml.text, List.append_assoc] at h ⊢
    rw [h]; exact hs
  | group i n r =>
    intro x hx
    simp only [Fml.text, List.cons_append, List.head?_cons, Option.some.injEq] at hx
    subst hx; decide

/-- Reading a formula with anything behind it. -/
theorem rd_text (c : ℚ) (f : Fml) : f.Good → ∀ (k : List Char), Sep k → ∀ (p : Int), 0 ≤ p →
    rd (f.text ++ k) c p =
      (rd k c p).bind fun t => .ok ⟨t.rest, items c f ++ t.elts, t.paren, t.bad⟩ := by
  induction f with
  | nil =>
    intro _ k _ p _
    simp only [Fml.text, items, List.nil_append]
    cases rd k c p <;> rfl
  | elt e n r ih =>
    intro hf k hk p hp
    obtain ⟨he, hn, hr⟩ := hf
    have hs := sep_text hr hk
    obtain ⟨ch, u, h, h1, h2, h3, h4, -⟩ := starts_text he (coefText n ++ (r.text ++ k))
    have hcoef : getElt (e ++ (coefText n ++ (r.text ++ k)))
        = .ok (e, coefText n ++ (r.text ++ k), false) := getElt_text he (noTail_coef hn hs)
    simp only [Fml.text, List.append_assoc]
    rw [h, rd_cons, if_neg (by simp [h2, h3]), if_neg h4, if_pos h1, ← h, hcoef, bind_ok,
      getNum_text hn hs, bind_ok, ih hr k hk p hp]
    cases rd k c p <;> simp [items]
  | group i n r ih1 ih2 =>
    intro hf k hk p hp
    obtain ⟨hi, hn, hr⟩ := hf
    have hs := sep_text hr hk
    have e1 : (Fml.group i n r).text ++ k = '(' :: (i.text ++ (')' :: (coefText n ++ (r.text ++ k)))) := by
      simp [Fml.text]
    have hsp : Sep (')' :: (coefText n ++ (r.text ++ k))) := by
      intro x hx
      simp only [List.head?_cons, Option.some.injEq] at hx
      subst hx; decide
    rw [e1, rd_cons, if_neg (by decide), if_neg (by decide), if_neg (by simp [starts]),
      if_pos rfl, ih1 hi _ hsp (p + 1) (by omega), rd_cons, if_neg (by decide), if_pos rfl,
      if_neg (by omega)]
    simp only [bind_ok, List.append_nil, Int.add_sub_cancel]
    rw [getNum_text hn hs, bind_ok, ih2 hr k hk p hp]
    cases rd k c p <;> simp [items]

/-! ## Parts behind colons -/

/-- The entries for parts behind colons: each coefficient multiplies all that follows. -/
def itemsMore (c : ℚ) : List (Option Num × Fml) → List (Name × ℚ)
  | [] => []
  | q :: l => scale (coefValue q.1) (items c q.2 ++ itemsMore c l)

theorem charge_sep {k : List Char} (hk : Charge k) : Sep k := by
  intro x hx
  rcases hk with rfl | ⟨r, rfl | rfl⟩
  · simp at hx
  · simp only [List.head?_cons, Option.some.injEq] at hx
    subst hx; decide
  · simp only [List.head?_cons, Option.some.injEq] at hx
    subst hx; decide

theorem rd_charge {k : List Char} (hk : Charge k) (c : ℚ) : rd k c 0 = .ok ⟨k, [], 0, false⟩ := by
  rcases hk with rfl | ⟨r, rfl | rfl⟩
  · rfl
  · rw [rd_cons, if_pos (by simp)]; rfl
  · rw [rd_cons, if_pos (by simp)]; rfl

theorem sep_more {l : List (Option Num × Fml)} {k : List Char} (hk : Sep k) :
    Sep (moreText l ++ k) := by
  cases l with
  | nil => exact hk
  | cons q l =>
    intro x hx
    simp only [moreText, List.cons_append, List.head?_cons, Option.some.injEq] at hx
    subst hx; decide

theorem rd_more (c : ℚ) {k : List Char} (hk : Charge k) (l : List (Option Num × Fml)) :
    (∀ q ∈ l, CoefGood q.1 ∧ q.2.Good) →
    rd (moreText l ++ k) c 0 = .ok ⟨k, itemsMore c l, 0, false⟩ := by
  induction l with
  | nil => intro _; exact rd_charge hk c
  | cons q l ih =>
    intro h
    have hq := h q (by simp)
    have hs := sep_more (l := l) (charge_sep hk)
    have e1 : moreText (q :: l) ++ k = ':' :: (coefText q.1 ++ (q.2.text ++ (moreText l ++ k))) := by
      simp [moreText]
    rw [e1, rd_cons, if_neg (by decide), if_neg (by decide), if_neg (by simp [starts]),
      if_neg (by decide), if_pos rfl, getNum_text hq.1 (sep_text hq.2 hs), bind_ok,
      rd_text c q.2 hq.2 _ hs 0 (by omega), ih (fun x hx => h x (by simp [hx]))]
    simp only [bind_ok]
    rw [rd_charge hk c]
    simp [itemsMore]

theorem rd_compound (c : ℚ) {k : List Char} (hk : Charge k) (m : Compound) (hm : m.Good) :
    rd (m.text ++ k) c 0 = .ok ⟨k, items c m.first ++ itemsMore c m.more, 0, false⟩ := by
  have hs := sep_more (l := m.more) (charge_sep hk)
  have e : m.text ++ k = m.first.text ++ (moreText m.more ++ k) := by simp [Compound.text]
  rw [e, rd_text c m.first hm.1 _ hs 0 (by omega), rd_more c hk _ hm.2]
  rfl

end Verif.Formula
