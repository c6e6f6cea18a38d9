import Verif.Formula.Complete

/-! # Helper lemmas: what is accepted was written -/

namespace Verif.Formula

theorem bracket_inv : ∀ (r : List Char) (c : Char) (b k : List Char), c ≠ ']' →
    bracket c r = (b, k, false) → ∃ b', b = c :: b' ++ [']'] ∧ ']' ∉ c :: b' ∧ r = b' ++ ']' :: k := by
  intro r
  induction r with
  | nil => intro c b k _ h; simp [bracket] at h
  | cons d r ih =>
    intro c b k hc h
    simp only [bracket] at h
    split_ifs at h with hd
    · simp only [Prod.mk.injEq] at h
      obtain ⟨rfl, rfl, -⟩ := h
      refine ⟨[], rfl, ?_, by simp [hd]⟩
      simp only [List.mem_singleton]
      exact fun e => hc e.symm
    · simp only [Prod.mk.injEq] at h
      obtain ⟨h1, h2⟩ := h
      obtain ⟨b', e1, e2, e3⟩ := ih d (bracket d r).1 k hd (by rw [← h2])
      refine ⟨d :: b', by rw [← h1, e1]; rfl, ?_, by rw [e3]; rfl⟩
      simp only [List.mem_cons, not_or] at e2 ⊢
      exact ⟨fun e => hc e.symm, e2.1, e2.2⟩

theorem takeWhile_tail (l : List Char) : ∀ x ∈ l.takeWhile isTail, x.isLower = true ∨ x = '_' := by
  intro x hx
  have := List.mem_takeWhile_imp hx
  simpa [isTail] using this

/-- Names that are read. -/
theorem getElt_inv {c : Char} {r : List Char} {e : Name × List Char × Bool}
    (h : getElt (c :: r) = .ok e) (hb : e.2.2 = false) (hs : starts c r = true) :
    c :: r = e.1 ++ e.2.1 ∧
      (NameGood e.1 ∨ (e.1 = ['e'] ∧ ∃ k, e.2.1 = '-' :: k) ∨ ∃ k, e.2.1 = ']' :: k) := by
  simp only [getElt] at h
  split_ifs at h with h1
  · cases r with
    | nil => simp at h
    | cons d r' =>
      simp only at h
      split_ifs at h with h2
      · cases h
        subst h2
        simp only [List.cons_append, List.takeWhile_append_dropWhile]
        refine ⟨trivial, Or.inr (Or.inr ⟨r', ?_⟩)⟩
        simp [show isTail ']' = false by decide]
      · cases h
        simp only at hb
        obtain ⟨b', e1, e2, e3⟩ := bracket_inv r' d (bracket d r').1 (bracket d r').2.1 h2
          (by rw [← hb])
        simp only
        refine ⟨?_, Or.inl (Or.inr ⟨d :: b', (bracket d r').2.1.takeWhile isTail, ?_, by simp, e2,
          takeWhile_tail _⟩)⟩
        · rw [List.append_assoc, List.takeWhile_append_dropWhile, e1]
          conv_lhs => rw [e3]
          simp
        · rw [e1, h1]; simp
  · cases h
    refine ⟨by simp, ?_⟩
    simp only [starts, Bool.or_eq_true, Bool.and_eq_true, beq_iff_eq, h1, or_false] at hs
    rcases hs with hu | ⟨rfl, hd⟩
    · exact Or.inl (Or.inl ⟨c, r.takeWhile isTail, rfl, hu, takeWhile_tail _⟩)
    · right; left
      cases r with
      | nil => simp at hd
      | cons d r =>
        simp only [List.head?_cons, Option.some.injEq] at hd
        subst hd
        have : isTail '-' = false := by decide
        simp [this]

/-- The characters of a number are digits with at most one point. -/
theorem numChars_inv (s : List Char) :
    (∀ c ∈ (numChars true s).1, c.isDigit = true) ∧
    ∃ n : Num, (numChars false s).1 = n.text ∧ (∀ c ∈ n.ip, c.isDigit = true) ∧
      (∀ c ∈ n.frac, c.isDigit = true) := by
  induction s with
  | nil => exact ⟨by simp [numChars], ⟨[], none⟩, rfl, by simp, by simp [Num.frac]⟩
  | cons c r ih =>
    obtain ⟨ih1, n, e, h1, h2⟩ := ih
    constructor
    · intro x hx
      simp only [numChars] at hx
      split_ifs at hx with g1 g2
      · rcases List.mem_cons.mp hx with rfl | hx
        · exact g1
        · exact ih1 x hx
      · simp at g2
      · simp at hx
    · by_cases g1 : c.isDigit = true
      · refine ⟨⟨c :: n.ip, n.fp⟩, ?_, ?_, h2⟩
        · simp only [numChars, if_pos g1, e]; rfl
        · intro x hx
          rcases List.mem_cons.mp hx with rfl | hx
          · exact g1
          · exact h1 x hx
      · by_cases g2 : c = '.'
        · refine ⟨⟨[], some (numChars true r).1⟩, ?_, by simp, by simpa [Num.frac] using ih1⟩
          subst g2
          simp only [numChars, if_neg g1]
          simp [Num.text]
        · refine ⟨⟨[], none⟩, ?_, by simp, by simp [Num.frac]⟩
          simp [numChars, g1, g2, Num.text]

theorem getNum_inv {s : List Char} {d : ℚ × List Char} (h : getNum s = .ok d) :
    ∃ n, CoefGood n ∧ s = coefText n ++ d.2 := by
  simp only [getNum] at h
  split_ifs at h with h1 h2
  · cases h; exact ⟨none, trivial, rfl⟩
  · cases h
    obtain ⟨-, n, e, g1, g2⟩ := numChars_inv s
    refine ⟨some n, ⟨g1, g2, ?_, ?_⟩, ?_⟩
    · by_contra hc
      push Not at hc
      rw [e] at h1
      obtain ⟨ip, fp⟩ := n
      simp only at hc
      exact h1 (by simp [Num.text, hc.1, hc.2])
    · rw [e] at h2
      exact Nat.lt_of_not_le h2
    · simp only [coefText]
      rw [← e, numChars_append]

/-! ## The depth of colons -/

theorem shallow_plain {l : List Char}
    (h : ∀ c ∈ l, c ≠ '[' ∧ c ≠ '(' ∧ c ≠ ')' ∧ c ≠ ':' ∧ c ≠ '+' ∧ c ≠ '-') (d : Nat)
    (k : List Char) : shallow false d (l ++ k) = shallow false d k := by
  induction l with
  | nil => rfl
  | cons c l ih =>
    obtain ⟨h1, h2, h3, h4, h5, h6⟩ := h c (by simp)
    simp only [List.cons_append, shallow, h1, h2, h3, h4, h5, h6, or_self, if_false]
    exact ih (fun x hx => h x (by simp [hx]))

theorem shallow_bracket (d : Nat) (b k : List Char) (hb : ']' ∉ b) :
    shallow true d (b ++ ']' :: k) = shallow false d k := by
  induction b with
  | nil => simp [shallow]
  | cons c b ih =>
    simp only [List.mem_cons, not_or] at hb
    have : (c != ']') = true := by simpa using Ne.symm hb.1
    simp only [List.cons_append, shallow, this]
    exact ih hb.2

theorem plain_of {P : Char → Bool} {c : Char} (h : P c = true)
    (h1 : P '[' = false) (h2 : P '(' = false) (h3 : P ')' = false) (h4 : P ':' = false)
    (h5 : P '+' = false) (h6 : P '-' = false) :
    c ≠ '[' ∧ c ≠ '(' ∧ c ≠ ')' ∧ c ≠ ':' ∧ c ≠ '+' ∧ c ≠ '-' := by
  refine ⟨?_, ?_, ?_, ?_, ?_, ?_⟩ <;> rintro rfl <;> simp_all

theorem plain_tail {t : List Char} (h : ∀ x ∈ t, x.isLower = true ∨ x = '_') :
    ∀ c ∈ t, c ≠ '[' ∧ c ≠ '(' ∧ c ≠ ')' ∧ c ≠ ':' ∧ c ≠ '+' ∧ c ≠ '-' :=
  fun c hc => plain_of (P := isTail) (tail_true (h c hc)) (by decide) (by decide) (by decide)
    (by decide) (by decide) (by decide)

theorem shallow_name {e : Name} (he : NameGood e) (d : Nat) (k : List Char) :
    shallow false d (e ++ k) = shallow false d k := by
  rcases he with ⟨c, t, rfl, hc, ht⟩ | ⟨b, t, rfl, hb, hb', ht⟩
  · refine shallow_plain ?_ d k
    intro x hx
    rcases List.mem_cons.mp hx with rfl | hx
    · exact plain_of (P := Char.isUpper) hc (by decide) (by decide) (by decide)
        (by decide) (by decide) (by decide)
    · exact plain_tail ht x hx
  · have : '[' :: b ++ ']' :: t ++ k = '[' :: (b ++ ']' :: (t ++ k)) := by simp
    rw [this]
    simp only [shallow, if_true]
    rw [shallow_bracket d b _ hb', shallow_plain (plain_tail ht)]

theorem shallow_coef {n : Option Num} (hn : CoefGood n) (d : Nat) (k : List Char) :
    shallow false d (coefText n ++ k) = shallow false d k := by
  cases n with
  | none => rfl
  | some n =>
    refine shallow_plain ?_ d k
    obtain ⟨ip, fp⟩ := n
    obtain ⟨h1, h2, -, -⟩ := hn
    have g : ∀ c : Char, c.isDigit = true →
        c ≠ '[' ∧ c ≠ '(' ∧ c ≠ ')' ∧ c ≠ ':' ∧ c ≠ '+' ∧ c ≠ '-' :=
      fun c hc => plain_of (P := Char.isDigit) hc (by decide) (by decide) (by decide)
        (by decide) (by decide) (by decide)
    intro c hc
    cases fp with
    | none =>
      simp only [coefText, Num.text, List.append_nil] at hc
      exact g c (h1 c hc)
    | some f =>
      simp only [coefText, Num.text, List.mem_append, List.mem_cons] at hc
      rcases hc with hc | rfl | hc
      · exact g c (h1 c hc)
      · decide
      · exact g c (h2 c (by simpa [Num.frac] using hc))

/-! ## Accepted texts -/

/-- The text read is a formula up to a closing parenthesis, or a compound up to the end or a
charge. -/
theorem rd_sound : ∀ (k : Nat) (s : List Char), s.length ≤ k → ∀ (c : ℚ) (d : Nat) (t : St),
    rd s c d = .ok t → t.bad = false → shallow false d s = true →
    (∃ f : Fml, f.Good ∧ s = f.text ++ ')' :: t.rest ∧ 0 < d ∧ t.paren = (d - 1 : Nat) ∧
      shallow false (d - 1) t.rest = true) ∨
    (d = 0 ∧ t.paren = 0 ∧ ∃ (m : Compound) (el : Bool), m.Good ∧ Charge t.rest ∧
      s = m.text ++ ((if el then ['e'] else []) ++ t.rest) ∧
      (el = true → ∃ r, t.rest = '-' :: r)) := by
  intro k
  induction k with
  | zero =>
    intro s hs c d t h hb hsh
    obtain rfl : s = [] := List.length_eq_zero_iff.mp (by omega)
    rw [rd_nil] at h
    simp only [finish] at h
    split_ifs at h with hp
    cases h
    right
    refine ⟨by omega, by simp only; omega, ⟨.nil, []⟩, false, ⟨trivial, by simp⟩, Or.inl rfl, rfl, by simp⟩
  | succ k ih =>
    intro s hs c d t h hb hsh
    cases s with
    | nil => exact ih [] (by simp) c d t h hb hsh
    | cons ch r =>
      simp only [List.length_cons] at hs
      rw [rd_cons] at h
      by_cases h1 : ch = '+' ∨ ch = '-'
      · rw [if_pos h1] at h
        simp only [finish] at h
        split_ifs at h with hp
        cases h
        right
        refine ⟨by omega, by simp only; omega, ⟨.nil, []⟩, false, ⟨trivial, by simp⟩, Or.inr ⟨r, ?_⟩, rfl,
          by simp⟩
        rcases h1 with rfl | rfl
        · exact Or.inl rfl
        · exact Or.inr rfl
      rw [if_neg h1] at h
      push Not at h1
      by_cases h2 : ch = ')'
      · rw [if_pos h2] at h
        split_ifs at h with hp
        cases h
        left
        subst h2
        refine ⟨.nil, trivial, rfl, by omega, by simp only; omega, ?_⟩
        simpa [shallow] using hsh
      rw [if_neg h2] at h
      by_cases h3 : starts ch r = true
      · rw [if_pos h3] at h
        obtain ⟨e, he, h⟩ := bind_eq_ok h
        obtain ⟨v, hv, h⟩ := bind_eq_ok h
        obtain ⟨u, hu, h⟩ := bind_eq_ok h
        cases h
        simp only [Bool.or_eq_false_iff] at hb
        obtain ⟨hb1, hb2⟩ := hb
        have le := getElt_len he
        have lv := getNum_len hv
        simp only [List.length_cons] at le
        obtain ⟨e1, e2⟩ := getElt_inv he hb1 h3
        obtain ⟨n, hn, e3⟩ := getNum_inv hv
        rcases e2 with e2 | ⟨e2, q, hq⟩ | ⟨q, hq⟩
        · rw [e1, shallow_name e2, e3, shallow_coef hn] at hsh
          have etxt : ch :: r = e.1 ++ (coefText n ++ v.2) := by rw [e1, e3]
          rcases ih v.2 (by omega) c d u hu hb2 hsh with
            ⟨f, hf, g1, g2, g3, g4⟩ | ⟨g0, g1, m, el, hm, g2, g3, g4⟩
          · left
            refine ⟨.elt e.1 n f, ⟨e2, hn, hf⟩, ?_, g2, g3, g4⟩
            rw [etxt, g1]; simp [Fml.text]
          · right
            refine ⟨g0, g1, ⟨.elt e.1 n m.first, m.more⟩, el, ⟨⟨e2, hn, hm.1⟩, hm.2⟩, g2, ?_, g4⟩
            rw [etxt, g3]; simp [Compound.text, Fml.text]
        · -- an electron
          rw [hq] at hv
          have hsep : Sep ('-' :: q) := by
            intro x hx
            simp only [List.head?_cons, Option.some.injEq] at hx
            subst hx; decide
          have hv' : v = (1, '-' :: q) := by
            have := getNum_text (n := none) trivial hsep
            simp only [coefText, List.nil_append] at this
            rw [this] at hv; cases hv; rfl
          subst hv'
          simp only at hu
          rw [rd_cons, if_pos (Or.inr rfl)] at hu
          simp only [finish] at hu
          split_ifs at hu with hp
          cases hu
          right
          refine ⟨by omega, by simp only; omega, ⟨.nil, []⟩, true, ⟨trivial, by simp⟩,
            Or.inr ⟨q, Or.inr rfl⟩, ?_, fun _ => ⟨q, rfl⟩⟩
          rw [e1, e2, hq]; rfl
        · -- nothing in the brackets
          exfalso
          rw [hq] at hv
          have hsep : Sep (']' :: q) := by
            intro x hx
            simp only [List.head?_cons, Option.some.injEq] at hx
            subst hx; decide
          have hv' : v = (1, ']' :: q) := by
            have := getNum_text (n := none) trivial hsep
            simp only [coefText, List.nil_append] at this
            rw [this] at hv; cases hv; rfl
          subst hv'
          simp only at hu
          rw [rd_cons, if_neg (by decide), if_neg (by decide), if_neg (by simp [starts]),
            if_neg (by decide), if_neg (by decide)] at hu
          cases hu
      rw [if_neg h3] at h
      by_cases h4 : ch = '('
      · rw [if_pos h4] at h
        obtain ⟨i, hi, h⟩ := bind_eq_ok h
        obtain ⟨v, hv, h⟩ := bind_eq_ok h
        obtain ⟨u, hu, h⟩ := bind_eq_ok h
        cases h
        simp only [Bool.or_eq_false_iff] at hb
        obtain ⟨hb1, hb2⟩ := hb
        subst h4
        have li := rd_rest hi
        have lv := getNum_len hv
        obtain ⟨n, hn, e3⟩ := getNum_inv hv
        have hsh' : shallow false (d + 1) r = true := by simpa [shallow] using hsh
        have hi' : rd r c ((d + 1 : Nat) : Int) = .ok i := by rw [← hi]; push_cast; rfl
        rcases ih r (by omega) c (d + 1) i hi' hb1 hsh' with
          ⟨f, hf, g1, g2, g3, g4⟩ | ⟨g0, -⟩
        · simp only [Nat.add_sub_cancel] at g3 g4
          rw [g3] at hu
          rw [e3, shallow_coef hn] at g4
          rcases ih v.2 (by omega) c d u hu hb2 g4 with
            ⟨f', hf', k1, k2, k3, k4⟩ | ⟨k0, k1, m, el, hm, k2, k3, k4⟩
          · left
            refine ⟨.group f n f', ⟨hf, hn, hf'⟩, ?_, k2, k3, k4⟩
            rw [g1, e3, k1]; simp [Fml.text]
          · right
            refine ⟨k0, k1, ⟨.group f n m.first, m.more⟩, el, ⟨⟨hf, hn, hm.1⟩, hm.2⟩, k2, ?_, k4⟩
            rw [g1, e3, k3]; simp [Compound.text, Fml.text]
        · omega
      rw [if_neg h4] at h
      by_cases h5 : ch = ':'
      · rw [if_pos h5] at h
        obtain ⟨v, hv, h⟩ := bind_eq_ok h
        obtain ⟨i, hi, h⟩ := bind_eq_ok h
        obtain ⟨u, hu, h⟩ := bind_eq_ok h
        cases h
        simp only [Bool.or_eq_false_iff] at hb
        obtain ⟨hb1, hb2⟩ := hb
        subst h5
        have lv := getNum_len hv
        obtain ⟨n, hn, e3⟩ := getNum_inv hv
        have hsh' : d = 0 ∧ shallow false d r = true := by simpa [shallow] using hsh
        obtain ⟨rfl, hsh'⟩ := hsh'
        rw [e3, shallow_coef hn] at hsh'
        rcases ih v.2 (by omega) c 0 i hi hb1 hsh' with
          ⟨f, hf, g1, g2, -⟩ | ⟨-, g1, m, el, hm, g2, g3, g4⟩
        · omega
        · rw [g1, rd_charge g2] at hu
          cases hu
          right
          refine ⟨rfl, rfl, ⟨.nil, (n, m.first) :: m.more⟩, el, ⟨trivial, ?_⟩, g2, ?_, g4⟩
          · intro q hq
            rcases List.mem_cons.mp hq with rfl | hq
            · exact ⟨hn, hm.1⟩
            · exact hm.2 q hq
          · rw [e3, g3]; simp [Compound.text, Fml.text, moreText]
      rw [if_neg h5] at h
      cases h

end Verif.Formula
