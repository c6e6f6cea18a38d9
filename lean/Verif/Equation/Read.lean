import Verif.Equation.Charge

/-! # Reading the terms of an equation -/

namespace Verif.Equation

open Verif.Formula

/-- A character that starts a name. -/
def Opener (c : Char) : Prop := c.isAlpha = true ∨ c = '(' ∨ c = '['

theorem alpha_facts {c : Char} (h : c.isAlpha = true) :
    c.isDigit = false ∧ c ≠ '+' ∧ c ≠ '-' ∧ c ≠ '.' ∧ c ≠ '=' := by
  refine ⟨?_, ?_, ?_, ?_, ?_⟩
  · by_contra hn
    rw [Bool.not_eq_false] at hn
    rw [Char.isAlpha, Bool.or_eq_true] at h
    rcases h with h | h
    · rw [upper_digit h] at hn; exact absurd hn (by simp)
    · have := digit_tail hn
      simp [isTail, h] at this
  all_goals (rintro rfl; revert h; decide)

theorem opener_facts {c : Char} (h : Opener c) :
    isOpen c = true ∧ isCoef c = false ∧ inCharge c = false ∧ c ≠ '=' ∧ c ≠ '+' ∧ c ≠ '-' := by
  rcases h with h | rfl | rfl
  · have ⟨h1, h2, h3, h4, h5⟩ := alpha_facts h
    refine ⟨?_, ?_, ?_, h5, h2, h3⟩
    · simp [isOpen, h]
    · simp [isCoef, h1, h2, h3, h4]
    · simp [inCharge, h]
  · decide
  · decide

/-- The characters of an unsigned number: digits and the point. -/
theorem num_chars {n : Num} (hn : n.Good) : ∀ c ∈ n.text, c.isDigit = true ∨ c = '.' := by
  intro c hc
  unfold Num.text at hc
  rcases List.mem_append.mp hc with h | h
  · exact Or.inl (hn.1 c h)
  · cases hf : n.fp with
    | none => rw [hf] at h; simp at h
    | some f =>
      rw [hf] at h
      rcases List.mem_cons.mp h with h | h
      · exact Or.inr h
      · exact Or.inl (hn.2.1 c (by simp [Num.frac, hf, h]))

theorem dp_facts {c : Char} (h : c.isDigit = true ∨ c = '.') :
    isCoef c = true ∧ isOpen c = false ∧ isSign c = false ∧ inCharge c = true ∧ c ≠ '=' ∧
      isLegit c = true := by
  rcases h with h | rfl
  · have ha : c.isAlpha = false := by
      by_contra hn
      rw [Bool.not_eq_false] at hn
      rw [(alpha_facts hn).1] at h
      exact absurd h (by simp)
    have hne : ∀ d : Char, d.isDigit = false → c ≠ d := by
      rintro d hd rfl; rw [hd] at h; exact absurd h (by simp)
    refine ⟨?_, ?_, sign_digit h, ?_, hne _ (by decide), ?_⟩
    · simp [isCoef, h]
    · simp [isOpen, ha, hne '(' (by decide), hne ')' (by decide), hne '[' (by decide),
        hne ']' (by decide)]
    · simp [inCharge, ha, hne '(' (by decide), hne ')' (by decide), hne '[' (by decide),
        hne ']' (by decide), hne '=' (by decide)]
    · simp [isLegit, h]
  · decide

theorem sign_facts (neg : Bool) : isCoef (signChar neg) = true ∧ isOpen (signChar neg) = false ∧
    isSign (signChar neg) = true ∧ inCharge (signChar neg) = true ∧ signChar neg ≠ '=' ∧
    isLegit (signChar neg) = true := by
  cases neg <;> decide

theorem num_any {n : Num} (hn : CoefOk (some n)) : n.text.any Char.isDigit = true := by
  rw [List.any_eq_true]
  rcases hn.2 with h | h
  · obtain ⟨c, r, e⟩ := List.exists_cons_of_ne_nil h
    exact ⟨c, by simp [Num.text, e], hn.1.1 c (by simp [e])⟩
  · obtain ⟨c, r, e⟩ := List.exists_cons_of_ne_nil h
    refine ⟨c, ?_, hn.1.2.1 c (by simp [e])⟩
    unfold Num.frac at e
    cases hf : n.fp with
    | none => rw [hf] at e; simp at e
    | some f =>
      rw [hf] at e
      simp only [Option.getD_some] at e
      simp [Num.text, hf, e]

theorem numChars_whole {n : Num} (hn : n.Good) : numChars false n.text = (n.text, []) := by
  have := numChars_text hn (k := []) (by intro c hc; simp at hc)
  simpa using this

theorem readCoef_signed {n : Num} (hn : CoefOk (some n)) (neg : Bool) :
    readCoef (signChar neg :: n.text) = some (withSign neg n.value) := by
  have hu : unsign (signChar neg :: n.text) = (neg, n.text) := by cases neg <;> rfl
  unfold readCoef
  rw [hu]
  dsimp only
  rw [numChars_whole hn.1]
  dsimp only
  rw [if_pos ⟨rfl, num_any hn⟩, strtod_text hn.1]

theorem readCoef_bare {n : Num} (hn : CoefOk (some n)) : readCoef n.text = some n.value := by
  have hu : unsign n.text = (false, n.text) := by
    have := num_chars hn.1
    cases h : n.text with
    | nil => rfl
    | cons c r =>
      have hc := (dp_facts (this c (by simp [h]))).2.2.1
      unfold unsign
      split
      · next e => cases e; exact absurd hc (by decide)
      · next e => cases e; exact absurd hc (by decide)
      · rfl
  unfold readCoef
  rw [hu]
  dsimp only
  rw [numChars_whole hn.1]
  dsimp only
  rw [if_pos ⟨rfl, num_any hn⟩, strtod_text hn.1]
  rfl

/-- Sign and coefficient are read. -/
theorem getCoef_lead (t : Term) (bare : Bool) (hc : CoefOk t.coef) (hl : (t.lead bare).length < 256)
    {c : Char} (r : List Char) (ho : Opener c) :
    getCoef (t.lead bare ++ (c :: r)) = .ok (t.value, c :: r) := by
  obtain ⟨o1, o2, o3, o4, o5, o6⟩ := opener_facts ho
  have tw : ∀ l : List Char, (∀ x ∈ l, isCoef x = true) →
      (l ++ (c :: r)).takeWhile isCoef = l ∧ (l ++ (c :: r)).dropWhile isCoef = c :: r := fun l h =>
    takeWhile_append_stop l (c :: r) h (by
      intro d hd
      simp only [List.head?_cons, Option.some.injEq] at hd
      subst hd; exact o2)
  cases hcoef : t.coef with
  | none =>
    unfold Term.lead Term.sign Term.value
    rw [hcoef]
    simp only [coefText, coefValue, List.append_nil]
    cases hneg : t.neg with
    | true =>
      simp only [if_true, List.cons_append, List.nil_append, getCoef]
      rw [if_neg (by decide), if_neg (by simp), if_pos (by simp [o1])]
    | false =>
      cases bare with
      | true => simp [getCoef, o1]
      | false =>
        simp only [Bool.false_eq_true, if_false, List.cons_append, List.nil_append, getCoef]
        rw [if_neg (by decide), if_pos (by simp [o1])]
  | some n =>
    rw [hcoef] at hc
    have hch := num_chars hc.1
    obtain ⟨d, m, e⟩ := List.exists_cons_of_ne_nil (text_ne_nil hc.1)
    have hd := dp_facts (hch d (by rw [e]; simp))
    have signed : ∀ neg : Bool, t.lead bare = signChar neg :: n.text → t.value = withSign neg n.value →
        getCoef (t.lead bare ++ (c :: r)) = .ok (t.value, c :: r) := by
      intro neg h1 h2
      have sf := sign_facts neg
      have hw := tw (signChar neg :: n.text) (by
        intro x hx
        rcases List.mem_cons.mp hx with rfl | hx
        · exact sf.1
        · exact (dp_facts (hch x hx)).1)
      rw [h1] at hl ⊢
      rw [List.cons_append] at hw ⊢
      have hh : (n.text ++ c :: r).head?.map isOpen ≠ some true := by
        rw [e]; simp [hd.2.1]
      simp only [getCoef]
      rw [if_neg (by rw [sf.2.1]; simp), if_neg (fun h => hh h.2), if_neg (fun h => hh h.2),
        if_pos sf.1, hw.1, hw.2, if_neg (by simp only [maxLength]; omega), readCoef_signed hc, h2]
    cases hneg : t.neg with
    | true =>
      exact signed true (by simp [Term.lead, Term.sign, hneg, hcoef, coefText, signChar])
        (by simp [Term.value, hneg, hcoef, coefValue, withSign])
    | false =>
      cases hb : bare with
      | false =>
        rw [← hb]
        exact signed false (by simp [Term.lead, Term.sign, hneg, hcoef, coefText, signChar, hb])
          (by simp [Term.value, hneg, hcoef, coefValue, withSign])
      | true =>
        have h1 : t.lead true = n.text := by
          simp [Term.lead, Term.sign, hneg, hcoef, coefText]
        have h2 : t.value = n.value := by simp [Term.value, hneg, hcoef, coefValue]
        have hw := tw n.text (fun x hx => (dp_facts (hch x hx)).1)
        subst hb
        rw [h1] at hl ⊢
        rw [h2]
        have hr := readCoef_bare hc
        rw [e] at hw hl hr ⊢
        rw [List.cons_append] at hw ⊢
        have ne : isSign d = false := hd.2.2.1
        simp only [isSign, Bool.or_eq_false_iff, beq_eq_false_iff_ne] at ne
        simp only [getCoef]
        rw [if_neg (by rw [hd.2.1]; simp), if_neg (fun h => ne.1 h.1), if_neg (fun h => ne.2 h.1),
          if_pos hd.1, hw.1, hw.2, if_neg (by simp only [maxLength]; omega), hr]

/-! ## Name and charge -/

theorem chg_chars {g : Chg} : ∀ c ∈ g.text, inCharge c = true ∧ isLegit c = true := by
  intro c hc
  cases g with
  | none => simp [Chg.text] at hc
  | row neg n =>
    rw [List.eq_of_mem_replicate hc]
    exact ⟨(sign_facts neg).2.2.2.1, (sign_facts neg).2.2.2.2.2⟩
  | num neg n z =>
    have dig : ∀ c, c.isDigit = true ∨ c = '.' → inCharge c = true ∧ isLegit c = true := fun c h =>
      ⟨(dp_facts h).2.2.2.1, (dp_facts h).2.2.2.2.2⟩
    simp only [Chg.text] at hc
    rcases List.mem_append.mp hc with h | h
    · rcases List.mem_cons.mp h with rfl | h
      · exact ⟨(sign_facts neg).2.2.2.1, (sign_facts neg).2.2.2.2.2⟩
      · exact dig c (Or.inl (toDigits_digit n c h))
    · cases z with
      | none => simp at h
      | some k =>
        rcases List.mem_cons.mp h with rfl | h
        · exact dig _ (Or.inr rfl)
        · rw [List.eq_of_mem_replicate h]; decide

/-- A charge is nothing or starts with a sign. -/
theorem chg_head {g : Chg} (hg : g.Good) : g = .none ∨ ∃ neg r, g.text = signChar neg :: r := by
  cases g with
  | none => exact Or.inl rfl
  | row neg n =>
    obtain ⟨m, rfl⟩ : ∃ m, n = m + 1 := ⟨n - 1, by have := hg.1; omega⟩
    exact Or.inr ⟨neg, _, List.replicate_succ⟩
  | num neg n z => exact Or.inr ⟨neg, _, rfl⟩

theorem signChar_cases (neg : Bool) : signChar neg = '+' ∨ signChar neg = '-' ∨ signChar neg = '=' := by
  cases neg <;> simp [signChar]

/-- Name and charge at the end of a side. -/
theorem getToken_end {s : List Char} (hs : closed false s) (hne : s ≠ []) {g : Chg} (hg : g.Good)
    (hl : g.text.length < 256) {k : List Char} (hk : k = [] ∨ ∃ r, k = '=' :: r) :
    getToken (s ++ (g.text ++ k)) = .ok ((s ++ chgName g.value, g.value), k) := by
  have hEnds : Ends (g.text ++ k) := by
    rcases chg_head hg with rfl | ⟨neg, r, e⟩
    · rcases hk with rfl | ⟨r, rfl⟩
      · exact Or.inl rfl
      · exact Or.inr ⟨'=', r, rfl, by simp⟩
    · exact Or.inr ⟨signChar neg, r ++ k, by rw [e]; rfl, signChar_cases neg⟩
  unfold getToken
  rw [nameChars_text hEnds s false hs, bind_ok]
  dsimp only
  rw [if_neg hne]
  rcases chg_head hg with rfl | ⟨neg, r, e⟩
  · rcases hk with rfl | ⟨r, rfl⟩
    · simp [Chg.text, Chg.value, chgName]
    · simp [Chg.text, Chg.value, chgName]
  · have hw := takeWhile_append_stop (p := inCharge) g.text k (fun c hc => (chg_chars c hc).1) (by
      intro c hc
      rcases hk with rfl | ⟨r, rfl⟩
      · simp at hc
      · simp only [List.head?_cons, Option.some.injEq] at hc
        subst hc; decide)
    have hr := charge_read g hg
    rw [e] at hw hr hl ⊢
    rw [List.cons_append] at hw ⊢
    dsimp only
    rw [if_neg (sign_facts neg).2.2.2.2.1, hw.1, hw.2, if_neg (by simp only [maxLength]; omega),
      if_pos (by
        rcases hk with rfl | ⟨r, rfl⟩
        · exact Or.inl rfl
        · exact Or.inr rfl), hr, bind_ok]

theorem cutLast_append {b : List Char} (hb : ∀ c ∈ b, isSign c = false) {x : Char}
    (hx : isSign x = true) (a : List Char) : cutLast (a ++ x :: b) = some (a, x :: b) := by
  have h0 : ∀ b : List Char, (∀ c ∈ b, isSign c = false) → cutLast b = none := by
    intro b
    induction b with
    | nil => intro _; rfl
    | cons c b ih =>
      intro h
      simp [cutLast, ih (fun d hd => h d (by simp [hd])), h c (by simp)]
  induction a with
  | nil => simp [cutLast, h0 b hb, hx]
  | cons c a ih => simp [cutLast, ih]

/-- The sign and coefficient of a term that is not the first one. -/
theorem lead_false (t : Term) (hc : CoefOk t.coef) : ∃ b, t.lead false = signChar t.neg :: b ∧
    (∀ c ∈ b, isSign c = false ∧ inCharge c = true ∧ isLegit c = true) := by
  refine ⟨coefText t.coef, by cases h : t.neg <;> simp [Term.lead, Term.sign, h, signChar], ?_⟩
  intro c h
  cases hcoef : t.coef with
  | none => rw [hcoef] at h; simp [coefText] at h
  | some n =>
    rw [hcoef] at h hc
    have := dp_facts (num_chars hc.1 c h)
    exact ⟨this.2.2.1, this.2.2.2.1, this.2.2.2.2.2⟩

/-- Name and charge before another term. -/
theorem getToken_mid {s : List Char} (hs : closed false s) (hne : s ≠ []) {g : Chg} (hg : g.Good)
    (u : Term) (hu : CoefOk u.coef) (hl : (g.text ++ u.lead false).length < 256)
    {c : Char} (ho : Opener c) (r : List Char) :
    getToken (s ++ (g.text ++ (u.lead false ++ (c :: r)))) =
      .ok ((s ++ chgName g.value, g.value), u.lead false ++ (c :: r)) := by
  obtain ⟨b, eb, hb⟩ := lead_false u hu
  have hEnds : Ends (g.text ++ (u.lead false ++ (c :: r))) := by
    rcases chg_head hg with rfl | ⟨neg, q, e⟩
    · exact Or.inr ⟨signChar u.neg, b ++ c :: r, by rw [eb]; rfl, signChar_cases _⟩
    · exact Or.inr ⟨signChar neg, q ++ (u.lead false ++ (c :: r)), by rw [e]; rfl, signChar_cases neg⟩
  have hd : ∃ neg q, g.text ++ (u.lead false ++ (c :: r)) = signChar neg :: q := by
    rcases chg_head hg with rfl | ⟨neg, q, e⟩
    · exact ⟨u.neg, b ++ c :: r, by rw [eb]; rfl⟩
    · exact ⟨neg, q ++ (u.lead false ++ (c :: r)), by rw [e]; rfl⟩
  have hw := takeWhile_append_stop (p := inCharge) (g.text ++ u.lead false) (c :: r) (by
      intro d hd
      rcases List.mem_append.mp hd with h | h
      · exact (chg_chars d h).1
      · rw [eb] at h
        rcases List.mem_cons.mp h with rfl | h
        · exact (sign_facts u.neg).2.2.2.1
        · exact (hb d h).2.1) (by
      intro d hd
      simp only [List.head?_cons, Option.some.injEq] at hd
      subst hd
      exact (opener_facts ho).2.2.1)
  have hcut : cutLast (g.text ++ u.lead false) = some (g.text, u.lead false) := by
    rw [eb]
    exact cutLast_append (fun d hd => (hb d hd).1) (sign_facts u.neg).2.2.1 _
  unfold getToken
  rw [nameChars_text hEnds s false hs, bind_ok]
  dsimp only
  rw [if_neg hne]
  rw [List.append_assoc] at hw
  obtain ⟨neg, q, e⟩ := hd
  rw [e] at hw ⊢
  dsimp only
  rw [if_neg (sign_facts neg).2.2.2.2.1, hw.1, hw.2, if_neg (by simp only [maxLength]; omega),
    if_neg (by
      simp only [List.head?_cons, Option.some.injEq, reduceCtorEq, false_or]
      exact (opener_facts ho).2.2.2.1), hcut]
  dsimp only
  rw [charge_read g hg, bind_ok]

/-! ## Sides -/

/-- The entry of a term. -/
def Term.tok (t : Term) : Tok := ⟨t.species, t.value, t.chg.value⟩

theorem side_cons (bare : Bool) (t : Term) (l : List Term) : sideText bare (t :: l) =
    t.lead bare ++ (t.name ++ (t.chg.text ++ sideText false l)) := by
  have h : tailText l = sideText false l := by cases l <;> rfl
  show t.lead bare ++ (t.name ++ t.chg.text) ++ tailText l = _
  rw [h]
  simp only [List.append_assoc]

/-- What follows a term: the rest of the side, and then the end or `=`. -/
theorem getSpecies_term {t : Term} {l : List Term} {bare : Bool} (hf : Fits bare (t :: l))
    (ht : t.Good) (hl : ∀ u ∈ l, u.Good) {k : List Char} (hk : k = [] ∨ ∃ r, k = '=' :: r) :
    getSpecies (sideText bare (t :: l) ++ k) = .ok (t.tok, sideText false l ++ k) := by
  obtain ⟨hc, ⟨⟨c, r, en, ho⟩, hcl, -⟩, hg⟩ := ht
  have hlead : (t.lead bare).length < 256 := by
    cases l with
    | nil => exact hf.1
    | cons u l => exact hf.1
  have e : sideText bare (t :: l) ++ k =
      t.lead bare ++ (c :: (r ++ (t.chg.text ++ (sideText false l ++ k)))) := by
    rw [side_cons, en]; simp only [List.append_assoc, List.cons_append]
  unfold getSpecies
  rw [e, getCoef_lead t bare hc hlead _ ho, bind_ok]
  dsimp only
  have e2 : c :: (r ++ (t.chg.text ++ (sideText false l ++ k))) =
      t.name ++ (t.chg.text ++ (sideText false l ++ k)) := by rw [en]; rfl
  rw [e2]
  have hne : t.name ≠ [] := by rw [en]; simp
  cases l with
  | nil =>
    rw [show sideText false [] ++ k = k from rfl]
    rw [getToken_end hcl hne hg hf.2 hk, bind_ok]
    rfl
  | cons u l =>
    obtain ⟨uc, ⟨⟨d, q, eu, hu⟩, -, -⟩, -⟩ := hl u (by simp)
    have e3 : sideText false (u :: l) ++ k =
        u.lead false ++ (d :: (q ++ (u.chg.text ++ (sideText false l ++ k)))) := by
      rw [side_cons, eu]; simp only [List.append_assoc, List.cons_append]
    rw [e3, getToken_mid hcl hne hg u uc hf.2.1 hu, bind_ok]
    rfl

theorem side_head {t : Term} (ht : t.Good) (bare : Bool) (l : List Term) (k : List Char) :
    ∃ c r, sideText bare (t :: l) ++ k = c :: r ∧ c ≠ '=' ∧
      (sideText false l ++ k).length < (sideText bare (t :: l) ++ k).length := by
  obtain ⟨hc, ⟨⟨c, r, en, ho⟩, -, -⟩, -⟩ := ht
  have hlen : (sideText false l ++ k).length < (sideText bare (t :: l) ++ k).length := by
    rw [side_cons, en]
    simp only [List.length_append, List.length_cons]
    omega
  cases hL : t.lead bare with
  | nil =>
    exact ⟨c, r ++ (t.chg.text ++ (sideText false l ++ k)),
      by rw [side_cons, en, hL]; simp only [List.append_assoc, List.cons_append, List.nil_append], (opener_facts ho).2.2.2.1, hlen⟩
  | cons d m =>
    refine ⟨d, m ++ (t.name ++ (t.chg.text ++ (sideText false l ++ k))),
      by rw [side_cons, hL]; simp only [List.append_assoc, List.cons_append], ?_, hlen⟩
    have hd : d ∈ t.lead bare := by rw [hL]; simp
    unfold Term.lead at hd
    rcases List.mem_append.mp hd with h | h
    · unfold Term.sign at h
      split_ifs at h
      all_goals first
        | (rw [List.mem_singleton] at h; subst h; decide)
        | simp at h
    · cases hcoef : t.coef with
      | none => rw [hcoef] at h; simp [coefText] at h
      | some n =>
        rw [hcoef] at h hc
        exact (dp_facts (num_chars hc.1 d h)).2.2.2.2.1

theorem Fits.tail {bare : Bool} {t : Term} {l : List Term} (h : Fits bare (t :: l)) :
    Fits false l := by
  cases l with
  | nil => trivial
  | cons u l => exact h.2.2

/-- The left-hand side is read. -/
theorem readLeft_side (f : Bool) (r : List Char) (l : List Term) : ∀ (bare : Bool) (n : Nat),
    Fits bare l → (∀ t ∈ l, t.Good) → (sideText bare l ++ '=' :: r).length < n →
    readLeft n f (sideText bare l ++ '=' :: r) = .ok (l.map (fun t => t.tok.flip f), r) := by
  induction l with
  | nil =>
    intro bare n _ _ hn
    obtain ⟨m, rfl⟩ : ∃ m, n = m + 1 := ⟨n - 1, by omega⟩
    rfl
  | cons t l ih =>
    intro bare n hf hg hn
    obtain ⟨m, rfl⟩ : ∃ m, n = m + 1 := ⟨n - 1, by omega⟩
    obtain ⟨c, q, e, hc, hlen⟩ := side_head (hg t (by simp)) bare l ('=' :: r)
    have hs := getSpecies_term hf (hg t (by simp)) (fun u hu => hg u (by simp [hu]))
      (k := '=' :: r) (Or.inr ⟨r, rfl⟩)
    rw [e] at hs ⊢
    simp only [readLeft]
    rw [if_neg hc, hs, bind_ok]
    dsimp only
    rw [ih false m hf.tail (fun u hu => hg u (by simp [hu])) (by omega), bind_ok]
    rfl

/-- The right-hand side is read. -/
theorem readRight_side (f : Bool) (l : List Term) : ∀ (bare : Bool) (n : Nat),
    Fits bare l → (∀ t ∈ l, t.Good) → (sideText bare l).length < n →
    readRight n f (sideText bare l) = .ok (l.map (fun t => t.tok.flip f)) := by
  induction l with
  | nil =>
    intro bare n _ _ hn
    obtain ⟨m, rfl⟩ : ∃ m, n = m + 1 := ⟨n - 1, by omega⟩
    rfl
  | cons t l ih =>
    intro bare n hf hg hn
    obtain ⟨m, rfl⟩ : ∃ m, n = m + 1 := ⟨n - 1, by omega⟩
    obtain ⟨c, q, e, hc, hlen⟩ := side_head (hg t (by simp)) bare l []
    have hs := getSpecies_term hf (hg t (by simp)) (fun u hu => hg u (by simp [hu]))
      (k := []) (Or.inl rfl)
    simp only [List.append_nil] at e hs hlen
    rw [e] at hs ⊢
    simp only [readRight]
    rw [hs, bind_ok]
    dsimp only
    rw [ih false m hf.tail (fun u hu => hg u (by simp [hu])) (by omega), bind_ok]
    rfl

end Verif.Equation
