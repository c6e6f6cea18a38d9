import Verif.Formula.Sound

/-! # C117: elements and coefficients of a formula -/

namespace Verif.Formula

/-- All coefficients behind colons but the last one are 1. -/
def OnesBeforeLast (l : List (Option Num × Fml)) : Prop :=
  ∀ a q b, l = a ++ q :: b → b ≠ [] → coefValue q.1 = 1

theorem total_more (c : ℚ) (x : Name) (l : List (Option Num × Fml)) (h : OnesBeforeLast l) :
    total (itemsMore c l) x = c * (l.map (fun q => coefValue q.1 * q.2.amount x)).sum := by
  induction l with
  | nil => simp [itemsMore, total]
  | cons q l ih =>
    have h' : OnesBeforeLast l := fun a q' b e hb => h (q :: a) q' b (by simp [e]) hb
    simp only [itemsMore, total_scale, total_append, total_items, ih h', List.map_cons,
      List.sum_cons]
    by_cases hl : l = []
    · subst hl; simp; ring
    · rw [h [] q l rfl hl]; ring

/-- **C117 (partial).** Every well-formed compound, however deep its parentheses, with any coefficient
and followed by nothing or a charge, is read completely, and every element gets the amount that is
written. Missing: compounds in which a coefficient other than 1 is followed by a further colon
(`two_colons_violated`), and colons inside parentheses (`colon_in_group_violated`). -/
theorem elements_partial (m : Compound) (hm : m.Good) (h1 : OnesBeforeLast m.more)
    (ch : List Char) (hch : Charge ch) (c : ℚ) :
    ∃ t, elements (m.text ++ ch) c = .ok t ∧ t.rest = ch ∧ t.paren = 0 ∧ t.bad = false ∧
      ∀ x, total t.elts x = c * m.amount x := by
  refine ⟨_, rd_compound c hch m hm, rfl, rfl, rfl, fun x => ?_⟩
  simp only [total_append, total_items, total_more c x m.more h1, Compound.amount]
  ring

/-- An electron stands for itself. -/
theorem elements_electron (c : ℚ) (r : List Char) :
    elements ('e' :: '-' :: r) c = .ok ⟨'-' :: r, [(['e'], c)], 0, false⟩ := by
  show rd _ c 0 = _
  rw [rd_cons, if_neg (by decide), if_neg (by decide), if_pos (by simp [starts])]
  have h1 : getElt ('e' :: '-' :: r) = .ok (['e'], '-' :: r, false) := by
    simp [getElt, show isTail '-' = false by decide]
  have h2 : getNum ('-' :: r) = .ok (1, '-' :: r) := by
    simp [getNum, numChars]
  rw [h1, bind_ok, h2, bind_ok, rd_charge (Or.inr ⟨r, Or.inr rfl⟩)]
  simp

/-- **C117, rejection.** A text without colons inside parentheses that is accepted without an error is
the text of a well-formed compound, possibly with an electron, up to the end or a charge. All other
texts are reported. -/
theorem accepted_partial (s : List Char) (c : ℚ) (t : St) (h : elements s c = .ok t)
    (hb : t.bad = false) (hs : shallow false 0 s = true) :
    ∃ (m : Compound) (el : Bool), m.Good ∧ Charge t.rest ∧
      s = m.text ++ ((if el then ['e'] else []) ++ t.rest) ∧
      (el = true → ∃ r, t.rest = '-' :: r) := by
  rcases rd_sound s.length s (Nat.le_refl _) c 0 t h hb hs with
    ⟨_, _, _, h, _⟩ | ⟨_, _, h⟩
  · omega
  · exact h

/-- The reader comes to an end for every text: the fuel of the model is never used up. -/
theorem parse_total (s : List Char) (c : ℚ) : elements s c ≠ .fuel :=
  (parse_stable s.length s (Nat.le_refl _) (s.length + 1) (s.length + 1) c 0 (by omega)
    (by omega)).2.1

/-- **C117, violated.** In `K2SO4:2MgSO4:3H2O` the 2 also multiplies what follows the next colon: 6
waters instead of 3. -/
theorem two_colons_violated :
    ∃ (m : Compound) (t : St), m.Good ∧ m.text = "K2SO4:2MgSO4:3H2O".toList ∧
      elements m.text 1 = .ok t ∧ m.amount ['H'] = 6 ∧ total t.elts ['H'] = 12 := by
  refine ⟨⟨.elt ['K'] (some ⟨['2'], none⟩) (.elt ['S'] none (.elt ['O'] (some ⟨['4'], none⟩) .nil)),
    [(some ⟨['2'], none⟩,
      .elt ['M', 'g'] none (.elt ['S'] none (.elt ['O'] (some ⟨['4'], none⟩) .nil))),
     (some ⟨['3'], none⟩, .elt ['H'] (some ⟨['2'], none⟩) (.elt ['O'] none .nil))]⟩,
    ⟨[], [(['K'], 2), (['S'], 1), (['O'], 4), (['M', 'g'], 2), (['S'], 2), (['O'], 8),
      (['H'], 12), (['O'], 6)], 0, false⟩, ?_, by decide, by decide +kernel, by decide +kernel,
      by decide +kernel⟩
  have hu : ∀ c : Char, c.isUpper = true → NameGood [c] := fun c h => Or.inl ⟨c, [], rfl, h, by simp⟩
  have hd : ∀ c : Char, c.isDigit = true → CoefGood (some ⟨[c], none⟩) := fun c h =>
    ⟨by simpa using h, by simp [Num.frac], by simp, by simp [Num.text]⟩
  have hg : NameGood ['M', 'g'] := Or.inl ⟨'M', ['g'], rfl, by decide, by simp⟩
  refine ⟨⟨hu _ (by decide), hd _ (by decide), hu _ (by decide), trivial, hu _ (by decide),
    hd _ (by decide), trivial⟩, ?_⟩
  intro q hq
  simp only [List.mem_cons, List.not_mem_nil, or_false] at hq
  rcases hq with rfl | rfl
  · exact ⟨hd _ (by decide), hg, trivial, hu _ (by decide), trivial, hu _ (by decide),
      hd _ (by decide), trivial⟩
  · exact ⟨hd _ (by decide), hu _ (by decide), hd _ (by decide), hu _ (by decide), trivial, trivial⟩

/-- **C117, violated.** A colon inside parentheses takes the closing parenthesis with it. In
`(Mg(SO4:2H2O)Cl)2` the 2 then belongs to the inner group, and there is one magnesium, not two;
`(CaSO4:2H2O)2` is not accepted at all. -/
theorem colon_in_group_violated :
    (∃ t, elements "(Mg(SO4:2H2O)Cl)2".toList 1 = .ok t ∧ t.rest = [] ∧ t.bad = false ∧
      total t.elts ['M', 'g'] = 1 ∧ total t.elts ['C', 'l'] = 2) ∧
    elements "(CaSO4:2H2O)2".toList 1 = .err := by
  refine ⟨⟨⟨[], [(['M', 'g'], 1), (['S'], 2), (['O'], 8), (['H'], 8), (['O'], 4), (['C', 'l'], 2)],
    0, false⟩, ?_⟩, ?_⟩
  · decide +kernel
  · decide +kernel

/-- **C117, violated.** A lone decimal point is taken as the number 0: `Ca.Cl2` holds no calcium. -/
theorem lone_point_violated :
    ∃ t, elements "Ca.Cl2".toList 1 = .ok t ∧ t.bad = false ∧ t.rest = [] ∧
      total t.elts ['C', 'a'] = 0 ∧ total t.elts ['C', 'l'] = 2 := by
  refine ⟨⟨[], [(['C', 'a'], 0), (['C', 'l'], 2)], 0, false⟩, ?_⟩
  decide +kernel

/-- **C117, violated.** An opening bracket at the end of any formula makes the reader run past the end
of the text. -/
theorem open_bracket_violated (f : Fml) (hf : f.Good) (c : ℚ) :
    elements (f.text ++ ['[']) c = .ub := by
  show rd _ c 0 = _
  have hs : Sep ['['] := by
    intro x hx
    simp only [List.head?_cons, Option.some.injEq] at hx
    subst hx; decide
  rw [rd_text c f hf _ hs 0 (by omega), rd_cons, if_neg (by decide), if_neg (by decide),
    if_pos (by decide)]
  rfl

/-- A missing closing bracket is counted as an error of the input, although OK is returned. -/
theorem missing_bracket_reported (b : List Char) (hb : b ≠ []) (hb' : ']' ∉ b) (c : ℚ) (t : St)
    (h : elements ('[' :: b) c = .ok t) : t.bad = true := by
  by_contra hn
  rw [Bool.not_eq_true] at hn
  obtain ⟨d, b, rfl⟩ := List.exists_cons_of_ne_nil hb
  have hbr : ∀ (b : List Char) (d : Char), ']' ∉ b → (bracket d b).2.2 = true := by
    intro b
    induction b with
    | nil => intro d _; rfl
    | cons x b ih =>
      intro d h
      simp only [List.mem_cons, not_or] at h
      simp only [bracket, if_neg (Ne.symm h.1)]
      exact ih x h.2
  simp only [List.mem_cons, not_or] at hb'
  have h' : rd ('[' :: d :: b) c 0 = .ok t := h
  rw [rd_cons, if_neg (by decide), if_neg (by decide), if_pos (by simp [starts])] at h'
  obtain ⟨e, he, h'⟩ := bind_eq_ok h'
  obtain ⟨v, hv, h'⟩ := bind_eq_ok h'
  obtain ⟨u, hu, h'⟩ := bind_eq_ok h'
  cases h'
  simp only [getElt, if_true, if_neg (Ne.symm hb'.1)] at he
  cases he
  simp [hbr b d hb'.2] at hn

/-- Cases: a hydroxide with a charge, nested groups, a hydrate, a bracketed isotope. -/
example : elements "Fe(OH)2+".toList 2 =
    .ok ⟨['+'], [(['F', 'e'], 2), (['O'], 4), (['H'], 4)], 0, false⟩ := by decide +kernel
example : elements "Al((SO4)2(OH)3)2:1.5H2O".toList 1 =
    .ok ⟨[], [(['A', 'l'], 1), (['S'], 4), (['O'], 16), (['O'], 6), (['H'], 6), (['H'], 3),
      (['O'], 3/2)], 0, false⟩ := by decide +kernel
example : elements "[13C]H4".toList 1 =
    .ok ⟨[], [("[13C]".toList, 1), (['H'], 4)], 0, false⟩ := by decide +kernel
example : elements "Ca(OH".toList 1 = .err ∧ elements "CaOH)2".toList 1 = .err ∧
    elements "ca".toList 1 = .err := by decide +kernel

/-- The premises of `elements_partial` hold for a hydrate with two colons whose first coefficient is
left out, and its amounts are those expected. -/
example : ∃ m : Compound, m.Good ∧ OnesBeforeLast m.more ∧ m.text = "KCl:MgCl2:6H2O".toList ∧
    m.amount ['H'] = 12 ∧ m.amount ['C', 'l'] = 3 := by
  refine ⟨⟨.elt ['K'] none (.elt ['C', 'l'] none .nil),
    [(none, .elt ['M', 'g'] none (.elt ['C', 'l'] (some ⟨['2'], none⟩) .nil)),
     (some ⟨['6'], none⟩, .elt ['H'] (some ⟨['2'], none⟩) (.elt ['O'] none .nil))]⟩, ?_, ?_,
    by decide, by decide +kernel, by decide +kernel⟩
  · have hu : ∀ c : Char, c.isUpper = true → NameGood [c] :=
      fun c h => Or.inl ⟨c, [], rfl, h, by simp⟩
    have hu2 : ∀ c d : Char, c.isUpper = true → d.isLower = true → NameGood [c, d] :=
      fun c d h h' => Or.inl ⟨c, [d], rfl, h, by simpa using Or.inl h'⟩
    have hd : ∀ c : Char, c.isDigit = true → CoefGood (some ⟨[c], none⟩) := fun c h =>
      ⟨by simpa using h, by simp [Num.frac], by simp, by simp [Num.text]⟩
    refine ⟨⟨hu _ (by decide), trivial, hu2 _ _ (by decide) (by decide), trivial, trivial⟩, ?_⟩
    intro q hq
    simp only [List.mem_cons, List.not_mem_nil, or_false] at hq
    rcases hq with rfl | rfl
    · exact ⟨trivial, hu2 _ _ (by decide) (by decide), trivial, hu2 _ _ (by decide) (by decide),
        hd _ (by decide), trivial⟩
    · exact ⟨hd _ (by decide), hu _ (by decide), hd _ (by decide), hu _ (by decide), trivial, trivial⟩
  · intro a q b e hb
    match a, e with
    | [], e => simp only [List.nil_append, List.cons.injEq] at e; rw [← e.1]; rfl
    | [_], e =>
      simp only [List.cons_append, List.nil_append, List.cons.injEq] at e
      exact absurd e.2.2.symm hb
    | _ :: _ :: a, e => 
      exfalso
      have := congrArg List.length e
      simp at this

end Verif.Formula
