import Verif.Equation.Tokens

/-! # C170: equations are read as they are written -/

namespace Verif.Equation

open Verif.Formula

/-- The list of an accepted equation as triples of name, coefficient and charge. -/
def triples (l : List Tok) : List (List Char × ℚ × ℚ) := l.map fun t => (t.name, t.coef, t.z)

theorem total_neg (l : List (Name × ℚ)) (x : Name) :
    total (l.map fun p => (p.1, -p.2)) x = -total l x := by
  induction l with
  | nil => simp [total]
  | cons p l ih =>
    rw [List.map_cons, total_cons, total_cons, ih]
    split_ifs <;> ring

theorem sortTail_cons (t : Tok) (l : List Tok) : ∃ m, sortTail (t :: l) = t :: m ∧ m.Perm l :=
  ⟨_, rfl, List.perm_insertionSort _ _⟩

/-- Reading up to the elements of the species that is defined. -/
theorem parseEq_text (assoc : Bool) (old : Option Tok) {bl br : Bool} {lhs rhs : List Term} {t : Term}
    (ht : defined assoc lhs rhs = some t) (fl : Fits bl lhs) (fr : Fits br rhs)
    (gl : ∀ t ∈ lhs, t.Good) (gr : ∀ u ∈ rhs, u.Good) {s : List Char}
    (hs : Spaced (eqText bl br lhs rhs) s) :
    ∃ m, (t.tok.flip true :: m).Perm (allToks assoc lhs rhs) ∧
      parseEq assoc old s = target (t.tok.flip true) (t.tok.flip true :: m) := by
  have hlg := eq_legit (bl := bl) (br := br) gl gr
  obtain ⟨m, h1, h2⟩ := readTokens_text assoc ht fl fr gl gr
  obtain ⟨m', h3, h4⟩ := sortTail_cons (t.tok.flip true) m
  refine ⟨m', (List.Perm.cons _ h4).trans h2, ?_⟩
  unfold parseEq
  rw [squeeze_spaced hs, squeeze_legit hlg]
  dsimp only
  rw [if_neg (by
    rw [Bool.not_eq_false, List.all_eq_true]; exact hlg), h1, bind_ok, h3]

/-- **C170 (partial).** An equation with any number of terms on either side, with white space anywhere,
is read as it is written. Every term gives one entry with its name, the charge in its one form, its
coefficient (with the opposite sign on the side of the species that is defined) and its charge; the
species that is defined comes first; its elements are those of its formula. The first species of the
right-hand side is defined by an association, the first species of the left-hand side by a
dissociation. Missing: charges with superfluous zeros (`octal_charge_violation`), with fractions, and
from 2³¹ on (`large_charge_violation`); equations without a species (`lone_equal_sign_violation`). -/
theorem equation_read_partial (assoc : Bool) (old : Option Tok) (bl br : Bool)
    (lhs rhs : List Term) (t : Term) (ht : defined assoc lhs rhs = some t)
    (fl : Fits bl lhs) (fr : Fits br rhs) (gl : ∀ u ∈ lhs, u.Good) (gr : ∀ u ∈ rhs, u.Good)
    (m : Compound) (hm : m.Good) (h1 : OnesBeforeLast m.more) (hp : Plain m.text)
    (k : List Char) (hk : Mark k) (hn : t.name = m.text ++ k) (hlen : t.species.length < 256)
    (s : List Char) (hs : Spaced (eqText bl br lhs rhs) s) :
    ∃ e, parseEq assoc old s = .ok e ∧ e.bad = false ∧
      (triples e.toks).head? = some (t.entry (-1)) ∧
      (triples e.toks).Perm (lhs.map (Term.entry (if assoc then 1 else -1)) ++
        rhs.map (Term.entry (if assoc then -1 else 1))) ∧
      ∀ x, total e.elts x = t.value * m.amount x := by
  obtain ⟨l, h2, h3⟩ := parseEq_text assoc old ht fl fr gl gr hs
  have hsp : (t.tok.flip true).name = m.text ++ (k ++ chgName t.chg.value) := by
    show t.name ++ chgName t.chg.value = _
    rw [hn, List.append_assoc]
  have hco : (t.tok.flip true).coef = -t.value := rfl
  obtain ⟨st, e1, -, -, e4, e5⟩ := elements_partial m hm h1 (chgName t.chg.value)
    (chgName_charge _) (-t.value)
  have htgt : target (t.tok.flip true) (t.tok.flip true :: l) =
      .ok ⟨t.tok.flip true :: l, (combine st.elts).map (fun p => (p.1, -p.2)), st.bad⟩ := by
    unfold target
    rw [if_neg (by
      show ¬ maxLength < t.species.length + 1
      simp only [maxLength]; omega), hsp, hco,
      strip_text hp hk (chgName_charge _) (chgName_paren _), e1, bind_ok]
  rw [htgt] at h3
  refine ⟨_, h3, e4, ?_, ?_, ?_⟩
  · simp [triples, Term.entry, Tok.flip, Term.tok]
  · have := h2.map (fun t : Tok => (t.name, t.coef, t.z))
    refine this.trans ?_
    unfold allToks
    rw [List.map_append, List.map_map, List.map_map]
    apply List.Perm.of_eq
    congr 1
    · apply List.map_congr_left
      intro u _
      cases assoc <;> simp [Term.entry, Tok.flip, Term.tok]
    · apply List.map_congr_left
      intro u _
      cases assoc <;> simp [Term.entry, Tok.flip, Term.tok]
  · intro x
    rw [total_neg, combine_total, e5 x]
    ring

/-- **C170, names.** The name that a species gets tells its charge: two terms with the same species
have the same charge, whatever the form in which it is written, and the same name without charge.
(The program keeps the charge of the first term with a name for all of them.) -/
theorem name_keeps_charge (t u : Term) (ht : t.Good) (hu : u.Good) (h : t.species = u.species) :
    t.name = u.name ∧ t.chg.value = u.chg.value := by
  have a := nameChars_text (chgName_ends t.chg.value) t.name false ht.2.1.2.1
  have b := nameChars_text (chgName_ends u.chg.value) u.name false hu.2.1.2.1
  unfold Term.species at h
  rw [h, b] at a
  rw [Res.ok.injEq, Prod.mk.injEq] at a
  exact ⟨a.1.symm, chgName_inj a.2.symm⟩

/-- **C170, violated.** A charge with a leading zero is taken as octal: `Th+010` is a species with
the charge 8. -/
theorem octal_charge_violation :
    ∃ e, parseEq true none "Th+4 = Th+010".toList = .ok e ∧
      triples e.toks = [("Th+8".toList, -1, 8), ("Th+4".toList, 1, 4)] := by
  refine ⟨⟨[⟨"Th+8".toList, -1, 8⟩, ⟨"Th+4".toList, 1, 4⟩], [("Th".toList, 1)], false⟩, ?_, ?_⟩ <;>
    decide +kernel

/-- **C170, violated.** A charge that does not fit into an `int` is accepted and changes its value, and
even its sign without a change of the name. -/
theorem large_charge_violation :
    ∃ e, parseEq true none "H+ = H+4294967295".toList = .ok e ∧
      triples e.toks = [("H+".toList, -1, -1), ("H+".toList, 1, 1)] := by
  refine ⟨⟨[⟨"H+".toList, -1, -1⟩, ⟨"H+".toList, 1, 1⟩], [("H".toList, 1)], false⟩, ?_, ?_⟩ <;>
    decide +kernel

/-- **C170, violated.** What follows a fraction in a charge is not looked at: `X+1.5.7` is accepted with
charge 1.5. Equal charges written as fractions make different species. -/
theorem fraction_charge_violation :
    ∃ e, parseEq true none "X+1.50 = X+1.5.7".toList = .ok e ∧
      triples e.toks = [("X+1.5.7".toList, -1, 3 / 2), ("X+1.50".toList, 1, 3 / 2)] := by
  refine ⟨⟨[⟨"X+1.5.7".toList, -1, 3 / 2⟩, ⟨"X+1.50".toList, 1, 3 / 2⟩], [("X".toList, 1)], false⟩,
    ?_, ?_⟩ <;> decide +kernel

/-- **C170, violated.** A dissociation that consists of `=` alone is accepted with the elements of
whatever species the equation before has defined; if there was none, memory outside the list is
read. -/
theorem lone_equal_sign_violation (s : List Char) (hs : Spaced ['='] s) :
    parseEq false none s = .ub ∧
    parseEq false (some ⟨"CaCO3".toList, -1, 0⟩) s =
      .ok ⟨[], [("C".toList, 1), ("Ca".toList, 1), ("O".toList, 3)], false⟩ := by
  have h : squeeze s = ['='] := squeeze_spaced hs
  unfold parseEq
  rw [h]
  constructor <;> decide +kernel

/-- An equation without `=` and one with a character that does not belong into equations are
refused. -/
example : parseEq true none "Ca+2 + CO3-2".toList = .err ∧
    parseEq true none "Ca+2 + CO3-2 = CaCO3*".toList = .err := by
  constructor <;> decide +kernel

/-- A case: two terms with charges in different forms, a coefficient, a mark and white space. -/
def caseLeft : List Term := [⟨false, none, "CaCO3(s)".toList, .none⟩, ⟨false, some ⟨['2'], none⟩, ['H'], .row false 1⟩]
/-- See `caseLeft`. -/
def caseRight : List Term := [⟨false, none, ['C', 'a'], .row false 2⟩, ⟨false, none, "CO2".toList, .none⟩,
  ⟨false, some ⟨['1'], some ['0']⟩, "H2O".toList, .num false 0 none⟩]

example : eqText true true caseLeft caseRight = "CaCO3(s)+2H+=Ca+++CO2+1.0H2O+0".toList := by
  decide +kernel

example : ∃ e, parseEq false none "CaCO3(s) + 2 H+ = Ca++ + CO2 + 1.0 H2O+0".toList = .ok e ∧
    triples e.toks = [("CaCO3(s)".toList, -1, 0), ("CO2".toList, 1, 0), ("Ca+2".toList, 1, 2),
      ("H+".toList, -2, 1), ("H2O".toList, 1, 0)] ∧
    e.elts = [("C".toList, 1), ("Ca".toList, 1), ("O".toList, 3)] := by
  refine ⟨⟨[⟨"CaCO3(s)".toList, -1, 0⟩, ⟨"CO2".toList, 1, 0⟩, ⟨"Ca+2".toList, 1, 2⟩,
    ⟨"H+".toList, -2, 1⟩, ⟨"H2O".toList, 1, 0⟩],
    [("C".toList, 1), ("Ca".toList, 1), ("O".toList, 3)], false⟩, ?_, ?_, ?_⟩ <;> decide +kernel

/-- The premises of `equation_read_partial` hold for this case. -/
example : Fits true caseLeft ∧ Fits true caseRight ∧ (∀ u ∈ caseLeft, u.Good) ∧
    (∀ u ∈ caseRight, u.Good) ∧
    defined false caseLeft caseRight = some ⟨false, none, "CaCO3(s)".toList, .none⟩ ∧
    Mark "(s)".toList ∧ Plain "CaCO3".toList := by
  have lg : ∀ s : List Char, (∀ c ∈ s, isLegit c = true) → ∀ c ∈ s, legal c := by
    intro s h c hc
    have := h c hc
    simp only [isLegit, Bool.or_eq_true, List.contains_iff_mem] at this
    rcases this with (h | h) | h
    · exact Or.inl h
    · exact Or.inr (Or.inl h)
    · exact Or.inr (Or.inr h)
  refine ⟨?_, ?_, ?_, ?_, rfl, Or.inr ⟨'s', by decide, rfl⟩, ?_⟩
  · refine ⟨by decide +kernel, by decide +kernel, by decide +kernel, by decide +kernel⟩
  · refine ⟨by decide +kernel, by decide +kernel, by decide +kernel, by decide +kernel,
      by decide +kernel, by decide +kernel⟩
  · intro u hu
    simp only [caseLeft, List.mem_cons, List.not_mem_nil, or_false] at hu
    rcases hu with rfl | rfl
    · exact ⟨trivial, ⟨⟨'C', _, rfl, Or.inl (by decide)⟩, by simp [closed], lg _ (by decide +kernel)⟩, trivial⟩
    · exact ⟨⟨⟨by decide, by simp [Num.frac], by simp, by decide⟩, by simp⟩,
        ⟨⟨'H', _, rfl, Or.inl (by decide)⟩, by simp [closed], lg _ (by decide +kernel)⟩, by simp [Chg.Good]⟩
  · intro u hu
    simp only [caseRight, List.mem_cons, List.not_mem_nil, or_false] at hu
    rcases hu with rfl | rfl | rfl
    · exact ⟨trivial, ⟨⟨'C', _, rfl, Or.inl (by decide)⟩, by simp [closed], lg _ (by decide +kernel)⟩, by simp [Chg.Good]⟩
    · exact ⟨trivial, ⟨⟨'C', _, rfl, Or.inl (by decide)⟩, by simp [closed], lg _ (by decide +kernel)⟩, trivial⟩
    · exact ⟨⟨⟨by decide, by simp [Num.frac], by simp, by decide⟩, by simp⟩,
        ⟨⟨'H', _, rfl, Or.inl (by decide)⟩, by simp [closed], lg _ (by decide +kernel)⟩, by simp [Chg.Good]⟩
  · intro x hx
    simp only [markLetters, List.mem_cons, List.not_mem_nil, or_false] at hx
    rcases hx with rfl | rfl | rfl | rfl <;> decide +kernel

end Verif.Equation
