import Verif.Pbasic.LexProps
import Verif.Pbasic.Violations

/-!
# Written programs: cases, and where the text of a program is not read as one
would expect
-/

namespace Verif.Pbasic

open Violations Demo

/-! ## Cases for the properties -/

/-- `Apart` before a text that does not start with a letter, a digit or a sign
of a comparison. -/
theorem apart_of {w cs : List Char} (h : (cs.head?.all fun c =>
    !(c.isAlphanum || c == '$' || c == '_' || c == '.' || c == '=' || c == '>')) = true) :
    Apart w cs := by
  intro c hc
  rw [hc] at h
  simp only [Option.all_some, Bool.not_eq_true', Bool.or_eq_false_iff, beq_eq_false_iff_ne] at h
  obtain ⟨⟨⟨⟨⟨h1, h2⟩, h3⟩, h4⟩, h5⟩, h6⟩ := h
  exact ⟨fun _ => ⟨by rintro (h | h | h) <;> simp_all, h4⟩, fun _ => ⟨h5, h6⟩, fun _ => h5⟩

/-- `Rate_1` is written `RATE_1`. -/
theorem spells_rate : Spells (.var ⟨"rate_1", false⟩) "RATE_1".toList := by
  refine Spells.var (c := 'r') (n := ['a', 't', 'e', '_', '1']) (by decide) (by decide) (by decide) ?_ ?_
  · rintro ⟨t, ht⟩
    have : ("rate_1" ∈ table.map Prod.fst) := List.mem_map.mpr ⟨_, ht, rfl⟩
    revert this; decide +kernel
  · unfold AnyCase
    decide +kernel

/-- The number 25 written `2.5E+01`. -/
theorem spells_25 : Spells (.num 25) "2.5E+01".toList := by
  have h : Numeral (['2'] ++ '.' :: ['5'] ++ 'E' :: (['+'] ++ ['0', '1']))
      (((decimal ['2'] : ℚ) + (decimal ['5'] : ℚ) / 10 ^ ['5'].length) * 10 ^ decimal ['0', '1']) :=
    Numeral.up (Mantissa.point (by decide) (by decide) (by decide)) (Or.inr rfl) (Or.inr rfl)
      (by decide) (by decide)
  have e : ((decimal ['2'] : ℚ) + (decimal ['5'] : ℚ) / 10 ^ ['5'].length) * 10 ^ decimal ['0', '1']
      = 25 := by
    rw [show decimal ['2'] = 2 from by decide, show decimal ['5'] = 5 from by decide,
      show decimal ['0', '1'] = 1 from by decide]
    norm_num
  rw [e] at h
  exact Spells.num h

/-- The tokens of the line below. -/
def demoToks : List Tok := [.var ⟨"rate_1", false⟩, .op .eq, .op .sub, .num 25]

theorem demo_starts {B : Char → Prop} (hB : B ' ') :
    Starts B demoToks " RATE_1= -2.5E+01".toList [] := by
  refine Starts.next (gap := [' ']) (w := "RATE_1".toList) (cs := "= -2.5E+01".toList) (by simpa using hB)
    spells_rate ?_ ?_
  · intro c hc
    have : c = '=' := by simpa using hc.symm
    subst this
    exact ⟨fun _ => ⟨by unfold Wordly; decide, by decide⟩, fun h => absurd h (by decide),
      fun h => absurd h (by decide)⟩
  refine Starts.next (gap := []) (w := ['=']) (cs := " -2.5E+01".toList) (by simp) (.sign (by decide))
    (apart_of (by decide)) ?_
  refine Starts.next (gap := [' ']) (w := ['-']) (cs := "2.5E+01".toList) (by simpa using hB)
    (.sign (by decide)) ?_ ?_
  · intro c hc
    refine ⟨?_, fun h => absurd h (by decide), fun h => absurd h (by decide)⟩
    rintro ⟨d, hd, h⟩
    have : d = '-' := by simpa using hd.symm
    subst this
    exact absurd h (by unfold Wordly; decide)
  refine Starts.next (gap := []) (w := "2.5E+01".toList) (cs := []) (by simp) spells_25
    (fun c hc => by simp at hc) .done

/-- `line_tokens` on `RATE_1= -2.5E+01`. -/
example : parse " RATE_1= -2.5E+01".toList = .ok demoToks :=
  line_tokens _ _ (.plain (demo_starts rfl)) (by unfold Balanced; decide)

/-- `quote_closed` on a line whose string starts with one kind of quote and ends
with the other. -/
example : parse "PUNCH \"a'".toList = .err :=
  quote_closed [.kw .kpunch] _ [' '] ['a', '\''] '"'
    (Starts.next (gap := []) (w := "PUNCH".toList) (by simp)
      (.word (s := "punch") (by decide) (by unfold AnyCase; decide +kernel))
      (apart_of (by decide)) .done) (by simp) (Or.inl rfl) (by decide)

/-- `parentheses_counted` on `((1]`. -/
example : parse "((1]".toList = .err := by
  refine parentheses_counted [.lp, .lp, .num 1, .rp] _ (.plain ?_) (by unfold Balanced; decide)
  refine Starts.next (gap := []) (w := ['(']) (by simp) (.sign (by decide)) (apart_of (by decide)) ?_
  refine Starts.next (gap := []) (w := ['(']) (by simp) (.sign (by decide)) ?_ ?_
  · intro c hc
    refine ⟨?_, fun h => absurd h (by decide), fun h => absurd h (by decide)⟩
    rintro ⟨d, hd, h⟩
    have : d = '(' := by simpa using hd.symm
    subst this
    exact absurd h (by unfold Wordly; decide)
  refine Starts.next (gap := []) (w := ['1']) (by simp) (.num ?_) (apart_of (by decide)) ?_
  · have h : Numeral ['1'] (decimal ['1']) := .plain (.whole (by decide) (by decide))
    have e : (decimal ['1'] : ℚ) = 1 := by rw [show decimal ['1'] = 1 from by decide]; norm_num
    rwa [e] at h
  exact Starts.next (gap := []) (w := [']']) (cs := []) (by simp) (.sign (by decide))
    (fun c hc => by simp at hc) .done

/-- A text of a program: a line, an empty line, and a line that ends the program. -/
theorem demo_prog : ProgText [(10, demoToks), (20, [.kw .kend])]
    "\t10 RATE_1= -2.5E+01; \n20 end".toList := by
  have h1 : LineText 10 demoToks "\t10 RATE_1= -2.5E+01".toList :=
    LineText.mk (lead := ['\t']) (ds := ['1', '0']) (cs := " RATE_1= -2.5E+01".toList) (trail := [])
      (by simp [Blank]) (by simp) (by decide) (by decide) (by decide)
      (by intro c hc; have : c = ' ' := by simpa using hc.symm
          subst this; decide)
      (.plain (demo_starts (Or.inl rfl))) (by unfold Balanced; decide)
  have h2 : LineText 20 [.kw .kend] "20 end".toList :=
    LineText.mk (lead := []) (ds := ['2', '0']) (cs := " end".toList) (trail := [])
      (by simp) (by simp) (by decide) (by decide) (by decide)
      (by intro c hc; have : c = ' ' := by simpa using hc.symm
          subst this; decide)
      (.plain (Starts.next (gap := [' ']) (w := "end".toList) (cs := []) (by simp [Blank])
        (.word (s := "end") (by decide) (by unfold AnyCase; decide +kernel))
        (fun c hc => by simp at hc) .done)) (by unfold Balanced; decide)
  refine ProgText.line (l := "\t10 RATE_1= -2.5E+01".toList) (b := ';') h1 (by decide) (Or.inl rfl) ?_
  refine ProgText.empty (l := [' ']) (b := '\n') (by simp [Blank]) (Or.inr rfl) ?_
  exact ProgText.last h2 (by decide)

/-- `text_in_order` on that text. -/
example : compile "\t10 RATE_1= -2.5E+01; \n20 end".toList
    = .ok [⟨10, demoToks⟩, ⟨20, [.kw .kend]⟩] :=
  text_in_order [⟨10, demoToks⟩, ⟨20, [.kw .kend]⟩] _ demo_prog (by decide) (by decide)

/-- `text_lines` on lines out of order. -/
example : compile "20 end\n10 x=1\n20 punch X".toList
    = .ok [⟨10, [.var ⟨"x", false⟩, .op .eq, .num 1]⟩, ⟨20, [.kw .kpunch, .var ⟨"x", false⟩]⟩] := by
  decide +kernel

/-- `letter_size` on a line that is no statement. -/
example : parse "Then 1E2 GoTo2 <> q".toList = parse "then 1e2 goto2 <> q".toList :=
  (letter_size "Then 1E2 GoTo2 <> q".toList (by decide) (by decide)).symm

/-! ## Long names -/

/-- Two names that agree in their first twenty characters are one variable. -/
theorem long_names_are_one (c : Char) (p s s' : List Char) (hc : c.isAlpha = true)
    (hp : p.length = 19) (h : ∀ x ∈ c :: (p ++ s), isWordChar x = true)
    (h' : ∀ x ∈ c :: (p ++ s'), isWordChar x = true) :
    parse (c :: (p ++ s)) = parse (c :: (p ++ s')) := by
  have key : ∀ s, (∀ x ∈ c :: (p ++ s), isWordChar x = true) → ∀ n,
      lex (n + 2) (c :: (p ++ s)) = .ok [wordTok (cutWord (c :: p))] := by
    intro s h n
    have e1 := takeWhile_rest (rest := []) h (fun c hc => by simp at hc)
    have e2 := dropWhile_rest (rest := []) h (fun c hc => by simp at hc)
    rw [List.append_nil] at e1 e2
    have hcut : cutWord (c :: (p ++ s)) = cutWord (c :: p) := by
      unfold cutWord
      rw [List.take_succ_cons, List.take_succ_cons, List.take_append_of_le_length (by omega)]
    have hsp : (c :: (p ++ s)).dropWhile (· == ' ') = c :: (p ++ s) := by
      have : c ≠ ' ' := by rintro rfl; revert hc; decide
      simp [this]
    have hno : c ≠ '"' ∧ c ≠ '\'' ∧ c ≠ '<' ∧ c ≠ '>' := by
      refine ⟨?_, ?_, ?_, ?_⟩ <;> rintro rfl <;> revert hc <;> decide
    have hsg : sign c = none := by
      unfold sign
      split <;> first | rfl | (exact absurd hc (by decide))
    have ht : tokenAt c (p ++ s) = .ok (wordTok (cutWord (c :: p)), []) := by
      unfold tokenAt
      rw [if_neg (by simp [hno]), if_neg hno.2.2.1, if_neg hno.2.2.2, hsg]
      dsimp only
      rw [if_pos hc, e1, e2, hcut]
      split <;> rfl
    conv_lhs => unfold lex
    rw [hsp]
    dsimp only
    rw [ht]
    simp [Res.bind, lex]
  unfold parse
  rw [List.length_cons, List.length_cons, key s h, key s' h']

/-- `concentration_of_calcium` and `concentration_of_calcite` differ, but the
second line changes what the third punches. -/
def longProg : Res (List Line) :=
  compile "10 concentration_of_calcium = 1\n20 concentration_of_calcite = 2\n30 punch concentration_of_calcium".toList

theorem long_names_coincide :
    (longProg.bind fun p => punched (run A0 p 20 (start p))) = .ok [.num 2] := by
  decide +kernel

/-- With short names the line punches what it names. -/
example : ((compile "10 calcium = 1\n20 calcite = 2\n30 punch calcium".toList).bind fun p =>
    punched (run A0 p 20 (start p))) = .ok [.num 1] := by
  decide +kernel

/-! ## Semicolons and `GO TO` -/

/-- A semicolon ends the line also within a string. -/
theorem semicolon_in_string : compile "10 punch \"a;b\"".toList = .err := by decide +kernel

/-- A semicolon between the items of `PUNCH` starts a new line: the rest is no
part of line 10, and is carried out when the program is read. -/
theorem semicolon_between_items : compile "10 punch 1; x".toList = .out := by decide +kernel

/-- A number behind the semicolon is taken for the number of an empty line. -/
theorem semicolon_before_number : compile "10 punch 1; 2".toList = .ok [⟨10, [.kw .kpunch, .num 1]⟩] := by
  decide +kernel

/-- `GO TO`, for which the table of commands has an entry, is not found: the
word `GO` is a variable. -/
theorem go_to_not_found :
    parse "GO TO 10".toList = .ok [.var ⟨"go", false⟩, .kw .kto, .num 10] ∧
    parse "GOTO 10".toList = .ok [.kw .kgoto, .num 10] := by decide +kernel

end Verif.Pbasic
