import Verif.Pbasic.Lex

/-!
# How a BASIC program is written

The written form of numbers, words, strings and signs, of a line, and of a
program, independently of how the interpreter finds them.
-/

namespace Verif.Pbasic

/-- The small letters. -/
def letters : List Char :=
  ['a', 'b', 'c', 'd', 'e', 'f', 'g', 'h', 'i', 'j', 'k', 'l', 'm', 'n', 'o', 'p', 'q', 'r', 's',
    't', 'u', 'v', 'w', 'x', 'y', 'z']

/-- The digits, each at the place of its value. -/
def digits : List Char := ['0', '1', '2', '3', '4', '5', '6', '7', '8', '9']

/-- The number that a row of digits writes. -/
def decimal : List Char → Nat
  | [] => 0
  | d :: ds => digits.idxOf d * 10 ^ ds.length + decimal ds

/-- The characters of a name behind its first. -/
def nameChars : List Char := letters ++ digits ++ ['$', '_']

/-- `w` is the word `s` in letters of any size. -/
def AnyCase (w s : List Char) : Prop := List.Forall₂ (fun c d => c = d ∨ c = d.toUpper) w s

/-- A number without an exponent. -/
inductive Mantissa : List Char → ℚ → Prop
  | whole {a : List Char} (ha : ∀ c ∈ a, c ∈ digits) (hne : a ≠ []) : Mantissa a (decimal a)
  | point {a b : List Char} (ha : ∀ c ∈ a, c ∈ digits) (hb : ∀ c ∈ b, c ∈ digits)
      (hne : a ++ b ≠ []) :
      Mantissa (a ++ '.' :: b) ((decimal a : ℚ) + (decimal b : ℚ) / 10 ^ b.length)

/-- A number. -/
inductive Numeral : List Char → ℚ → Prop
  | plain {m : List Char} {v : ℚ} : Mantissa m v → Numeral m v
  | up {m d : List Char} {v : ℚ} {e : Char} {sg : List Char} : Mantissa m v → e = 'e' ∨ e = 'E' →
      sg = [] ∨ sg = ['+'] → (∀ c ∈ d, c ∈ digits) → d ≠ [] →
      Numeral (m ++ e :: (sg ++ d)) (v * 10 ^ decimal d)
  | down {m d : List Char} {v : ℚ} {e : Char} : Mantissa m v → e = 'e' ∨ e = 'E' →
      (∀ c ∈ d, c ∈ digits) → d ≠ [] → Numeral (m ++ e :: '-' :: d) (v / 10 ^ decimal d)

/-- The tokens that are written with signs. -/
def signs : List (Tok × List Char) :=
  [(.op .add, ['+']), (.op .sub, ['-']), (.op .mul, ['*']), (.op .div, ['/']), (.op .pow, ['^']),
    (.op .eq, ['=']), (.op .lt, ['<']), (.op .gt, ['>']), (.op .le, ['<', '=']),
    (.op .ge, ['>', '=']), (.op .ne, ['<', '>']), (.lp, ['(']), (.lp, ['[']), (.rp, [')']),
    (.rp, [']']), (.comma, [',']), (.semi, [';']), (.colon, [':'])]

/-- The tokens that are written with a word, apart from `REM`. -/
def words : List (Tok × String) :=
  [(.op .and, "and"), (.op .or, "or"), (.op .xor, "xor"), (.op .mod, "mod"), (.not, "not"),
    (.fn 0, "sqr"), (.fn 1, "sqrt"), (.fn 2, "ceil"), (.fn 3, "floor"), (.fn 4, "sin"),
    (.fn 5, "cos"), (.fn 6, "tan"), (.fn 7, "arctan"), (.fn 8, "log"), (.fn 9, "exp"),
    (.fn 10, "abs"), (.fn 11, "sgn"), (.fn 12, "log10"),
    (.kw .klet, "let"), (.kw .kgoto, "goto"), (.kw .kif, "if"), (.kw .kthen, "then"),
    (.kw .kelse, "else"), (.kw .kfor, "for"), (.kw .kto, "to"), (.kw .kstep, "step"),
    (.kw .knext, "next"), (.kw .kwhile, "while"), (.kw .kwend, "wend"), (.kw .kgosub, "gosub"),
    (.kw .kreturn, "return"), (.kw .kread, "read"), (.kw .kdata, "data"),
    (.kw .krestore, "restore"), (.kw .kon, "on"), (.kw .kdim, "dim"), (.kw .kend, "end"),
    (.kw .kpunch, "punch")]

/-- A word that the interpreter keeps for itself. -/
def Reserved (s : String) : Prop := ∃ t, (s, t) ∈ table

/-- `w` is a written form of the token `t`.  A string must not contain the quote
that encloses it, nor a tab or a carriage return. -/
inductive Spells : Tok → List Char → Prop
  | sign {t : Tok} {w : List Char} (h : (t, w) ∈ signs) : Spells t w
  | word {t : Tok} {s : String} {w : List Char} (h : (t, s) ∈ words) (hw : AnyCase w s.toList) :
      Spells t w
  | var {c : Char} {n w : List Char} (hc : c ∈ letters) (hn : ∀ d ∈ n, d ∈ nameChars)
      (hl : (c :: n).length ≤ 20) (hr : ¬ Reserved (String.ofList (c :: n)))
      (hw : AnyCase w (c :: n)) :
      Spells (.var ⟨String.ofList (c :: n), decide ((c :: n).getLast? = some '$')⟩) w
  | num {q : ℚ} {w : List Char} (h : Numeral w q) : Spells (.num q) w
  | str {q : Char} {s : List Char} (hq : q = '"' ∨ q = '\'') (hs : q ∉ s) (ht : '\t' ∉ s)
      (hr : '\r' ∉ s) : Spells (.str s) (q :: (s ++ [q]))

/-- A letter, digit, dollar sign or underscore. -/
def Wordly (c : Char) : Prop := c.isAlphanum = true ∨ c = '$' ∨ c = '_'

/-- What may follow the written form `w` without a blank: no character that
belongs to a word or a number behind a word or a number, and no sign that forms
another sign with it. -/
def Apart (w rest : List Char) : Prop := ∀ c, rest.head? = some c →
  ((∃ d, w.getLast? = some d ∧ (Wordly d ∨ d = '.')) → ¬ Wordly c ∧ c ≠ '.') ∧
  (w = ['<'] → c ≠ '=' ∧ c ≠ '>') ∧ (w = ['>'] → c ≠ '=')

/-- The text `cs` begins with the tokens `ts`, written with blanks (characters
of `B`) before each as one likes, and goes on with `rest`. -/
inductive Starts (B : Char → Prop) : List Tok → List Char → List Char → Prop
  | done {rest : List Char} : Starts B [] rest rest
  | next {t : Tok} {ts : List Tok} {gap w cs rest : List Char} (hg : ∀ c ∈ gap, B c)
      (hw : Spells t w) (ha : Apart w cs) (h : Starts B ts cs rest) :
      Starts B (t :: ts) (gap ++ (w ++ cs)) rest

/-- The text `cs` of a line, up to its last character that is no blank, writes
the tokens `ts`; a remark takes the rest of the line. -/
inductive Text (B : Char → Prop) : List Tok → List Char → Prop
  | plain {ts : List Tok} {cs : List Char} (h : Starts B ts cs []) : Text B ts cs
  | remark {ts : List Tok} {cs gap w r : List Char} (h : Starts B ts cs (gap ++ (w ++ r)))
      (hg : ∀ c ∈ gap, B c) (hw : AnyCase w ['r', 'e', 'm'])
      (ha : ∀ c, r.head? = some c → ¬ Wordly c)
      (hl : ∀ c, r.getLast? = some c → isSpace c = false) :
      Text B (ts ++ [.kw .krem]) cs

/-- The characters that separate words. -/
def Blank (c : Char) : Prop := c = ' ' ∨ c = '\t' ∨ c = '\r'

/-- As many parentheses and brackets are opened as are closed. -/
def Balanced (ts : List Tok) : Prop :=
  (ts.filter (· = .lp)).length = (ts.filter (· = .rp)).length

/-- A numbered line. -/
inductive LineText : Nat → List Tok → List Char → Prop
  | mk {lead ds cs trail : List Char} {ts : List Tok} (h1 : ∀ c ∈ lead, Blank c)
      (h2 : ∀ c ∈ trail, Blank c) (hd : ∀ c ∈ ds, c ∈ digits) (hp : 0 < decimal ds)
      (hm : decimal ds < 9223372036854775760)
      (hn : ∀ c, cs.head? = some c → c.isDigit = false) (ht : Text Blank ts cs)
      (hb : Balanced ts) : LineText (decimal ds) ts (lead ++ (ds ++ (cs ++ trail)))

/-- The text of a program: numbered lines and empty lines, each ended by a
semicolon or a line feed, the last one perhaps by the end of the text. -/
inductive ProgText : List (Nat × List Tok) → List Char → Prop
  | done : ProgText [] []
  | last {n : Nat} {ts : List Tok} {l : List Char} (h : LineText n ts l)
      (hb : ∀ c ∈ l, c ≠ ';' ∧ c ≠ '\n') : ProgText [(n, ts)] l
  | empty {es : List (Nat × List Tok)} {l cs : List Char} {b : Char} (h : ∀ c ∈ l, Blank c)
      (he : b = ';' ∨ b = '\n') (hr : ProgText es cs) : ProgText es (l ++ b :: cs)
  | line {n : Nat} {ts : List Tok} {es : List (Nat × List Tok)} {l cs : List Char} {b : Char}
      (h : LineText n ts l) (hb : ∀ c ∈ l, c ≠ ';' ∧ c ≠ '\n') (he : b = ';' ∨ b = '\n')
      (hr : ProgText es cs) : ProgText ((n, ts) :: es) (l ++ b :: cs)

end Verif.Pbasic
