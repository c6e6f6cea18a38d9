import Verif.Input.Model

/-!
# How an input text is to be understood
-/

namespace Verif.Input.Spec

open Verif.Input

/-- White space. -/
def white : List Char := [' ', '\t', '\n', '\x0b', '\x0c', '\r']

/-- Blanks inside a line. -/
def Blanks (w : Text) : Prop := ∀ c ∈ w, c ∈ white ∧ c ≠ '\n'

/-- The parts of a text. -/
inductive Bit where
  /-- an ordinary character -/
  | chr (c : Char)
  /-- the end of a line: `;` or a newline -/
  | stop (semi : Bool)
  /-- a comment with the newline behind it -/
  | comment (body : Text)
  /-- a backslash at the end of a physical line, blanks, and the newline -/
  | cont (w : Text)
  /-- a backslash, blanks, and a character, not at the end of a physical line -/
  | lit (w : Text) (c : Char)
  /-- a backslash and blanks in front of another backslash -/
  | back (w : Text)
  deriving DecidableEq, Repr

/-- The characters of a part. -/
def Bit.text : Bit → Text
  | .chr c => [c]
  | .stop true => [';']
  | .stop false => ['\n']
  | .comment b => '#' :: b ++ ['\n']
  | .cont w => '\\' :: w ++ ['\n']
  | .lit w c => '\\' :: w ++ [c]
  | .back w => '\\' :: w

/-- A part is what it is said to be. -/
def Bit.Ok : Bit → Prop
  | .chr c => c ≠ '#' ∧ c ≠ ';' ∧ c ≠ '\n' ∧ c ≠ '\\'
  | .stop _ => True
  | .comment b => '\n' ∉ b
  | .cont w => Blanks w
  | .lit w c => Blanks w ∧ c ∉ white ∧ c ≠ '\\'
  | .back w => Blanks w

/-- A part that begins with a backslash. -/
def Bit.slash : Bit → Bool
  | .cont _ | .lit _ _ | .back _ => true
  | _ => false

/-- The end of a text: nothing, a comment without newline, or a backslash and blanks. -/
inductive Rest where
  | none
  | comment (body : Text)
  | back (w : Text)
  deriving DecidableEq, Repr

/-- Its characters. -/
def Rest.text : Rest → Text
  | .none => []
  | .comment b => '#' :: b
  | .back w => '\\' :: w

/-- It is what it is said to be. -/
def Rest.Ok : Rest → Prop
  | .none => True
  | .comment b => '\n' ∉ b
  | .back w => Blanks w

/-- It begins with a backslash. -/
def Rest.slash : Rest → Bool
  | .back _ => true
  | _ => false

/-- A text in parts. -/
def text (bs : List Bit) (e : Rest) : Text := (bs.map Bit.text).flatten ++ e.text

/-- The parts are what they are said to be; a `back` has a backslash behind it. -/
def Ok : List Bit → Rest → Prop
  | [], e => e.Ok
  | .back w :: bs, e => Blanks w ∧ Ok bs e ∧
      (match bs with
        | [] => e.slash = true
        | b :: _ => b.slash = true)
  | b :: bs, e => b.Ok ∧ Ok bs e

/-- What a part contributes to its line. -/
def Bit.adds : Bit → Text
  | .chr c => [c]
  | .lit w c => '\\' :: w ++ [c]
  | .back w => '\\' :: w
  | _ => []

/-- A part that ends a line. -/
def Bit.ends : Bit → Bool
  | .stop _ | .comment _ => true
  | _ => false

/-- The lines of a text in parts, beginning with `cur`: cut at `;`, newlines and comments,
joined at backslashes. -/
def pieces (cur : Text) : List Bit → Rest → List Text
  | [], .back w => [cur ++ '\\' :: w]
  | [], _ => [cur]
  | b :: bs, e => if b.ends then cur :: pieces [] bs e else pieces (cur ++ b.adds) bs e

/-- No `#` and no `;` behind a backslash. -/
def Clear (bs : List Bit) : Prop := ∀ w c, Bit.lit w c ∈ bs → c ≠ '#' ∧ c ≠ ';'

/-- The lines that count: those with something in them. -/
def filled (ls : List Text) : List Text := ls.filter (fun l => l.any (fun c => c ∉ white))

/-- Carriage returns in front of newlines do not count: `b` is `a` without them. -/
inductive Unix : Text → Text → Prop where
  | nil : Unix [] []
  | crlf {a b : Text} (h : Unix a b) : Unix ('\r' :: '\n' :: a) ('\n' :: b)
  | chr {c : Char} {a b : Text} (hc : ¬ (c = '\r' ∧ ∃ x, a = '\n' :: x)) (h : Unix a b) :
      Unix (c :: a) (c :: b)

/-- A text with carriage returns in front of its newlines. -/
def dos (t : Text) : Text := t.flatMap (fun c => if c = '\n' then ['\r', '\n'] else [c])

/-- `ms` are the lines of a text, include lines among them. -/
def Pieces (t : Text) (ms : List Text) : Prop :=
  ∃ bs e, Unix t (text bs e) ∧ Ok bs e ∧ Clear bs ∧ ms = filled (pieces [] bs e)

/-- A word. -/
def Word (w : Text) : Prop := w ≠ [] ∧ ∀ c ∈ w, c ∉ white

/-- A line begins with the word `w`, and `r` is behind it. -/
def FirstWord (m w r : Text) : Prop :=
  ∃ b, (∀ c ∈ b, c ∈ white) ∧ m = b ++ w ++ r ∧ Word w ∧ ∀ c r', r = c :: r' → c ∈ white

/-- A line that names a file to be included. -/
def Includes (m f : Text) : Prop :=
  ∃ w b b', FirstWord m w (b ++ f ++ b') ∧
    (∃ x, Raw.lower w = "include$".toList ++ x ∨ Raw.lower w = "include_file".toList ++ x) ∧
    (∀ c ∈ b, c ∈ white) ∧ (∀ c ∈ b', c ∈ white) ∧
    (∃ c x, f = c :: x ∧ c ∉ white) ∧ (∃ c x, f = x ++ [c] ∧ c ∉ white)

/-- A line with a keyword. -/
def IsKey (m : Text) : Prop := ∃ w r, FirstWord m w r ∧ Raw.lower w ∈ Raw.keywords

/-- A line with an option. -/
def IsOpt (m : Text) : Prop := ∃ a x r, FirstWord m ('-' :: a :: x) r ∧ a.isAlpha = true

/-- A line is given with the kind it has. -/
def Fits (l : Line) : Prop :=
  (l.kind = .keyword ↔ IsKey l.text) ∧ (l.kind = .option ↔ IsOpt l.text ∧ ¬ IsKey l.text)

/-- Lines with every include line replaced by the lines of the file it names; the last
argument is the file that could not be opened, if there was one, and nothing comes behind. -/
inductive Expand (fs : Text → Option Text) : List Text → List Text → Option Text → Prop where
  | nil : Expand fs [] [] none
  | line {m ls out en} (h : ∀ f, ¬ Includes m f) (hr : Expand fs ls out en) :
      Expand fs (m :: ls) (m :: out) en
  | file {m f u ms ls a out en} (h : Includes m f) (hf : fs f = some u)
      (hu : Pieces u ms) (ha : Expand fs ms a none) (hr : Expand fs ls out en) :
      Expand fs (m :: ls) (a ++ out) en
  | inner {m f u ms ls a g} (h : Includes m f) (hf : fs f = some u)
      (hu : Pieces u ms) (ha : Expand fs ms a (some g)) : Expand fs (m :: ls) a (some g)
  | missing {m f ls} (h : Includes m f) (hf : fs f = none) :
      Expand fs (m :: ls) [] (some f)

/-- How reading ends. -/
def ending : Option Text → End
  | none => .eof
  | some f => .fail f

/-- The words of a line. -/
inductive Words : Text → List Text → Prop where
  | nil {m : Text} (h : ∀ c ∈ m, c ∈ white) : Words m []
  | cons {m w r : Text} {ws : List Text} (h : FirstWord m w r) (hr : Words r ws) :
      Words m (w :: ws)

/-- A line as a program prints it: words with the blanks in front of each, and the blanks
behind the last. -/
structure Printed where
  words : List (Text × Text)
  tail : Text
  deriving DecidableEq, Repr

/-- Its text. -/
def Printed.text (p : Printed) : Text :=
  (p.words.map (fun x => x.1 ++ x.2)).flatten ++ p.tail

/-- Spaces and tabs. -/
def Gap (b : Text) : Prop := ∀ c ∈ b, c = ' ' ∨ c = '\t'

/-- A word that can stand in a printed line. -/
def Plain (w : Text) : Prop := Word w ∧ '#' ∉ w ∧ ';' ∉ w ∧ '\\' ∉ w

/-- A printed line has words, with blanks between them. -/
def Printed.Ok (p : Printed) : Prop :=
  p.words ≠ [] ∧ Gap p.tail ∧ (∀ x ∈ p.words, Gap x.1 ∧ Plain x.2) ∧
  (∀ x ∈ p.words.tail, x.1 ≠ []) ∧ ∀ f, ¬ Includes p.text f

/-- Printed lines, each with the end of line behind it. -/
def print (ps : List Printed) : Text := (ps.map (fun p => p.text ++ ['\n'])).flatten

end Verif.Input.Spec
