import Verif.Raw.Parser

/-!
# From the text of an input to the lines that its readers get

Everything a user hands over as input (`RunString`, `RunFile`, a database) is read through
`PHRQ_io::get_line`.  It joins and splits the physical lines of the text, drops comments,
skips empty lines, tells keywords and options from other lines, and follows include files.

Source: `/repo/src/IPhreeqcPhast/IPhreeqc/phreeqcpp/common/PHRQ_io.cpp` (cited as
`PHRQ_io.cpp`), and `Parser.h`, `Parser.cxx` in the same directory.

Characters are those below 128: for others the code hands negative values to `isspace` where
`char` is signed.  Positions are `unsigned int` cut down to `int`; lines are shorter than
that.  The text `accumulated` for loops of `Phreeqc`, the echo of lines, and
`m_next_keyword` are left out.
-/

namespace Verif.Input

/-- Text. -/
abbrev Text := List Char

/-- `isspace` in the C locale. -/
def isSpace (c : Char) : Bool :=
  c = ' ' || c = '\t' || c = '\n' || c = '\x0b' || c = '\x0c' || c = '\r'

/-- All characters that `PHRQ_io::getc` (`PHRQ_io.cpp:413-426`) gives of a stream, in order:
a carriage return in front of a newline is dropped.  What is left of a stream is kept as
the characters `getc` has still to give. -/
def chars : Text → Text
  | [] => []
  | '\r' :: '\n' :: r => '\n' :: chars r
  | c :: r => c :: chars r

/-- Where `get_logical_line` is, with what it has put into `m_line_save`. -/
inductive Mode where
  /-- in its outer loop -/
  | plain (save : Text)
  /-- in the loop over a comment; `last` is `c` -/
  | comment (save : Text) (last : Char)
  /-- in the loop behind a backslash: the text up to `pos`, and the text from `pos` on -/
  | back (pre tail : Text)
  deriving DecidableEq, Repr

/-- `PHRQ_io::get_logical_line`, `PHRQ_io.cpp:832-898`: `m_line_save`, whether the last
`getc` was at the end, and what is left.  At the end of the text inside a comment the last
character is added once more (`PHRQ_io.cpp:887`), unless it is a `;` (`PHRQ_io.cpp:857`). -/
def scan : Mode → Text → Text × Bool × Text
  | .plain s, [] => (s, true, [])
  | .plain s, c :: r =>
    if c = '#' then scan (.comment (s ++ [c]) c) r
    else if c = ';' then (s, false, r)
    else if c = '\n' then (s, false, r)
    else if c = '\\' then scan (.back s [c]) r
    else scan (.plain (s ++ [c])) r
  | .comment s l, [] => if l = ';' then (s, true, []) else (s ++ [l], true, [])
  | .comment s _, c :: r =>
    if c = '\n' then (s, false, r) else scan (.comment (s ++ [c]) c) r
  | .back p t, [] => (p ++ t, true, [])
  | .back p t, c :: r =>
    if c = '\\' then scan (.back (p ++ t) [c]) r
    else if c = '\n' then scan (.plain p) r
    else if isSpace c then scan (.back p (t ++ [c])) r
    else scan (.plain (p ++ t ++ [c])) r

/-- The next logical line and what is left, or `none` at the end, `PHRQ_io.cpp:893-897`. -/
def logical (t : Text) : Option (Text × Text) :=
  let q := scan (.plain []) t
  if q.2.1 = true ∧ q.1 = [] then none else some (q.1, q.2.2)

/-- `m_line_save.substr(0, m_line_save.find_first_of('#'))`, `PHRQ_io.cpp:732`. -/
def cut (s : Text) : Text := s.takeWhile (· ≠ '#')

/-- Nothing but white space, `PHRQ_io.cpp:731-740`. -/
def blank (s : Text) : Bool := s.all isSpace

/-- `CParser::copy_token`, `Parser.cxx:587-607`: the first token and what is behind it. -/
def token (s : Text) : Text × Text :=
  let u := s.dropWhile isSpace
  (u.takeWhile (fun c => !isSpace c), u.dropWhile (fun c => !isSpace c))

/-- `copy_token` called until it gives `TT_EMPTY`, as the readers of a line do; `n` bounds the
number of calls. -/
def tokens : Nat → Text → List Text
  | 0, _ => []
  | n + 1, s => if (token s).1 = [] then [] else (token s).1 :: tokens n (token s).2

/-- `trim`, `Parser.h:286-307`. -/
def trim (s : Text) : Text :=
  ((s.reverse.dropWhile isSpace).reverse).dropWhile isSpace

/-- Kind of a line that is not empty. -/
inductive Kind where
  | ok | keyword | option
  deriving DecidableEq, Repr

/-- `PHRQ_io.cpp:757-776`. -/
def kindOf (m : Text) : Kind :=
  if Raw.isKeyword (token m).1 then .keyword
  else if Raw.isOption (token m).1 then .option
  else .ok

/-- The file named in an include line, `PHRQ_io.cpp:778-790`. -/
def includeName (m : Text) : Option Text :=
  let w := Raw.lower (token m).1
  if "include$".toList.isPrefixOf w || "include_file".toList.isPrefixOf w then
    let f := trim (token m).2
    if f = [] then none else some f
  else none

/-- A line as its reader gets it: what `get_line` returns, and `m_line`. -/
structure Line where
  kind : Kind
  text : Text
  deriving DecidableEq, Repr

/-- One turn of the loops of `PHRQ_io::get_line`. -/
inductive Turn where
  /-- the call returns -/
  | line (l : Line) (st : List Text)
  /-- it goes on -/
  | more (st : List Text)
  /-- an include file cannot be opened: `error_msg(.., OT_STOP)` -/
  | fail (name : Text)
  /-- no stream is left: the call returns `LT_EOF` -/
  | eof
  deriving DecidableEq, Repr

/-- `PHRQ_io::get_line`, `PHRQ_io.cpp:683-823`, one turn; `st` is `istream_list`, `fs` the
files that can be opened. -/
def turn (fs : Text → Option Text) : List Text → Turn
  | [] => .eof
  | t :: st =>
    match logical t with
    | none => .more st
    | some (s, r) =>
      if blank (cut s) then .more (r :: st)
      else
        match includeName (cut s) with
        | some f =>
          (match fs f with
            | some u => .more (chars u :: r :: st)
            | none => .fail f)
        | none => .line ⟨kindOf (cut s), cut s⟩ (r :: st)

/-- How reading ends. -/
inductive End where
  | eof
  | fail (name : Text)
  deriving DecidableEq, Repr

/-- `get_line` called until it gives `LT_EOF` or throws: the lines it gives.  There is no
such list if it never ends. -/
inductive Reads (fs : Text → Option Text) : List Text → List Line → End → Prop where
  | eof {st} (h : turn fs st = .eof) : Reads fs st [] .eof
  | fail {st f} (h : turn fs st = .fail f) : Reads fs st [] (.fail f)
  | more {st st' ls e} (h : turn fs st = .more st') (hr : Reads fs st' ls e) : Reads fs st ls e
  | line {st st' l ls e} (h : turn fs st = .line l st') (hr : Reads fs st' ls e) :
      Reads fs st (l :: ls) e

/-- Reading an input: `push_istream` of the text, then all lines,
`PHRQ_io.cpp:654-659`. -/
def ReadsText (fs : Text → Option Text) (t : Text) (ls : List Line) (e : End) : Prop :=
  Reads fs [chars t] ls e

end Verif.Input
