import Verif.Pbasic.Model

/-!
# From the text of a BASIC program to its tokens

`basic_compile` (`/repo/src/IPhreeqcPhast/IPhreeqc/phreeqcpp/PBasic.cpp`) cuts
the text of a program into lines, reads the line numbers, and turns each line
into tokens, which `Model.lean` starts from.

Simplified: characters are those of ASCII in the "C" locale; a number is the
rational number that its digits write, without the rounding of `strtod` and
without an overflow to infinity; a hexadecimal number, and the command that a
line without a number carries out at once, leave the model (`out`).  The copy
of the text that a program line keeps for its error messages is left out.
-/

namespace Verif.Pbasic

/-- The functions of one number, in the order of their numbers in `Tok.fn`:
`PBasic.cpp:8141-8152` and `PBasic.cpp:8258`. -/
def functions : List String :=
  ["sqr", "sqrt", "ceil", "floor", "sin", "cos", "tan", "arctan", "log", "exp", "abs", "sgn",
    "log10"]

/-- The words of statements that are modelled, `PBasic.cpp:8163-8197`,
`PBasic.cpp:8289`, `PBasic.cpp:8293`. -/
def statements : List (String × Kw) :=
  [("let", .klet), ("goto", .kgoto), ("if", .kif), ("then", .kthen), ("else", .kelse),
    ("for", .kfor), ("to", .kto), ("step", .kstep), ("next", .knext), ("while", .kwhile),
    ("wend", .kwend), ("gosub", .kgosub), ("return", .kreturn), ("read", .kread),
    ("data", .kdata), ("restore", .krestore), ("on", .kon), ("dim", .kdim), ("end", .kend),
    ("rem", .krem), ("punch", .kpunch)]

/-- The words that stand for an operator, `PBasic.cpp:8136-8140`. -/
def wordOps : List (String × Tok) :=
  [("and", .op .and), ("or", .op .or), ("xor", .op .xor), ("mod", .op .mod), ("not", .not)]

/-- All other words of `command_tokens`, `PBasic.cpp:8120-8345`.  The entry
`"go to"` (`PBasic.cpp:8166`) and the entries of signs cannot be equal to a
word. -/
def otherWords : List String :=
  ["str$", "val", "chr$", "eol$", "eol_notab$", "no_newline$", "asc", "len", "mid$", "peek",
    "input", "stop", "gotoxy", "erase", "poke", "list", "run", "new", "load", "merge", "save",
    "bye", "quit", "del", "renum", "act", "add_heading", "alk", "aphi", "calc_value", "callback",
    "cell_no", "change_por", "change_surf", "charge_balance", "current_a", "debye_length",
    "delta_h_phase", "delta_h_species", "description", "dh_a0", "dh_a", "dh_av", "dh_b",
    "dh_bdot", "diff_c", "dist", "edl", "edl_species", "eps_r", "eq_frac", "equi", "equi_delta",
    "equiv_frac", "exists", "gamma", "gas", "gas_p", "gas_vm", "get", "get$", "get_por", "gfw",
    "graph_x", "graph_y", "graph_sy", "instr", "iso", "iso_unit", "iterations", "kappa", "kin",
    "kin_delta", "kin_time", "kinetics_formula", "kinetics_formula$", "la", "lg", "list_s_s",
    "lk_named", "lk_phase", "lk_species", "lm", "ltrim", "m0", "m", "mcd_jtot", "mcd_jconc",
    "misc1", "misc2", "mol", "mu", "osmotic", "pad", "pad$", "parm", "rate_pk", "rate_svd",
    "rate_hermanska", "meang", "percent_error", "phase_formula", "phase_formula$", "phase_vm",
    "plot_xy", "porevolume", "pot_v", "pr_p", "pr_phi", "pressure", "print", "put", "put$",
    "qbrn", "rho", "rho_0", "rtrim", "rxn", "s_s", "sc", "setdiff_c", "si", "sim_no", "sim_time",
    "soln_vol", "species_formula", "species_formula$", "phase_equation", "phase_equation$",
    "species_equation", "species_equation$", "sr", "step_no", "str_e$", "str_f$", "sum_gas",
    "sum_s_s", "sum_species", "surf", "sys", "t_sc", "f_visc", "tc", "time", "title", "tk",
    "tot", "total_time", "totmol", "totmole", "totmoles", "trim", "viscos", "viscos_0", "vm",
    "cell_pore_volume", "cell_porosity", "cell_saturation", "cell_volume", "transport_cell_no",
    "velocity_x", "velocity_y", "velocity_z", "sa_declercq"]

/-- The map `command_tokens`, `PBasic.cpp:8120-8347`. -/
def table : List (String × Tok) :=
  wordOps ++ functions.mapIdx (fun k s => (s, Tok.fn k)) ++
    statements.map (fun e => (e.1, Tok.kw e.2)) ++ otherWords.map (fun s => (s, Tok.other))

/-- `token[strlen(token) - 1] == '$'`, `PBasic.cpp:789`. -/
def endsDollar (w : List Char) : Bool := w.getLast? == some '$'

/-- The token of a word in small letters, `PBasic.cpp:744-803`. -/
def wordTok (w : List Char) : Tok :=
  match table.lookup (String.ofList w) with
  | some t => t
  | none => .var ⟨String.ofList w, endsDollar w⟩

/-- The characters of a word behind its first, `PBasic.cpp:724-726`. -/
def isWordChar (c : Char) : Bool := c == '$' || c == '_' || c.isAlphanum

/-- A word as `parse` keeps it: cut at `toklength` characters and in small
letters, `PBasic.cpp:722-742`. -/
def cutWord (w : List Char) : List Char := (w.take 20).map Char.toLower

/-- The number that digits write. -/
def natOf (ds : List Char) : Nat := ds.foldl (fun n c => 10 * n + (c.toNat - 48)) 0

/-- The sign of an exponent. -/
def expSign : List Char → Int × List Char
  | [] => (1, [])
  | c :: r => if c = '+' then (1, r) else if c = '-' then (-1, r) else (1, c :: r)

/-- The exponent that `strtod` reads: without a digit there is none. -/
def exponent : List Char → Int × List Char
  | [] => (0, [])
  | c :: r =>
      if c = 'e' ∨ c = 'E' then
        if (expSign r).2.takeWhile Char.isDigit = [] then (0, c :: r)
        else ((expSign r).1 * (natOf ((expSign r).2.takeWhile Char.isDigit) : Int),
          (expSign r).2.dropWhile Char.isDigit)
      else (0, c :: r)

/-- The digits behind a decimal point, if there is one. -/
def fraction : List Char → List Char × List Char
  | [] => ([], [])
  | c :: r => if c = '.' then (r.takeWhile Char.isDigit, r.dropWhile Char.isDigit) else ([], c :: r)

/-- `strtod` for a decimal number without a sign: the number and the characters
behind it; `none` where there is no number. -/
def strtod (s : List Char) : Option (ℚ × List Char) :=
  let a := s.takeWhile Char.isDigit
  let br := fraction (s.dropWhile Char.isDigit)
  if a ++ br.1 = [] then none
  else
    let e := exponent br.2
    some ((natOf (a ++ br.1) : ℚ) * 10 ^ (e.1 - (br.1.length : Int)), e.2)

/-- Whether `strtod` may read a hexadecimal number. -/
def hexStart : List Char → Bool
  | '0' :: c :: _ => c == 'x' || c == 'X'
  | _ => false

/-- The tokens of one character, `PBasic.cpp:641-691`. -/
def sign : Char → Option Tok
  | '+' => some (.op .add)
  | '-' => some (.op .sub)
  | '*' => some (.op .mul)
  | '/' => some (.op .div)
  | '^' => some (.op .pow)
  | '(' => some .lp
  | '[' => some .lp
  | ')' => some .rp
  | ']' => some .rp
  | ',' => some .comma
  | ';' => some .semi
  | ':' => some .colon
  | '?' => some .other
  | '=' => some (.op .eq)
  | _ => none

/-- The sign that starts with `<`, `PBasic.cpp:693-706`. -/
def afterLess : List Char → Tok × List Char
  | [] => (.op .lt, [])
  | c :: r => if c = '=' then (.op .le, r) else if c = '>' then (.op .ne, r) else (.op .lt, c :: r)

/-- The sign that starts with `>`, `PBasic.cpp:708-716`. -/
def afterGreater : List Char → Tok × List Char
  | [] => (.op .gt, [])
  | c :: r => if c = '=' then (.op .ge, r) else (.op .gt, c :: r)

/-- One turn of the loop of `parse` from the first character that is no blank,
`PBasic.cpp:606-852`: the token and the characters behind it.  A string without
its closing quote is the error of `PBasic.cpp:855-868`, which `parse` reports at
the end of the line. -/
def tokenAt (c : Char) (r : List Char) : Res (Tok × List Char) :=
  if c = '"' ∨ c = '\'' then
    match r.dropWhile (· != c) with
    | [] => .err
    | _ :: r' => .ok (.str (r.takeWhile (· != c)), r')
  else if c = '<' then .ok (afterLess r)
  else if c = '>' then .ok (afterGreater r)
  else
    match sign c with
    | some t => .ok (t, r)
    | none =>
        if c.isAlpha then
          let t := wordTok (cutWord ((c :: r).takeWhile isWordChar))
          if t = .kw .krem then .ok (t, []) else .ok (t, (c :: r).dropWhile isWordChar)
        else if c.isDigit || c == '.' then
          if hexStart (c :: r) then .out
          else
            match strtod (c :: r) with
            | none => .ok (.other, r)
            | some (q, r') => .ok (.num q, r')
        else .ok (.other, r)

/-- The loop of `parse`, `PBasic.cpp:582-854`.  The first argument bounds the
number of turns; every turn uses up a character. -/
def lex : Nat → List Char → Res (List Tok)
  | 0, _ => .out
  | n + 1, cs =>
      match cs.dropWhile (· == ' ') with
      | [] => .ok []
      | c :: r => (tokenAt c r).bind fun p => (lex n p.2).bind fun ts => .ok (p.1 :: ts)

/-- `parse`, `PBasic.cpp:568-900`, with the counting of parentheses. -/
def parse (cs : List Char) : Res (List Tok) :=
  (lex (cs.length + 1) cs).bind fun ts =>
    if ts.count .lp = ts.count .rp then .ok ts else .err

/-- `replace("\t", " ", inbuf)` and `replace("\r", " ", inbuf)` until there is
nothing to replace, `PBasic.cpp:1713-1714`. -/
def untab (c : Char) : Char := if c = '\t' ∨ c = '\r' then ' ' else c

/-- `isspace` in the "C" locale. -/
def isSpace (c : Char) : Bool :=
  c == ' ' || c == '\t' || c == '\n' || c == '\x0b' || c == '\x0c' || c == '\r'

/-- `string_trim`, `utilities.cpp:1149-1197`: a text of blanks alone stays. -/
def trimmed (cs : List Char) : List Char :=
  if cs.all isSpace then cs
  else ((cs.dropWhile isSpace).reverse.dropWhile isSpace).reverse

/-- The line number, `PBasic.cpp:1716-1721`; a sum beyond the range of `long` is
undefined. -/
def lineNumber : Nat → List Char → Res (Nat × List Char)
  | n, [] => .ok (n, [])
  | n, c :: r =>
      if c.isDigit then
        if n * 10 + c.toNat ≤ 9223372036854775807 then lineNumber (n * 10 + c.toNat - 48) r
        else .ub
      else .ok (n, c :: r)

/-- `parseinput` followed by the branch of `basic_compile` for a line without a
number, `PBasic.cpp:1708-1765`, `PBasic.cpp:115-123`. -/
def inputLine (cs : List Char) (prog : List Line) : Res (List Line) :=
  (lineNumber 0 (trimmed (cs.map untab))).bind fun p =>
    (parse p.2).bind fun ts =>
      if p.1 = 0 then (if ts = [] then .ok prog else .out)
      else .ok (enter p.1 ts prog)

/-- The characters of `sget_logical_line` that end a line, `PBasic.cpp:418`. -/
def isBreak (c : Char) : Bool := c == ';' || c == '\n'

/-- `basic_compile`, `PBasic.cpp:88-173`: line after line, up to the end of the
text, where the line `bye` ends the loop (`PBasic.cpp:111-114`).  The first
argument bounds the number of lines. -/
def compileLines : Nat → List Char → List Line → Res (List Line)
  | 0, _, _ => .out
  | n + 1, cs, prog =>
      if cs = [] then .ok prog
      else (inputLine (cs.takeWhile (!isBreak ·)) prog).bind fun p =>
        compileLines n (cs.dropWhile (!isBreak ·)).tail p

/-- The program of a text. -/
def compile (cs : List Char) : Res (List Line) := compileLines (cs.length + 1) cs []

end Verif.Pbasic
