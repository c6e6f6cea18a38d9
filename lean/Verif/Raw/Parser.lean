import Verif.NameDouble.Model

/-!
# Reading of dump files: lines, options and reader loops

Model of the parser under `/repo/src/IPhreeqcPhast/IPhreeqc/phreeqcpp/common` as far as the
`*_RAW` data blocks written by the `dump_raw` functions need it.

* A line is the list of its blank-separated tokens. Comment lines and empty lines, which
  `PHRQ_io::get_line` (PHRQ_io.cpp:683-823) skips, are not represented, nor is the indentation.
  A token is not empty and holds no blank, `#` or `;`. Names are taken to be such tokens unless
  the contrary is said.
* A token is a word or a number. What a number token carries is the value the reader gets from
  the printed text. `dump_raw` prints a double `x` with `DBL_DIG - 1` = 14 significant digits;
  the token printed for `x` is `.num (rnd x)` for an arbitrary function `rnd` that stands for
  printing with 14 digits and reading the text back. Integers and booleans are printed exactly.
  Numbers are finite.
* Error reports are counted; the texts are not modelled.
-/

namespace Verif.Raw

open Verif.OMap Verif.NameDouble

/-- A blank-separated token. -/
inductive Tok
  | word (w : Name)
  | num (q : ℚ)
  deriving DecidableEq

/-- A line that is neither empty nor a comment. -/
abbrev Line := List Tok

/-- `std::transform(.., tolower)`. -/
def lower (w : Name) : Name := w.map Char.toLower

/-- `Keywords::phreeqc_keywords` (PhreeqcKeywords/Keywords.cpp:43-157). -/
def keywords : List Name :=
  [
    "eof", "end", "solution_species", "solution_master_species", "solution", "phases",
    "pure_phases", "reaction", "mix", "use", "save", "exchange_species",
    "exchange_master_species", "exchange", "surface_species", "surface_master_species",
    "surface", "reaction_temperature", "inverse_modeling", "gas_phase", "transport", "debug",
    "selected_output", "select_output", "knobs", "print", "equilibrium_phases", "equilibria",
    "equilibrium", "pure", "title", "comment", "advection", "kinetics",
    "incremental_reactions", "incremental", "rates", "solution_s", "user_print", "user_punch",
    "solid_solutions", "solid_solution", "solution_spread", "spread_solution", "selected_out",
    "select_out", "user_graph", "llnl_aqueous_model_parameters", "llnl_aqueous_model",
    "database", "named_analytical_expression", "named_analytical_expressions",
    "named_expressions", "named_log_k", "isotopes", "calculate_values", "isotope_ratios",
    "isotope_alphas", "copy", "pitzer", "sit", "equilibrium_phase", "solution_raw",
    "exchange_raw", "surface_raw", "equilibrium_phases_raw", "kinetics_raw",
    "solid_solutions_raw", "gas_phase_raw", "reaction_raw", "mix_raw",
    "reaction_temperature_raw", "dump", "solution_modify", "equilibrium_phases_modify",
    "exchange_modify", "surface_modify", "solid_solutions_modify", "gas_phase_modify",
    "kinetics_modify", "delete", "run_cells", "reaction_modify",
    "reaction_temperature_modify", "solid_solution_modify", "reaction_pressure",
    "reaction_pressures", "reaction_pressure_raw", "reaction_pressure_modify",
    "rate_parameters_pk", "rate_parameters_svd", "rate_parameters_hermanska", "mean_gammas",
    "gas_binary_parameters", "solution_mix", "mix_solution", "exchange_mix", "mix_exchange",
    "gas_phase_mix", "mix_gas_phase", "kinetics_mix", "mix_kinetics",
    "equilibrium_phases_mix", "mix_equilibrium_phases", "equilibrium_phase_mix",
    "mix_equilibrium_phase", "solid_solutions_mix", "mix_solid_solutions",
    "solid_solution_mix", "mix_solid_solution", "surface_mix", "mix_surface"].map String.toList

/-- `PHRQ_io::check_key` (PHRQ_io.cpp:900-914). -/
def isKeyword (w : Name) : Bool := keywords.contains (lower w)

/-- A token that makes its line an option line (PHRQ_io.cpp:771): `-` and a letter. -/
def isOption : Name → Bool
  | '-' :: c :: _ => c.isAlpha
  | _ => false

/-- `CParser::find_option` (Parser.cxx:628-656): index of the first entry that equals the
lower-case word (`exact`) or begins with it. -/
def findOption (exact : Bool) (opts : List Name) (w : Name) : Option Nat :=
  opts.findIdx? (fun o => if exact then o == lower w else (lower w).isPrefixOf o)

/-- Outcome of reading one line. -/
inductive Opt
  | key
  | opt (n : Nat)
  | dflt
  | err
  deriving DecidableEq

/-- `CParser::get_option(opt_list, next_pos)` (Parser.cxx:758-826) and
`getOptionFromLastLine(opt_list, next_pos, ..)` (Parser.cxx:1130-1229) on the same line: the
option and the tokens from `next_pos` on. A line that begins with a number is neither a keyword
nor an option. -/
def getOption (opts : List Name) : Line → Opt × List Tok
  | .word w :: rest =>
    if isKeyword w then (.key, .word w :: rest)
    else if isOption w then
      match findOption false opts w.tail with
      | some n => (.opt n, rest)
      | none   => (.err, .word w :: rest)
    else
      match findOption true opts w with
      | some n => (.opt n, rest)
      | none   => (.dflt, .word w :: rest)
  | l => (.dflt, l)

/-- Result of offering a line to a reader: consumed, or the reader ends before it. -/
inductive Res (σ : Type)
  | go (s : σ)
  | stop (s : σ)

/-- The `for (;;)` loop of a reader: the final state and the lines not consumed. -/
def feed {σ : Type} (step : Line → σ → Res σ) : List Line → σ → σ × List Line
  | [], s => (s, [])
  | l :: ls, s =>
    match step l s with
    | .go s'   => feed step ls s'
    | .stop s' => (s', l :: ls)

/-- State of a reader: the object, `opt_save` (`none` for `OPT_ERROR` and `OPT_DEFAULT`), the
required members not yet seen, the number of errors reported. -/
structure RS (α : Type) where
  val : α
  save : Option Nat
  req : List Nat
  errs : Nat
  deriving DecidableEq

variable {α : Type}

/-- One turn of a reader loop that has no nested readers. `unknown` is the branch
`OPT_DEFAULT`/`OPT_ERROR`. -/
def flatStep (opts : List Name) (act : Nat → List Tok → RS α → RS α) (unknown : RS α → Res (RS α))
    (l : Line) (s : RS α) : Res (RS α) :=
  match getOption opts l with
  | (.key, _)     => .stop s
  | (.opt n, rest) => .go (act n rest s)
  | (.dflt, rest) =>
    match s.save with
    | some n => .go (act n rest s)
    | none   => unknown s
  | (.err, _)     => unknown s

/-- A reader that hands lines over to a nested reader (state `ι`) until that one ends, and then
treats the line at which it ended (`useLastLine`). -/
def nestStep {σ ι : Type} (outer : Line → σ → Res (σ × Option ι)) (inner : Line → ι → Res ι)
    (close : σ → ι → σ) (l : Line) : σ × Option ι → Res (σ × Option ι)
  | (s, none)   => outer l s
  | (s, some i) =>
    match inner l i with
    | .go i'   => .go (s, some i')
    | .stop i' => outer l (close s i')

/-- A nested reader that carries along what the outer reader remembers about it. -/
def tagStep {κ ρ : Type} (step : Line → ρ → Res ρ) (l : Line) (i : κ × ρ) : Res (κ × ρ) :=
  match step l i.2 with
  | .go r   => .go (i.1, r)
  | .stop r => .stop (i.1, r)

/-- The outer part of a reader with nested readers. `enter n rest s` treats the options that start
a nested reader. -/
def outerStep {ι : Type} (opts : List Name) (act : Nat → List Tok → RS α → RS α)
    (enter : Nat → List Tok → RS α → Option (RS α × Option ι))
    (unknown : RS α → Res (RS α × Option ι)) (l : Line) (s : RS α) : Res (RS α × Option ι) :=
  match getOption opts l with
  | (.key, _)     => .stop (s, none)
  | (.opt n, rest) =>
    match enter n rest s with
    | some r => .go r
    | none   => .go (act n rest s, none)
  | (.dflt, rest) =>
    match s.save with
    | some n => .go (act n rest s, none)
    | none   => unknown s
  | (.err, _)     => unknown s

/-- End of input inside a nested reader. -/
def nestEnd {σ ι : Type} (close : σ → ι → σ) : σ × Option ι → σ
  | (s, none)   => s
  | (s, some i) => close s i

/-- One error reported. -/
def RS.error (s : RS α) : RS α := { s with errs := s.errs + 1 }

/-- A required member has been read. -/
def RS.seen (n : Nat) (s : RS α) : RS α := { s with req := s.req.filter (· ≠ n) }

/-- Assignment to `opt_save`. -/
def RS.setSave (o : Option Nat) (s : RS α) : RS α := { s with save := o }

/-- The errors for required members that were not read (the `if (check)` part of a reader). -/
def RS.check (s : RS α) : RS α := { s with req := [], errs := s.errs + s.req.length }

/-- `if (!(parser.get_iss() >> x)) { x = d; error }` for a double. -/
def readNum (set : ℚ → α → α) (d : ℚ) (rest : List Tok) (s : RS α) : RS α :=
  match rest with
  | .num q :: _ => { s with val := set q s.val }
  | _           => { s with val := set d s.val, errs := s.errs + 1 }

/-- The same for a boolean: only 0 and 1 are accepted. -/
def readBool (set : Bool → α → α) (d : Bool) (rest : List Tok) (s : RS α) : RS α :=
  match rest with
  | .num q :: _ =>
    if q = 0 then { s with val := set false s.val }
    else if q = 1 then { s with val := set true s.val }
    else { s with val := set d s.val, errs := s.errs + 1 }
  | _           => { s with val := set d s.val, errs := s.errs + 1 }

/-- The same for an integer; the characters up to a decimal point are read. -/
def readInt (set : Int → α → α) (d : Int) (rest : List Tok) (s : RS α) : RS α :=
  match rest with
  | .num q :: _ => { s with val := set (if 0 ≤ q then q.floor else q.ceil) s.val }
  | _           => { s with val := set d s.val, errs := s.errs + 1 }

/-- A flag read as an integer (for example GasPhase.cxx:357-366): zero is false, all else true; if
there is no number the flag stays as it is. -/
def readFlag (set : Bool → α → α) (rest : List Tok) (s : RS α) : RS α :=
  match rest with
  | .num q :: _ => { s with val := set (decide ((if 0 ≤ q then q.floor else q.ceil) ≠ 0)) s.val }
  | _           => s.error

/-- The same for a string. A number in the place of a name does not occur in dumped text; it is
counted as an error here. -/
def readWord (set : Name → α → α) (rest : List Tok) (s : RS α) : RS α :=
  match rest with
  | .word w :: _ => { s with val := set w s.val }
  | _            => { s with val := set [] s.val, errs := s.errs + 1 }

/-- `cxxNameDouble::read_raw` (NameDouble.cxx:179-197) and the error report of its callers: no
token, nothing to do; a name and a number, stored by `put`. -/
def readPair (put : Name → ℚ → α → α) (rest : List Tok) (s : RS α) : RS α :=
  match rest with
  | [] => s
  | .word w :: .num q :: _ => { s with val := put w q s.val }
  | _ => s.error

/-- A number and a value, as in the maps by species number (for example Solution.cxx:994-1019):
no token, nothing to do; if the value cannot be read, zero is stored with an error (C++11 sets the
variable to zero). -/
def readIntPair (put : Int → ℚ → α → α) (rest : List Tok) (s : RS α) : RS α :=
  match rest with
  | [] => s
  | .num i :: .num q :: _ => { s with val := put (if 0 ≤ i then i.floor else i.ceil) q s.val }
  | .num i :: _ =>
    { s with val := put (if 0 ≤ i then i.floor else i.ceil) 0 s.val, errs := s.errs + 1 }
  | _ => s.error

/-- A map by species number as `dump_raw` writes it (for example Solution.cxx:338-343). -/
def dumpIntMap (rnd : ℚ → ℚ) (m : SMap Int ℚ) : List Line :=
  m.map (fun p => [.num p.1, .num (rnd p.2)])

/-- `cxxNameDouble::dump_raw` (NameDouble.cxx:157-177). -/
def dumpND (rnd : ℚ → ℚ) (nd : ND) : List Line := nd.map (fun p => [.word p.1, .num (rnd p.2)])

/-- The numbers at the front of a line, as in the loops over `TT_DIGIT` tokens (for example
KineticsComp.cxx:196-202). -/
def takeNums : List Tok → List ℚ
  | .num q :: rest => q :: takeNums rest
  | _ => []

/-- The loop that writes a vector of doubles (for example KineticsComp.cxx:74-89): `i` is the
counter, `cur` the line so far. The first line has five numbers, the following ones six. -/
def numLinesFrom (rnd : ℚ → ℚ) (i : Nat) (cur : Line) : List ℚ → List Line
  | [] => [cur]
  | q :: qs =>
    if i = 5 then cur :: numLinesFrom rnd 0 [.num (rnd q)] qs
    else numLinesFrom rnd (i + 1) (cur ++ [.num (rnd q)]) qs

/-- The lines of a vector of doubles. The blank line of an empty vector is left out: the reader
passes over blank lines (Parser.cxx:159). -/
def numLines (rnd : ℚ → ℚ) (qs : List ℚ) : List Line :=
  (numLinesFrom rnd 0 [] qs).filter (fun l => !l.isEmpty)

/-- An option line `-name value ...`. -/
def optLine (w : String) (rest : List Tok) : Line := .word ('-' :: w.toList) :: rest

/-- A name that is written only if it is not empty (for example ExchComp.cxx:113-116). -/
def nameLine (w : String) (n : Name) : List Line :=
  if n = [] then [] else [optLine w [.word n]]

/-- A boolean as `dump_raw` prints it. -/
def boolTok (b : Bool) : Tok := .num (if b then 1 else 0)

/-- Header data of a numbered data block (`cxxNumKeyword`). The description is the list of its
tokens. -/
structure Head where
  nUser : Int
  nUserEnd : Int
  desc : List Tok
  deriving DecidableEq

/-- The first line written by a `dump_raw`, for example Exchange.cxx:144. -/
def headLine (kw : String) (h : Head) : Line :=
  .word kw.toList :: .num h.nUser :: h.desc

/-- `cxxNumKeyword::read_number_description` (NumKeyword.cxx:55-98, and 138-190 for solutions):
the number and the rest of the line. A range `1-5` is not modelled: `dump_raw` writes one
number. Without a number the number is 1. -/
def readHead : Line → Head
  | _ :: .num q :: rest =>
    let n := if 0 ≤ q then q.floor else q.ceil
    ⟨n, n, rest⟩
  | _ :: rest => ⟨1, 1, rest⟩
  | [] => ⟨1, 1, []⟩

end Verif.Raw
