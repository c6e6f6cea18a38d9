import Verif.OMap.Basic
import Mathlib.Algebra.Order.Ring.Int

/-!
# One PHREEQC instance as its user sees it

Every worker of a `PhreeqcRM` object, and each of its two utility instances, is an
`IPhreeqcPhast`, which adds nothing to the interface described here; a user gets hold of
it with `GetIPhreeqcPointer`.  The interface runs input, keeps the texts the run printed,
and lists them as strings and line by line.

Sources: `/repo/src/IPhreeqcPhast/IPhreeqc/IPhreeqc.cpp` (cited as `IPhreeqc.cpp`),
`phreeqcpp/PHRQ_io_output.cpp`, `phreeqcpp/common/PHRQ_io.cpp` and
`phreeqcpp/utilities.cpp` in the same directory.

What is left out: the files (output, log, error, selected-output and dump files: only the
switches are kept, as the engine sees them), the tables of selected-output values (their
own chapter, `SelNav`), and everything inside the reaction engine: reading input and
calculating is one uninterpreted function that returns the messages it sent through the
interface, how it ended, and its new state.
-/

namespace Verif.IPq

/-- Text. -/
abbrev Text := List Char

/-- `'\n'`. -/
def nl : Char := '\n'

/-- `std::getline` called until it fails, with `cur` read so far of the current line: the
pieces between newlines; an empty last piece is not a line, an unterminated non-empty one
is.  The loop is written out at `IPhreeqc.cpp:1476-1481, 1520-1525, 1531-1536, 1549-1554,
1566-1571, 1578-1583`. -/
def readLines (cur : Text) : Text → List Text
  | [] => if cur = [] then [] else [cur]
  | c :: r => if c = nl then cur :: readLines [] r else readLines (cur ++ [c]) r

/-- All lines of a text, same lines of the source. -/
def getlines (t : Text) : List Text := readLines [] t

/-- The switches of an instance, `IPhreeqc.cpp:28-37`, `PHRQ_io.cpp:41`.  The engine may
look at all of them. -/
structure Switches where
  /-- `OutputFileOn` -/
  outFile : Bool
  /-- `LogFileOn` -/
  logFile : Bool
  /-- `ErrorFileOn` -/
  errFile : Bool
  /-- `DumpOn` -/
  dumpFile : Bool
  /-- `DumpStringOn` -/
  dumpStr : Bool
  /-- `OutputStringOn` -/
  outStr : Bool
  /-- `LogStringOn` -/
  logStr : Bool
  /-- `ErrorStringOn` -/
  errStr : Bool
  /-- `error_on` -/
  errorOn : Bool
  deriving DecidableEq, Repr

/-- What the engine does to the instance while it reads input and calculates. -/
inductive Ev where
  /-- `output_msg` -/
  | out (s : Text)
  /-- `log_msg` -/
  | log (s : Text)
  /-- `warning_msg`, when the engine's own limits let it through
  (`PHRQ_io_output.cpp:18-27`) -/
  | warn (s : Text)
  /-- `error_msg(s, CONTINUE)` -/
  | err (s : Text)
  /-- `input_error++` -/
  | inputError
  /-- `read_input` begins: `input_error = 0`, `phreeqcpp/read.cpp:41` -/
  | reading
  /-- `read_input` has returned with these keys in `SelectedOutput_map`;
  `IPhreeqc.cpp:1249-1266` -/
  | defs (ns : List Int)
  /-- `Set_log_on`, `phreeqcpp/read.cpp:7940` -/
  | logOn (b : Bool)
  /-- `Set_punch_on`, `phreeqcpp/read.cpp:8145`, `tidy.cpp:1915, 2247`, `inverse.cpp:4336` -/
  | punchOn (b : Bool)
  /-- `punch_msg` or `fpunchf` while selected output `n` is the current one -/
  | punch (n : Int) (s : Text)
  /-- the dump step of one simulation that was asked to dump: the text, and whether the
  user asked to append, `IPhreeqc.cpp:1458-1483` -/
  | dump (append : Bool) (s : Text)
  deriving DecidableEq, Repr

/-- How reading and calculating ended. -/
inductive Ending where
  /-- the input was read to its end -/
  | fin
  /-- `error_msg(msg, STOP)`, which throws `IPhreeqcStop` -/
  | stop (msg : Text)
  /-- another exception: `what()` of a `std::exception`, or none -/
  | thrown (what : Option Text)
  deriving DecidableEq, Repr

/-- The reaction engine. -/
structure Engine (χ : Type) where
  /-- state after `clean_up`, `init`, `do_initialize` -/
  init : χ
  /-- `read_database` -/
  readDb : χ → Switches → Text → List Ev × Ending × χ
  /-- the loop over simulations in `do_run` -/
  run : χ → Switches → Text → List Ev × Ending × χ
  /-- `list_components` -/
  components : χ → List Text
  /-- keys of `SelectedOutput_map` -/
  selNums : χ → List Int
  /-- the input built by `test_db`, `IPhreeqc.cpp:1057-1065` -/
  testInput : χ → Text
  /-- `set_reading_database` -/
  setReading : χ → Bool → χ

/-- An instance. -/
structure St (χ : Type) where
  /-- `DatabaseLoaded` -/
  dbLoaded : Bool
  /-- `ClearAccumulated` -/
  clearAcc : Bool
  /-- `UpdateComponents` -/
  updComp : Bool
  /-- the switches -/
  sw : Switches
  /-- `log_on` -/
  logOn : Bool
  /-- `punch_on` -/
  punchOn : Bool
  /-- `StringInput` -/
  acc : Text
  /-- the text in `ErrorReporter` -/
  err : Text
  /-- the text in `WarningReporter` -/
  warn : Text
  /-- `ErrorLines` -/
  errLines : List Text
  /-- `WarningLines` -/
  warnLines : List Text
  /-- `OutputString` -/
  out : Text
  /-- `OutputLines` -/
  outLines : List Text
  /-- `LogString` -/
  log : Text
  /-- `LogLines` -/
  logLines : List Text
  /-- `CurrentSelectedOutputUserNumber` -/
  cur : Int
  /-- `SelectedOutputStringOn` -/
  selOn : OMap.SMap Int Bool
  /-- `SelectedOutputStringMap` -/
  selStr : OMap.SMap Int Text
  /-- `SelectedOutputLinesMap` -/
  selLines : OMap.SMap Int (List Text)
  /-- `DumpString` -/
  dump : Text
  /-- `DumpLines` -/
  dumpLines : List Text
  /-- `Components` -/
  comps : List Text
  /-- `PhreeqcPtr->input_error` -/
  inErr : Nat
  /-- `io_error_count` -/
  ioErr : Nat
  /-- `istream_list` holds a pointer to an input stream that no longer exists -/
  dead : Bool
  /-- the engine -/
  eng : χ

variable {χ : Type}

/-- `Phreeqc::get_input_errors`, `phreeqcpp/utilities.cpp:1331-1339`. -/
def St.inputErrors (s : St χ) : Nat := if s.inErr = 0 then s.ioErr else s.inErr

/-- `IPhreeqc::output_msg`, `IPhreeqc.cpp:1646-1654`; `output_on` is never switched off. -/
def outputMsg (s : St χ) (t : Text) : St χ :=
  if s.sw.outStr then { s with out := s.out ++ t } else s

/-- `IPhreeqc::log_msg`, `IPhreeqc.cpp:1587-1595`. -/
def logMsg (s : St χ) (t : Text) : St χ :=
  if s.sw.logStr && s.logOn then { s with log := s.log ++ t } else s

/-- The text of an error message, `PHRQ_io_output.cpp:280-281`. -/
def errText (m : Text) : Text := "ERROR: ".toList ++ m ++ [nl]

/-- The text of a warning, `PHRQ_io_output.cpp:34-36`, `IPhreeqc.cpp:1638-1639`. -/
def warnText (m : Text) : Text := "WARNING: ".toList ++ m ++ [nl]

/-- `Phreeqc::error_msg` (`PHRQ_io_output.cpp:272-298`) followed by `IPhreeqc::error_msg`
(`IPhreeqc.cpp:1597-1623`) and `PHRQ_io::error_msg` (`PHRQ_io.cpp:226-251`, entered without
its `stop`), up to the point where it throws if it was asked to. -/
def errorMsg (s : St χ) (m : Text) : St χ :=
  let s := if s.inputErrors = 0 then { s with inErr := 1 } else s
  let s := outputMsg s (errText m)
  let s := logMsg s (errText m)
  let s := { s with ioErr := s.ioErr + 1 }
  if s.sw.errStr && s.sw.errorOn then { s with err := s.err ++ errText m } else s

/-- `Phreeqc::warning_msg` (`PHRQ_io_output.cpp:28-38`), `IPhreeqc::warning_msg`
(`IPhreeqc.cpp:1625-1644`) and `PHRQ_io::warning_msg` (`PHRQ_io.cpp:253-271`).
`WarningStringOn` is true and nothing changes it. -/
def warningMsg (s : St χ) (m : Text) : St χ :=
  let s := logMsg s (warnText m)
  let s := outputMsg s (warnText m)
  { s with warn := s.warn ++ warnText m }

/-- `IPhreeqc::get_sel_out_string_on`, `IPhreeqc.cpp:1837-1846`: it ignores its argument and
looks up the current user number. -/
def selStringOn (s : St χ) (_n : Int) : Bool := (OMap.find s.selOn s.cur).getD false

/-- `IPhreeqc::punch_msg`, `IPhreeqc.cpp:1661-1673`, and the same part of `fpunchf`,
`IPhreeqc.cpp:1769-1773`. -/
def punchMsg (s : St χ) (n : Int) (t : Text) : St χ :=
  if selStringOn s n && s.punchOn then
    { s with selStr := OMap.insert s.selStr n (((OMap.find s.selStr n).getD []) ++ t) }
  else s

/-- Entries for the selected outputs not yet known in this run, `IPhreeqc.cpp:1249-1266`. -/
def addDefs (m : OMap.SMap Int Text) : List Int → OMap.SMap Int Text
  | [] => m
  | n :: ns => addDefs (match OMap.find m n with
      | some _ => m
      | none => OMap.insert m n []) ns

/-- The dump step of one simulation, `IPhreeqc.cpp:1458-1483`. -/
def dumpStep (s : St χ) (append : Bool) (t : Text) : St χ :=
  if s.sw.dumpStr then
    let d := if append then s.dump ++ t else t
    { s with dump := d, dumpLines := getlines d }
  else s

/-- Effect of one thing the engine does. -/
def Ev.app (s : St χ) : Ev → St χ
  | .out t => outputMsg s t
  | .log t => logMsg s t
  | .warn m => warningMsg s m
  | .err m => errorMsg s m
  | .inputError => { s with inErr := s.inErr + 1 }
  | .reading => { s with inErr := 0 }
  | .defs ns => { s with selStr := addDefs s.selStr ns }
  | .logOn b => { s with logOn := b }
  | .punchOn b => { s with punchOn := b }
  | .punch n t => punchMsg s n t
  | .dump a t => dumpStep s a t

/-- Effects of all it does, in order. -/
def apps (s : St χ) (evs : List Ev) : St χ := evs.foldl Ev.app s

/-- `IPhreeqc::update_errors`, `IPhreeqc.cpp:1560-1585`. -/
def updateErrors (s : St χ) : St χ :=
  { s with errLines := getlines s.err, warnLines := getlines s.warn }

/-- Lines of the selected-output strings for which `on` says so, `IPhreeqc.cpp:1539-1557`. -/
def fillSel (on : Int → Bool) (strs : OMap.SMap Int Text) :
    List Int → OMap.SMap Int (List Text) → OMap.SMap Int (List Text)
  | [], m => m
  | n :: ns, m =>
    fillSel on strs ns
      (if on n then
        match OMap.find strs n with
        | some t =>
          if getlines t = [] then m
          else OMap.insert m n (((OMap.find m n).getD []) ++ getlines t)
        | none => m
      else m)

/-- End of `do_run`, `IPhreeqc.cpp:1511-1557`. -/
def finish (E : Engine χ) (s : St χ) : St χ :=
  let s := { s with updComp := true }
  let s := updateErrors s
  let s := if s.sw.logStr then { s with logLines := s.logLines ++ getlines s.log } else s
  let s := if s.sw.outStr then { s with outLines := s.outLines ++ getlines s.out } else s
  { s with selLines := fillSel (selStringOn s) s.selStr (E.selNums s.eng) s.selLines }

/-- `IPhreeqc::check_database` before it looks at `DatabaseLoaded`,
`IPhreeqc.cpp:1155-1170`. -/
def release (s : St χ) : St χ :=
  { s with err := [], warn := [], selStr := [], selLines := [], log := [], logLines := [],
           out := [], outLines := [] }

/-- What a call gives back. -/
inductive Res where
  /-- the value returned -/
  | ret (n : Nat)
  /-- an exception leaves the call -/
  | thrown
  /-- undefined behaviour -/
  | ub
  deriving DecidableEq, Repr

/-- Message for an exception that is passed on, `IPhreeqc.cpp:760-786, 831-857, 894-920`. -/
def thrownMsg (routine : Text) : Option Text → Text
  | some w => routine ++ ": ".toList ++ w
  | none => routine ++ ": An unhandled exception occurred.\n".toList

/-- `IPhreeqc::do_run` (`IPhreeqc.cpp:1182-1558`) with the handlers around it
(`IPhreeqc.cpp:756-786, 827-857, 890-920`): the state, and `none` if the call goes on behind
the handlers. -/
def doRun (E : Engine χ) (routine t : Text) (s : St χ) : St χ × Option Res :=
  let r := E.run s.eng s.sw t
  let s := { apps s r.1 with eng := r.2.2 }
  match r.2.1 with
  | .fin => (finish E s, none)
  | .stop m => (errorMsg s m, none)
  | .thrown w => ({ errorMsg s (thrownMsg routine w) with dead := true }, some .thrown)

/-- Inside of the `try` of `RunAccumulated`, `RunFile` and `RunString`
(`IPhreeqc.cpp:738-759, 799-830, 869-893`) with its handlers.  `input` is the text to run, or
the message if the file cannot be opened.

If an input stream that no longer exists is still on `istream_list` the end of the new
input is not seen: `PHRQ_io::get_line` goes on with the dead stream
(`PHRQ_io.cpp:705-727`).  A run that is stopped before the end of its input would not touch
it; the model calls that undefined, too. -/
def body (E : Engine χ) (routine : Text) (input : Text ⊕ Text) (s : St χ) :
    St χ × Option Res :=
  let s := release s
  if s.dbLoaded = false then
    (errorMsg { s with inErr := 1 } (routine ++ ": No database is loaded".toList), none)
  else
    let s := { s with inErr := 0, ioErr := 0 }
    match input with
    | .inr msg => (errorMsg s msg, none)
    | .inl t => if s.dead then (s, some .ub) else doRun E routine t s

/-- Behind the handlers: `close_output_files`, `update_errors`, `clear_istream`, and the
value returned, `IPhreeqc.cpp:788-793, 859-863, 922-926`. -/
def after (p : St χ × Option Res) : St χ × Res :=
  match p with
  | (s, some r) => (s, r)
  | (s, none) => ({ updateErrors s with dead := false }, .ret s.inputErrors)

/-- `IPhreeqc::RunAccumulated`, `IPhreeqc.cpp:735-794`. -/
def runAccumulated (E : Engine χ) (s : St χ) : St χ × Res :=
  match body E "RunAccumulated".toList (.inl s.acc) s with
  | (s, some r) => (s, r)
  | (s, none) => after ({ s with clearAcc := true }, none)

/-- `ClearAccumulatedLines(); ClearAccumulated = false;`, `IPhreeqc.cpp:129-132, 803-804,
873-874`. -/
def dropAcc (s : St χ) : St χ := { s with acc := [], clearAcc := false }

/-- `IPhreeqc::RunString`, `IPhreeqc.cpp:866-927`. -/
def runString (E : Engine χ) (t : Text) (s : St χ) : St χ × Res :=
  after (body E "RunString".toList (.inl t) (dropAcc s))

/-- The message for a file that cannot be opened, `IPhreeqc.cpp:595-596, 818-819`. -/
def unableMsg (routine name : Text) : Text :=
  routine ++ ": Unable to open:\"".toList ++ name ++ "\".".toList

/-- `IPhreeqc::RunFile`, `IPhreeqc.cpp:796-864`; `content` is what is in the file, if it
can be opened. -/
def runFile (E : Engine χ) (name : Text) (content : Option Text) (s : St χ) : St χ × Res :=
  after (body E "RunFile".toList
    (match content with
     | some t => .inl t
     | none => .inr (unableMsg "RunFile".toList name)) (dropAcc s))

/-- `IPhreeqc::AccumulateLine`, `IPhreeqc.cpp:95-117`. -/
def accumulateLine (l : Text) (s : St χ) : St χ :=
  let s := if s.clearAcc then dropAcc s else s
  { s with err := [], warn := [], acc := s.acc ++ l ++ [nl] }

/-- `IPhreeqc::UnLoadDatabase`, `IPhreeqc.cpp:1072-1127`. -/
def unload (E : Engine χ) (s : St χ) : St χ :=
  { s with dbLoaded := false, updComp := true, comps := [], acc := [], clearAcc := false,
           err := [], warn := [], cur := 1, selOn := [(1, false)], selStr := [],
           selLines := [], dump := [], dumpLines := [], eng := E.init, inErr := 0,
           ioErr := 0 }

/-- `IPhreeqc::load_db` (`IPhreeqc.cpp:578-624`) and `load_db_str` (`IPhreeqc.cpp:650-688`):
the number of errors, or how the call was left. -/
def loadDb (E : Engine χ) (routine : Text) (input : Text ⊕ Text) (s : St χ) :
    St χ × Res :=
  let s := unload E s
  let fin (s : St χ) : St χ × Res :=
    ({ s with dead := false, dbLoaded := (s.inputErrors == 0) }, .ret s.inputErrors)
  match input with
  | .inr msg => fin (errorMsg s msg)
  | .inl t =>
    if s.dead then (s, .ub)
    else
      let r := E.readDb s.eng s.sw t
      let s := { apps s r.1 with eng := r.2.2 }
      match r.2.1 with
      | .fin => fin s
      | .stop m => fin (errorMsg s m)
      | .thrown _ => ({ errorMsg s (thrownMsg routine none) with dead := true }, .thrown)

/-- `IPhreeqc::test_db`, `IPhreeqc.cpp:1055-1070`. -/
def testDb (E : Engine χ) (s : St χ) : St χ × Res :=
  let t := E.testInput s.eng
  let p := runString E t { s with eng := E.setReading s.eng true }
  match p.2 with
  | .ret n => ({ p.1 with eng := E.setReading p.1.eng false }, .ret n)
  | r => (p.1, r)

/-- The three file switches off, `IPhreeqc.cpp:628-634, 692-698`. -/
def quiet (s : St χ) : St χ :=
  { s with sw := { s.sw with errFile := false, outFile := false, logFile := false } }

/-- The test run, if the database could be read, `IPhreeqc.cpp:636-640, 700-704`. -/
def tested (E : Engine χ) : St χ × Res → St χ × Res
  | (s, .ret 0) => testDb E s
  | p => p

/-- The three switches put back, if the call gets there, `IPhreeqc.cpp:642-647, 706-711`. -/
def restore (w : Switches) : St χ × Res → St χ × Res
  | (s, .ret n) =>
    ({ s with sw := { s.sw with errFile := w.errFile, outFile := w.outFile,
                                logFile := w.logFile } }, .ret n)
  | p => p

/-- `IPhreeqc::LoadDatabase` (`IPhreeqc.cpp:626-648`) and `LoadDatabaseString`
(`IPhreeqc.cpp:690-712`): three switches are saved, cleared, and put back at the end. -/
def load (E : Engine χ) (routine : Text) (input : Text ⊕ Text) (s : St χ) : St χ × Res :=
  restore s.sw (tested E (loadDb E routine input (quiet s)))

/-- `IPhreeqc::LoadDatabase`, `IPhreeqc.cpp:626-648`. -/
def loadDatabase (E : Engine χ) (name : Text) (content : Option Text) (s : St χ) :
    St χ × Res :=
  load E "LoadDatabase".toList
    (match content with
     | some t => .inl t
     | none => .inr (unableMsg "LoadDatabase".toList name)) s

/-- `IPhreeqc::LoadDatabaseString`, `IPhreeqc.cpp:690-712`. -/
def loadDatabaseString (E : Engine χ) (t : Text) (s : St χ) : St χ × Res :=
  load E "LoadDatabaseString".toList (.inl t) s

/-- `IPhreeqc::ListComponents`, `IPhreeqc.cpp:561-576`, called by `GetComponent` and
`GetComponentCount` (`IPhreeqc.cpp:139-159`). -/
def listComponents (E : Engine χ) (s : St χ) : St χ :=
  if s.updComp then { s with comps := E.components s.eng, updComp := false } else s

/-- `IPhreeqc::SetCurrentSelectedOutputUserNumber`, `IPhreeqc.cpp:944-952`. -/
def setCurrent (n : Int) (s : St χ) : St χ × Bool :=
  if 0 ≤ n then ({ s with cur := n }, true) else (s, false)

/-- `IPhreeqc::SetSelectedOutputStringOn`, `IPhreeqc.cpp:1050-1053`. -/
def setSelString (b : Bool) (s : St χ) : St χ :=
  { s with selOn := OMap.insert s.selOn s.cur b }

/-- `IPhreeqc::GetSelectedOutputValue`, `IPhreeqc.cpp:442-496`, without the value: the error
texts are cleared, and a message is added if the lookup gives one. -/
def selValue (complaint : Option Text) (s : St χ) : St χ :=
  let s := { s with err := [] }
  match complaint with
  | none => s
  | some m => updateErrors { s with err := s.err ++ m }

/-- Switches with a setter, `IPhreeqc.cpp:963-971, 981-994, 1004-1012, 1022-1030`. -/
inductive Switch where
  | outFile | logFile | errFile | dumpFile | dumpStr | outStr | logStr | errStr | errorOn
  deriving DecidableEq, Repr

/-- The setters of `Switch`, same lines. -/
def Switches.set (w : Switches) (b : Bool) : Switch → Switches
  | .outFile => { w with outFile := b }
  | .logFile => { w with logFile := b }
  | .errFile => { w with errFile := b }
  | .dumpFile => { w with dumpFile := b }
  | .dumpStr => { w with dumpStr := b }
  | .outStr => { w with outStr := b }
  | .logStr => { w with logStr := b }
  | .errStr => { w with errStr := b }
  | .errorOn => { w with errorOn := b }

/-- Calls of a user. -/
inductive Op where
  | accumulate (l : Text)
  | clearAccumulated
  | runAccumulated
  | runString (t : Text)
  | runFile (name : Text) (content : Option Text)
  | loadDatabase (name : Text) (content : Option Text)
  | loadString (t : Text)
  | setSwitch (w : Switch) (b : Bool)
  | setCurrent (n : Int)
  | setSelString (b : Bool)
  | components
  | selValue (complaint : Option Text)
  | addError (t : Text)
  | addWarning (t : Text)
  deriving DecidableEq, Repr

/-- One call: `IPhreeqc.cpp`, lines as cited at the functions; `AddError` and `AddWarning` are
`IPhreeqc.cpp:119-127`, `ClearAccumulatedLines` `IPhreeqc.cpp:129-132`. -/
def step (E : Engine χ) (s : St χ) : Op → St χ × Res
  | .accumulate l => (IPq.accumulateLine l s, .ret 0)
  | .clearAccumulated => ({ s with acc := [] }, .ret 0)
  | .runAccumulated => IPq.runAccumulated E s
  | .runString t => IPq.runString E t s
  | .runFile f c => IPq.runFile E f c s
  | .loadDatabase f c => IPq.loadDatabase E f c s
  | .loadString t => IPq.loadDatabaseString E t s
  | .setSwitch w b => ({ s with sw := s.sw.set b w }, .ret 0)
  | .setCurrent n => ((IPq.setCurrent n s).1, .ret 0)
  | .setSelString b => (IPq.setSelString b s, .ret 0)
  | .components => (IPq.listComponents E s, .ret 0)
  | .selValue c => (IPq.selValue c s, .ret 0)
  | .addError t => ({ s with err := s.err ++ t }, .ret 0)
  | .addWarning t => ({ s with warn := s.warn ++ t }, .ret 0)

/-- A new instance, `IPhreeqc.cpp:24-66`, `PHRQ_io.cpp:24-50`. -/
def fresh (E : Engine χ) : St χ :=
  { dbLoaded := false, clearAcc := false, updComp := true,
    sw := { outFile := false, logFile := false, errFile := false, dumpFile := false,
            dumpStr := false, outStr := false, logStr := false, errStr := true,
            errorOn := true },
    logOn := false, punchOn := true, acc := [], err := [], warn := [], errLines := [],
    warnLines := [], out := [], outLines := [], log := [], logLines := [], cur := 1,
    selOn := [(1, false)], selStr := [], selLines := [], dump := [], dumpLines := [],
    comps := [], inErr := 0, ioErr := 0, dead := false, eng := E.init }

/-- A sequence of calls: the state, and each call with what it gave. -/
def session (E : Engine χ) (s : St χ) : List Op → St χ × List (Op × Res)
  | [] => (s, [])
  | o :: os =>
    let p := step E s o
    let q := session E p.1 os
    (q.1, (o, p.2) :: q.2)

/-! ## The getters -/

/-- `IPhreeqc::GetOutputString`, `IPhreeqc.cpp:327-335`. -/
def getOutputString (s : St χ) : Text :=
  if s.sw.outStr = false then "GetOutputString: OutputStringOn not set.\n".toList else s.out

/-- `IPhreeqc::GetLogString`, `IPhreeqc.cpp:272-280`. -/
def getLogString (s : St χ) : Text :=
  if s.sw.logStr = false then "GetLogString: LogStringOn not set.\n".toList else s.log

/-- `IPhreeqc::GetDumpString`, `IPhreeqc.cpp:176-184`. -/
def getDumpString (s : St χ) : Text :=
  if s.sw.dumpStr = false then "GetDumpString: DumpStringOn not set.\n".toList else s.dump

/-- `IPhreeqc::GetErrorString`, `IPhreeqc.cpp:221-235`. -/
def getErrorString (s : St χ) : Text :=
  if s.sw.errorOn = false then "GetErrorString: ErrorOn not set.\n".toList
  else if s.sw.errStr = false then "GetErrorString: ErrorStringOn not set.\n".toList
  else s.err

/-- `IPhreeqc::GetWarningString`, `IPhreeqc.cpp:540-544`. -/
def getWarningString (s : St χ) : Text := s.warn

/-- `IPhreeqc::GetSelectedOutputString`, `IPhreeqc.cpp:399-413`. -/
def getSelString (s : St χ) : Text :=
  match OMap.find s.selOn s.cur with
  | none => "GetSelectedOutputString: SelectedOutputStringOn not set.\n".toList
  | some _ => (OMap.find s.selStr s.cur).getD []

/-- A line by number from a list of lines, empty if there is none:
`GetOutputStringLine`, `GetLogStringLine`, `GetDumpStringLine`, `GetErrorStringLine`,
`GetWarningStringLine` (`IPhreeqc.cpp:337-345, 282-290, 186-194, 237-245, 546-554`).  The
counts are the sizes of the lists (`IPhreeqc.cpp:347-350, 292-295, 196-199, 247-250,
556-559`). -/
def lineAt (ls : List Text) (n : Int) : Text :=
  if n < 0 ∨ (ls.length : Int) ≤ n then []
  else match ls[n.toNat]? with
    | some l => l
    | none => []

/-- `IPhreeqc::GetSelectedOutputStringLineCount`, `IPhreeqc.cpp:427-435`. -/
def selLineCount (s : St χ) : Nat :=
  match OMap.find s.selLines s.cur with
  | some ls => ls.length
  | none => 0

/-- `IPhreeqc::GetSelectedOutputStringLine`, `IPhreeqc.cpp:415-425`. -/
def selLineAt (s : St χ) (n : Int) : Text :=
  if n < 0 ∨ (selLineCount s : Int) ≤ n then []
  else match OMap.find s.selLines s.cur with
    | some ls => (match ls[n.toNat]? with
      | some l => l
      | none => [])
    | none => []

end Verif.IPq
