import Verif.Base

/-!
# Messages and the files they go to

`OpenFiles`, `CloseFiles`, `SetFilePrefix`, `SetScreenOn`, `SetErrorOn` and the functions that write messages
(`/repo/src/PhreeqcRM.cpp`), with the functions of `PHRQ_io` that they call
(`/repo/src/IPhreeqcPhast/IPhreeqc/phreeqcpp/common/PHRQ_io.cpp`).

Simplifications. Build without MPI, one thread, the `PHRQ_io` that the constructor makes, error handler mode 0, not the
Python build (which switches the screen off, `BMIPhreeqcRM.cpp:160-162`). Strings do
not contain the character 0. A file is the list of the pieces of text written to it, and a piece is in the file when it has
been written (no buffering, no full disk). Nobody else writes to the files. The switches of the workers (their own messages) are
left out. The rest of the messages that other functions write (such as the printout of `RunCells`) goes through
the functions modelled here.
-/

namespace Verif.Files

/-- A file system: the pieces in each file that exists. -/
abbrev FS := String → Option (List String)

/-- The members concerned. `output_on` is true and not changed by the module (PHRQ_io.cpp:38); the error stream is the screen
(`PhreeqcRM.cpp:227`). -/
structure St where
  fs : FS
  pfx : String              -- file_prefix
  out : Option String       -- output_ostream: the file open
  log : Option String       -- log_ostream
  logOn : Bool              -- log_on
  errorOn : Bool            -- error_on
  screenOn : Bool           -- screen_on
  screen : List String
  err : List String         -- phreeqcrm_error_string

/-- A new module: PHRQ_io.cpp:24-50. The prefix is "myrun", `PhreeqcRM.cpp:321`. -/
def new (fs : FS) : St :=
  { fs := fs, pfx := "myrun", out := none, log := none, logOn := false, errorOn := true,
    screenOn := true, screen := [], err := [] }

/-- `(*stream) << str`. -/
def append (fs : FS) (n t : String) : FS :=
  fun k => if k = n then (fs k).map (· ++ [t]) else fs k

/-- `PHRQ_io::output_msg`, PHRQ_io.cpp:99-108. -/
def St.outputMsg (s : St) (t : String) : St :=
  match s.out with
  | some n => { s with fs := append s.fs n t }
  | none => s

/-- `PHRQ_io::log_msg`, PHRQ_io.cpp:136-144. -/
def St.logMsg (s : St) (t : String) : St :=
  match s.log with
  | some n => if s.logOn then { s with fs := append s.fs n t } else s
  | none => s

/-- `PHRQ_io::screen_msg`, PHRQ_io.cpp:273-281. -/
def St.screenMsg (s : St) (t : String) : St :=
  if s.screenOn then { s with screen := s.screen ++ [t] } else s

/-- `PHRQ_io::error_msg` without `stop`, PHRQ_io.cpp:226-251. -/
def St.errorMsg (s : St) (t : String) : St := if s.errorOn then s.screenMsg t else s

/-- `PHRQ_io::warning_msg`, PHRQ_io.cpp:253-271. -/
def St.warningMsg (s : St) (t : String) : St :=
  ((if s.errorOn then s.screenMsg (t ++ "\n") else s).logMsg (t ++ "\n")).outputMsg (t ++ "\n")

/-- `PhreeqcRM::ErrorMessage`, `PhreeqcRM.cpp:2777-2793`. -/
def St.errorMessage (s : St) (t : String) (prepend : Bool) : St :=
  let e := (if prepend then "ERROR: " else "") ++ t ++ "\n"
  ((({ s with err := s.err ++ [e] } : St).outputMsg e).logMsg e).errorMsg e

/-- `DecodeError`, `PhreeqcRM.cpp:1943-1977`, for the two codes used here; where `openFiles` calls it
before a message it stands for `ErrorHandler`, `PhreeqcRM.cpp:111-120`. -/
def St.decode (s : St) : IRM → St
  | .invalidArg => s.errorMessage "Invalid argument." true
  | .fail => s.errorMessage "PhreeqcRM failed." true
  | _ => s

/-- `ReturnHandler`, `PhreeqcRM.cpp:9633-9662`, mode 0. -/
def St.finish (s : St) (r : IRM) (name : String) : St × IRM :=
  if r.toInt < 0 then
    (((s.decode r).errorMessage name true).errorMessage "\n" false, r)
  else (s, r)

/-- `PHRQ_io::log_close` and `output_close` (PHRQ_io.cpp:92-97, 129-134, `safe_close` 591-606). -/
def St.closeFiles (s : St) : St := { s with log := none, out := none }

/-- `std::ofstream(name, std::ios_base::out)`, PHRQ_io.cpp:63 with the default mode of PHRQ_io.h:57 and 67: an existing
file is emptied. -/
def create (fs : FS) (n : String) : FS := fun k => if k = n then some [] else fs k

/-- `OpenFiles`, `PhreeqcRM.cpp:7495-7532`; `ok` tells which files can be opened (`PHRQ_io::ofstream_open`,
PHRQ_io.cpp:60-72). -/
def St.openFiles (ok : String → Bool) (s : St) : St × IRM :=
  let s := ({ s with err := [] } : St).closeFiles
  let ln := s.pfx ++ ".log.txt"
  let cn := s.pfx ++ ".chem.txt"
  if ok ln then
    let s := { s with fs := create s.fs ln, log := some ln, logOn := true }
    if ok cn then ({ s with fs := create s.fs cn, out := some cn } : St).finish .ok
        "PhreeqcRM::OpenFiles"
    else ((s.decode .fail).errorMessage "Failed to open .chem.txt file" true).finish .fail
      "PhreeqcRM::OpenFiles"
  else ((s.decode .fail).errorMessage "Failed to open .log.txt file" true).finish .fail
      "PhreeqcRM::OpenFiles"

/-- `SetFilePrefix`, `PhreeqcRM.cpp:11781-11813`. -/
def St.setPrefix (s : St) (p : String) : St × IRM :=
  let s := { s with err := [], pfx := p }
  s.finish (if p = "" then .invalidArg else .ok) "PhreeqcRM::SetFilePrefix"

/-- The calls. -/
inductive Call
  | open | close
  | setPrefix (p : String)
  | setScreenOn (b : Bool) | setErrorOn (b : Bool)
  | outputMessage (t : String)    -- PhreeqcRM.cpp:7535-7539
  | logMessage (t : String)       -- PhreeqcRM.cpp:6999-7003
  | screenMessage (t : String)    -- PhreeqcRM.cpp:11012-11016
  | warningMessage (t : String)   -- PhreeqcRM.cpp:13021-13030
  | errorMessage (t : String) (prepend : Bool)
  deriving DecidableEq

/-- A call. `SetScreenOn` `PhreeqcRM.cpp:12154-12167`, `SetErrorOn` 11765-11778, `CloseFiles` 1018-1032. -/
def St.call (ok : String → Bool) (s : St) : Call → St × IRM
  | .open => s.openFiles ok
  | .close => (({ s with err := [] } : St).closeFiles, .ok)
  | .setPrefix p => s.setPrefix p
  | .setScreenOn b => ({ s with err := [], screenOn := b }, .ok)
  | .setErrorOn b => ({ s with err := [], errorOn := b }, .ok)
  | .outputMessage t => (s.outputMsg t, .ok)
  | .logMessage t => (s.logMsg t, .ok)
  | .screenMessage t => (s.screenMsg t, .ok)
  | .warningMessage t => (s.warningMsg t, .ok)
  | .errorMessage t p => (s.errorMessage t p, .ok)

/-- Calls one after the other. -/
def run (ok : String → Bool) (s : St) (cs : List Call) : St :=
  cs.foldl (fun s c => (s.call ok c).1) s

end Verif.Files
