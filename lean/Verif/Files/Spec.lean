import Verif.Files.Model

/-!
# What the files and the screen should hold

Written per call, without the functions of the model.
-/

namespace Verif.Files

/-- The line of an error. -/
def errorLine (t : String) (prepend : Bool) : String :=
  (if prepend then "ERROR: " else "") ++ t ++ "\n"

/-- The lines of a prefix that is refused. -/
def refusal : List String :=
  [errorLine "Invalid argument." true, errorLine "PhreeqcRM::SetFilePrefix" true, errorLine "\n" false]

/-- What a call adds to the log file. -/
def toLog : Call → List String
  | .logMessage t => [t]
  | .warningMessage t => [t ++ "\n"]
  | .errorMessage t p => [errorLine t p]
  | .setPrefix p => if p = "" then refusal else []
  | _ => []

/-- What a call adds to the output file. -/
def toOut : Call → List String
  | .outputMessage t => [t]
  | .warningMessage t => [t ++ "\n"]
  | .errorMessage t p => [errorLine t p]
  | .setPrefix p => if p = "" then refusal else []
  | _ => []

/-- The calls that neither open nor close files. -/
def Call.Plain (c : Call) : Prop := c ≠ .open ∧ c ≠ .close

/-- The value that the last call of `SetScreenOn` gave; on before the first. -/
def LastScreen (cs : List Call) (b : Bool) : Prop :=
  (∃ pre post, cs = pre ++ .setScreenOn b :: post ∧ ∀ x, .setScreenOn x ∉ post)
    ∨ (b = true ∧ ∀ x, .setScreenOn x ∉ cs)

/-- The same for `SetErrorOn`. -/
def LastError (cs : List Call) (b : Bool) : Prop :=
  (∃ pre post, cs = pre ++ .setErrorOn b :: post ∧ ∀ x, .setErrorOn x ∉ post)
    ∨ (b = true ∧ ∀ x, .setErrorOn x ∉ cs)

/-- The prefix that the last call of `SetFilePrefix` gave; "myrun" before the first. -/
def LastPrefix (cs : List Call) (p : String) : Prop :=
  (∃ pre post, cs = pre ++ .setPrefix p :: post ∧ ∀ x, .setPrefix x ∉ post)
    ∨ (p = "myrun" ∧ ∀ x, .setPrefix x ∉ cs)

/-- What a call other than `OpenFiles` adds to the screen, when the switches are `screen` and `error`. -/
def toScreen (screen error : Bool) : Call → List String
  | .screenMessage t => if screen then [t] else []
  | .warningMessage t => if screen && error then [t ++ "\n"] else []
  | .errorMessage t p => if screen && error then [errorLine t p] else []
  | .setPrefix p => if p = "" ∧ screen ∧ error then refusal else []
  | _ => []

end Verif.Files
