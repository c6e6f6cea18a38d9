import Verif.IPq.Model

/-!
# What a user of an instance expects

Stated about calls, what they gave back, and the texts the getters return.
-/

namespace Verif.IPq.Spec

open Verif.IPq

/-! ## Lines -/

/-- Lines written one after the other, each with its newline. -/
def render (ls : List Text) : Text := (ls.map (· ++ [nl])).flatten

/-- `ls` are the lines of `t`: terminated lines in order, and what is left behind the last
newline if anything is. -/
def LinesOf (t : Text) (ls : List Text) : Prop :=
  ∃ full last, (∀ l ∈ full, nl ∉ l) ∧ nl ∉ last ∧ t = render full ++ last ∧
    ls = full ++ (if last = [] then [] else [last])

/-- A line count and a line getter show the lines of a text, and nothing outside. -/
def Shows (t : Text) (count : Nat) (line : Int → Text) : Prop :=
  ∃ ls, LinesOf t ls ∧ count = ls.length ∧
    (∀ i : Nat, ∀ l, ls[i]? = some l → line i = l) ∧
    ∀ i : Int, i < 0 ∨ (count : Int) ≤ i → line i = []

/-! ## Accumulated lines -/

/-- A call as far as accumulated lines are concerned. -/
inductive Past where
  /-- a line was added -/
  | line (l : Text)
  /-- the lines were dropped: `ClearAccumulatedLines`, another run, a database -/
  | drop
  /-- `RunAccumulated` -/
  | ran
  | other
  deriving DecidableEq

/-- Which of these a call was. -/
def past : Op → Past
  | .accumulate l => .line l
  | .clearAccumulated => .drop
  | .runAccumulated => .ran
  | .runString _ => .drop
  | .runFile _ _ => .drop
  | .loadDatabase _ _ => .drop
  | .loadString _ => .drop
  | _ => .other

/-- Something later makes a line obsolete: the lines were dropped, or they were run and
lines were added after that. -/
def Superseded (later : List Past) : Prop :=
  .drop ∈ later ∨ ∃ a b l, later = a ++ .line l :: b ∧ .ran ∈ a

open Classical in
/-- The lines that the next `RunAccumulated` is to run. -/
noncomputable def pending : List Past → List Text
  | [] => []
  | .line l :: rest => if Superseded rest then pending rest else l :: pending rest
  | _ :: rest => pending rest

/-! ## Runs -/

/-- The input that a call runs, given the accumulated text. -/
def inputOf (acc : Text) : Op → Option Text
  | .runAccumulated => some acc
  | .runString t => some t
  | .runFile _ (some t) => some t
  | _ => none

/-- Calls that run or load something. -/
def runs : Op → Bool
  | .runAccumulated | .runString _ | .runFile _ _ => true
  | _ => false

/-- Calls that load a database. -/
def loads : Op → Bool
  | .loadDatabase _ _ | .loadString _ => true
  | _ => false

/-- What the last call of a kind gave. -/
def lastOf (k : Op → Bool) (h : List (Op × Res)) : Option (Op × Res) :=
  (h.filter (fun p => k p.1)).getLast?

/-- No call has been left by an exception. -/
def NoThrow (h : List (Op × Res)) : Prop := ∀ p ∈ h, p.2 ≠ .thrown

/-- The last call that ran or loaded something, if any, returned 0. -/
def LastZero (h : List (Op × Res)) : Prop :=
  ∀ p, lastOf (fun o => runs o || loads o) h = some p → p.2 = .ret 0

/-- The last call that ran or loaded something, if any, was a load or returned 0. -/
def LastCame (h : List (Op × Res)) : Prop :=
  ∀ p, lastOf (fun o => runs o || loads o) h = some p → loads p.1 = true ∨ p.2 = .ret 0

/-- The last load, if any, could not open its file. -/
def NeverRead (h : List (Op × Res)) : Prop :=
  ∀ p, lastOf loads h = some p → ∃ f, p.1 = .loadDatabase f none

/-- Every load came back. -/
def LoadsCame (h : List (Op × Res)) : Prop := ∀ p ∈ h, loads p.1 = true → ∃ n, p.2 = .ret n

/-- Every run of accumulated lines came back. -/
def RunsCame (h : List (Op × Res)) : Prop :=
  ∀ p ∈ h, p.1 = .runAccumulated → ∃ n, p.2 = .ret n

/-- The current selected output and the switches of the strings, as the user set them; a
load goes back to selected output 1 with its string off. -/
def wish : List Op → Int × (Int → Option Bool)
  | ops => ops.foldl (fun w o => match o with
      | .setCurrent n => if 0 ≤ n then (n, w.2) else w
      | .setSelString b => (w.1, fun k => if k = w.1 then some b else w.2 k)
      | .loadDatabase _ _ | .loadString _ => (1, fun k => if k = 1 then some false else none)
      | _ => w) (1, fun k => if k = 1 then some false else none)

/-- Everything a run said, the message that stopped it included. -/
def said (evs : List Ev) : Ending → List Ev
  | .stop m => evs ++ [.err m]
  | _ => evs

/-- The error messages among them. -/
def errors (evs : List Ev) : List Text :=
  evs.filterMap (fun e => match e with
    | .err m => some m
    | _ => none)

/-- The warnings among them. -/
def warnings (evs : List Ev) : List Text :=
  evs.filterMap (fun e => match e with
    | .warn m => some m
    | _ => none)

/-- A message as it is shown. -/
def shown (kind : String) (ms : List Text) : Text :=
  (ms.map (fun m => kind.toList ++ m ++ ['\n'])).flatten

/-- What belongs in the output: the output itself, warnings, and errors. -/
def printed (evs : List Ev) : Text :=
  (evs.map (fun e => match e with
    | .out t => t
    | .warn m => shown "WARNING: " [m]
    | .err m => shown "ERROR: " [m]
    | _ => [])).flatten

/-- Whether a switch that the run turns itself is on behind `evs`. -/
def onAfter (turn : Ev → Option Bool) (start : Bool) (evs : List Ev) : Bool :=
  match (evs.filterMap turn).getLast? with
  | some b => b
  | none => start

/-- The log is turned on and off by the input (`PRINT; -logfile`). -/
def turnLog : Ev → Option Bool
  | .logOn b => some b
  | _ => none

/-- Selected output is turned on and off by the input (`PRINT; -selected_output`). -/
def turnPunch : Ev → Option Bool
  | .punchOn b => some b
  | _ => none

/-- What belongs in the log. -/
def logged (start : Bool) (evs : List Ev) : Text :=
  ((List.range evs.length).map (fun i =>
    if onAfter turnLog start (evs.take i) then
      match evs[i]? with
      | some (.log t) => t
      | some (.warn m) => shown "WARNING: " [m]
      | some (.err m) => shown "ERROR: " [m]
      | _ => []
    else [])).flatten

/-- What belongs in the selected output `n`. -/
def punched (n : Int) (start : Bool) (evs : List Ev) : Text :=
  ((List.range evs.length).map (fun i =>
    if onAfter turnPunch start (evs.take i) then
      match evs[i]? with
      | some (.punch k t) => if k = n then t else []
      | _ => []
    else [])).flatten

/-- The dump text behind a run: what was there, unless a dump replaced it, and every text
appended after that. -/
inductive Dumped (start : Text) : List (Bool × Text) → Text → Prop where
  | appended (ds : List (Bool × Text)) (h : ∀ d ∈ ds, d.1 = true) :
      Dumped start ds (start ++ (ds.map Prod.snd).flatten)
  | replaced (ds : List (Bool × Text)) (t : Text) (ds' : List (Bool × Text))
      (h : ∀ d ∈ ds', d.1 = true) :
      Dumped start (ds ++ (false, t) :: ds') (t ++ (ds'.map Prod.snd).flatten)

/-- The dumps of a run. -/
def dumps (evs : List Ev) : List (Bool × Text) :=
  evs.filterMap (fun e => match e with
    | .dump a t => some (a, t)
    | _ => none)

/-! ## Switches -/

/-- Value of a switch. -/
def Value (w : Switches) : Switch → Bool
  | .outFile => w.outFile
  | .logFile => w.logFile
  | .errFile => w.errFile
  | .dumpFile => w.dumpFile
  | .dumpStr => w.dumpStr
  | .outStr => w.outStr
  | .logStr => w.logStr
  | .errStr => w.errStr
  | .errorOn => w.errorOn

/-- What the user gave a switch last. -/
def lastSet (w : Switch) (ops : List Op) : Option Bool :=
  (ops.filterMap (fun o => match o with
    | .setSwitch v b => if v = w then some b else none
    | _ => none)).getLast?

/-- At the start only the error texts are on. -/
def atStart : Switch → Bool
  | .errStr | .errorOn => true
  | _ => false

/-- An engine that writes selected output only for the selected outputs that it has, and
has those it had when it read its input. -/
def Tidy {χ : Type} (E : Engine χ) : Prop :=
  ∀ x sw t, (∀ n u, Ev.punch n u ∈ (E.run x sw t).1 → n ∈ E.selNums (E.run x sw t).2.2) ∧
    (E.selNums (E.run x sw t).2.2).Nodup

end Verif.IPq.Spec
