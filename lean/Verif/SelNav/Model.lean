import Verif.SelOut.Model

/-!
# Choosing among selected outputs

`GetNthSelectedOutputUserNumber`, `SetNthSelectedOutput`, `SetCurrentSelectedOutputUserNumber`,
`GetSelectedOutputCount`, `GetSelectedOutputColumnCount`, `GetSelectedOutputHeading` and
`GetSelectedOutputHeadings` of `/repo/src/PhreeqcRM.cpp`, and what `RunCells`, `LoadDatabase` and
SELECTED_OUTPUT input do to what they read, without MPI.

Simplifications: of the workers only worker 0 is kept, the only one these methods look at; error handler
mode 0; messages are left out.
-/

namespace Verif.SelNav

open Verif.OMap Verif.Grid Verif.SelOut

/-- Worker 0 and the module: numbers in `SelectedOutput_map` of phreeqc in increasing order,
`CurrentSelectedOutputUserNumber` (1 at first, IPhreeqc.cpp:39), `selected_output_on`,
`CSelectedOutputMap`. -/
structure St where
  defs : List Int
  cur : Int
  on : Bool
  tables : SMap Int Table

/-- The loop of `IPhreeqc::GetNthSelectedOutputUserNumber`,
`/repo/src/IPhreeqcPhast/IPhreeqc/IPhreeqc.cpp:302-315`; VR_INVALIDARG is -3. -/
def nthFrom (i n : Int) : List Int → Int
  | [] => -3
  | k :: ks => if i = n then k else nthFrom (i + 1) n ks

/-- `GetNthSelectedOutputUserNumber`, `/repo/src/PhreeqcRM.cpp:4315-4338`. A negative number makes
`ErrorHandler` throw, and IRM_FAIL (-7) is returned. -/
def getNth (s : St) (i : Int) : Int :=
  if 0 ≤ i then
    if nthFrom 0 i s.defs < 0 then -7 else nthFrom 0 i s.defs
  else -7

/-- `IPhreeqc::SetCurrentSelectedOutputUserNumber`, IPhreeqc.cpp:944-952: the return code and the
number selected afterwards. -/
def setCur (s : St) (n : Int) : Int × St :=
  if 0 ≤ n then (0, { s with cur := n }) else (-3, s)

/-- `Int2IrmResult(i, false)`, `/repo/src/PhreeqcRM.cpp:6893-6926`. -/
def int2Irm (i : Int) : IRM :=
  if i < 0 then
    if i = -1 then .outOfMemory
    else if i = -2 then .badVarType
    else if i = -3 then .invalidArg
    else if i = -4 then .invalidRow
    else if i = -5 then .invalidCol
    else if i = -6 then .badInstance
    else .fail
  else if 0 < i then .fail
  else .ok

/-- `SetCurrentSelectedOutputUserNumber`, `/repo/src/PhreeqcRM.cpp:11538-11547`. -/
def setCurrent (s : St) (n : Int) : IRM × St :=
  if 0 ≤ n then (int2Irm (setCur s n).1, (setCur s n).2) else (int2Irm (-3), s)

/-- `SetNthSelectedOutput`, `/repo/src/PhreeqcRM.cpp:11874-11889`. -/
def setNth (s : St) (n : Int) : IRM × St :=
  if 0 ≤ n then
    if 0 ≤ nthFrom 0 n s.defs then
      (int2Irm (setCur s (nthFrom 0 n s.defs)).1, (setCur s (nthFrom 0 n s.defs)).2)
    else (int2Irm (-3), s)
  else (int2Irm (-3), s)

/-- `GetSelectedOutputCount`, `/repo/src/PhreeqcRM.cpp:4665-4670`. -/
def count (s : St) : Nat := s.tables.length

/-- `GetSelectedOutputColumnCount`, `/repo/src/PhreeqcRM.cpp:4640-4662`. -/
def columnCount (s : St) : Int :=
  if 0 ≤ s.cur then
    match find s.tables s.cur with
    | some t => t.colCount
    | none => -3
  else -3

/-- The heading in a result of `Get`, `/repo/src/PhreeqcRM.cpp:4687-4694`. -/
def asHeading : GetResult → Option Name
  | .val (.str h) => some h
  | _ => none

/-- `GetSelectedOutputHeading`, `/repo/src/PhreeqcRM.cpp:4673-4708`: the heading, or `none` for
IRM_INVALIDARG. -/
def heading (s : St) (icol : Int) : Out (Option Name) :=
  if 0 ≤ s.cur then
    match find s.tables s.cur with
    | some t => do
      let r ← t.get 0 icol
      .ok (asHeading r)
    | none => .ok none
  else .ok none

/-- `GetSelectedOutputHeadings`, `/repo/src/PhreeqcRM.cpp:4711-4738`: the headings, or `none` for
IRM_INVALIDARG. A heading that is not found is an empty string. -/
def headings (s : St) : Out (Option (List Name)) :=
  if 0 ≤ columnCount s then do
    let l ← (List.range (columnCount s).toNat).mapM (fun i : Nat => do
      let h ← heading s (i : Int)
      .ok (h.getD []))
    .ok (some l)
  else .ok none

/-- What can happen: input run in worker 0 that leaves the definitions `ds`
(IPhreeqc.cpp:1249-1268); `LoadDatabase` (IPhreeqc.cpp:1099, 1122-1123; `CSelectedOutputMap` is not
touched); `SetSelectedOutputOn`; the two ways to select; `RunCells`, with the worker's
`SelectedOutputMap` after the dummy run and the runs of the cells of worker 0. -/
inductive Op
  | define (ds : List Int)
  | loadDatabase
  | setOn (b : Bool)
  | setCurrent (n : Int)
  | setNth (n : Int)
  | runCells (dummy : SMap Int Table) (cells : List CellRun)

/-- `RunCellsThread(0)`, `/repo/src/PhreeqcRM.cpp:10259-10310`: with selected output on every definition
is selected in turn to read its headings. -/
def runCells (s : St) (dummy : SMap Int Table) (cells : List CellRun) : Out St :=
  if s.on then do
    let t ← runThread dummy cells
    .ok { (keys dummy).foldl (fun s n => (setCur s n).2) s with tables := t }
  else .ok { s with tables := [] }

/-- One event. -/
def step (s : St) : Op → Out St
  | .define ds => .ok { s with defs := ds }
  | .loadDatabase => .ok { s with defs := [], cur := 1 }
  | .setOn b => .ok { s with on := b }
  | .setCurrent n => .ok (setCurrent s n).2
  | .setNth n => .ok (setNth s n).2
  | .runCells d c => runCells s d c

end Verif.SelNav
