import Verif.SelOut.Model

/-!
# The check of the selected output of the threads

`CheckSelectedOutput` (`/repo/src/PhreeqcRM.cpp:804-1008`), which `RunCells` calls in builds without `NDEBUG`
(lines 9916-9918). The branch without MPI. `ErrorHandler` throws, so that the `return IRM_FAIL` after it is not reached.
-/

namespace Verif.Agree

open Verif.OMap Verif.Grid Verif.SelOut

/-- `CSelectedOutputMap` of a worker (`IPhreeqcPhast.h:52`). -/
abbrev W := SMap Int Table

/-- `for (...) f(worker)`. -/
def pass (f : W → Out Unit) : List W → Out Unit
  | [] => .ok ()
  | w :: ws => do f w; pass f ws

/-- Number of selected outputs, `PhreeqcRM.cpp:934-938`. -/
def sizes (w0 w : W) : Out Unit := if w.length ≠ w0.length then .throw else .ok ()

/-- Number of columns, `PhreeqcRM.cpp:946-955`. The second iterator is not tested for the end. -/
def columns : W → W → Out Unit
  | [], _ => .ok ()
  | _ :: _, [] => .ub
  | a :: r, b :: s => if a.2.colCount ≠ b.2.colCount then .throw else columns r s

/-- One heading, `PhreeqcRM.cpp:969-982`. -/
def heading (a b : Table) (i : Nat) : Out Unit := do
  let x ← a.get 0 i
  let y ← b.get 0 i
  match x, y with
  | .val (.str h), .val (.str k) => if h ≠ k then .throw else .ok ()
  | _, _ => .throw

/-- The headings of one table, `PhreeqcRM.cpp:967-983`, from column `i` on, `n` columns. -/
def row (a b : Table) : Nat → Nat → Out Unit
  | _, 0 => .ok ()
  | i, n + 1 => do heading a b i; row a b (i + 1) n

/-- Headings, `PhreeqcRM.cpp:963-984`. -/
def headings : W → W → Out Unit
  | [], _ => .ok ()
  | _ :: _, [] => .ub
  | a :: r, b :: s => do row a.2 b.2 0 a.2.colCount; headings r s

/-- The sum of rows of selected output `u`, `PhreeqcRM.cpp:993-998`. The iterator is not tested. -/
def rows (u : Int) : List W → Out Int
  | [] => .ok 0
  | w :: ws =>
    match find w u with
    | none => .ub
    | some t => do
      let c ← rows u ws
      .ok ((t.rowCount : Int) - 1 + c)

/-- Rows of all selected outputs, `PhreeqcRM.cpp:990-1004`; `us` are the user numbers that `GetNthSelectedOutputUserNumber`
gives for 0, 1, ... -/
def count (chem : Int) (workers : List W) : List Int → Out Unit
  | [] => .ok ()
  | u :: us => do
    let c ← rows u workers
    if c ≠ chem then .throw else count chem workers us

/-- `CheckSelectedOutput`, `PhreeqcRM.cpp:804-1008`. `workers` are the workers of the threads, `tasks` is `mpi_tasks`, the bound of the
loops at lines 932, 944 and 961, at most the number of workers. -/
def check (on : Bool) (tasks : Nat) (chem : Int) (workers : List W) (us : List Int) : Out Unit :=
  if on = false then .ok ()
  else if workers.length ≤ 1 then .ok ()
  else
    match workers with
    | [] => .ok ()
    | w0 :: ws => do
      let others := ws.take (tasks - 1)
      pass (sizes w0) others
      pass (columns w0) others
      pass (headings w0) others
      count chem workers (us.take w0.length)

/-- `mpi_tasks` without MPI, `PhreeqcRM.cpp:272`. -/
def mpiTasks : Nat := 1

end Verif.Agree
