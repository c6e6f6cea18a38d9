import Verif.CellRun.Props

/-!
# A worker of the reaction module runs its cells

Model of the part of `PhreeqcRM::RunCellsThread` (`/repo/src/PhreeqcRM.cpp:10192-10491`)
that makes calls of `RunString`, on top of `runAsCells`: first an input without
`RUN_CELLS` (`10267-10312`), then for each active cell an input with `RUN_CELLS` for that
cell alone (`10364-10395`).

Simplified: a call of `RunString` reports an error exactly when the run stops; partition of
solids, print settings and clock times are left out; the columns of the selected output
table are those of `SelOut`, here only the rows are kept.
-/

namespace Verif.CellRun

variable {D : Type}

/-- `run_info`: what the last `RUN_CELLS` said (`runner.h:25-29`); whether its cells are
still to be run is `St.defined`. -/
structure Info where
  start : Option ℚ
  step : Option ℚ
  cells : List Int

/-- An instance with its switches. -/
structure Worker (D : Type) where
  st : St D
  info : Info
  incr : Bool
  oneStep : Bool

/-- What a run of this instance depends on. -/
def Worker.opts (w : Worker D) : Opts := ⟨w.incr, w.oneStep, w.info.start, w.info.step⟩

/-- `RunString` with an input that has no `RUN_CELLS`: `do_run` calls `run_as_cells` all the
same (`IPhreeqc.cpp:1440`).  The rows are those of this call (`IPhreeqc.cpp:1157-1162`
throws the old tables away).  The flag says that there was no error; `none` is undefined
behaviour. -/
def runIdle (E : Engine D) (w : Worker D) : Option (Worker D × Bool) :=
  match runAsCells E w.opts w.info.cells { w.st with rows := [] } with
  | .ok s => some ({ w with st := s }, true)
  | .stop s => some ({ w with st := s }, false)
  | .ub => none

/-- `RunString` with a `RUN_CELLS` block: `read_run_cells` replaces `run_info`
(`ReadClass.cxx:174-175`, `runner.cpp:23-46`), then as above. -/
def runBlock (E : Engine D) (b : Info) (w : Worker D) : Option (Worker D × Bool) :=
  runIdle E { w with info := b, st := { w.st with defined := true } }

/-- How `RunCellsThread` ends: with its table of rows (`none` is an empty row), with the
exception that makes it return a failure, or with undefined behaviour (the first row of a
table without rows is read, or the `assert` of `PhreeqcRM.cpp:10419` fails). -/
inductive End (D : Type) where
  | done (w : Worker D) (table : List (Option (Row D)))
  | thrown (w : Worker D)
  | ub

/-- The loop over the cells, `PhreeqcRM.cpp:10333-10476`; `mode` is the error handler mode,
`active i` says that the saturation of the cell exceeds 1e-6. -/
def runLoop (E : Engine D) (mode : Int) (start step : ℚ) (active : Int → Bool) :
    List Int → Worker D → List (Option (Row D)) → End D
  | [], w, table => .done w table
  | i :: rest, w, table =>
    if active i then
      match runBlock E ⟨some start, some step, [i]⟩ w with
      | none => .ub
      | some (w', true) =>
        match w'.st.rows with
        | [r] => runLoop E mode start step active rest w' (table ++ [some r])
        | _ => .ub
      | some (w', false) =>
        if mode < 3 then .thrown w'
        else runLoop E mode start step active rest w' (table ++ [none])
    else runLoop E mode start step active rest w (table ++ [none])

/-- `RunCellsThread`; `RunCells` has set `run_cells_one_step` before
(`PhreeqcRM.cpp:9873`).  An error of the first call is not noticed, as the number of errors
is compared with `< 0` (`PhreeqcRM.cpp:10274`, `10306`). -/
def runThread (E : Engine D) (mode : Int) (start step : ℚ) (active : Int → Bool)
    (cells : List Int) (w : Worker D) : End D :=
  match runIdle E { w with oneStep := true } with
  | none => .ub
  | some (w', _) => runLoop E mode start step active cells w' []

end Verif.CellRun
