import Verif.Grid.Model

/-!
# The text a reaction step writes to the output file

`RunCells` (`/repo/src/PhreeqcRM.cpp:9824-9943`) lets each worker collect the printout of its
cells in a string stream of its own and writes the streams to the output file one after the
other. Serial and OpenMP build. Only what bears on that text is modelled: the selected output,
the clock times and the partition of the solids of the unsaturated zone are left out.
-/

namespace Verif.Print

open Verif.Mapping Verif.Transfer Verif.Grid

/-- An instance of IPhreeqc with state `χ`. `run i on x` is `RunString` of the input
`RUN_CELLS; -cells i` with the output string switched by `on`
(`/repo/src/PhreeqcRM.cpp:10369-10378`): the new state, whether errors were counted, and the
member `OutputString`. Simplification: `RunString` itself neither throws nor fails to return. -/
structure Engine (χ : Type) where
  run : Int → Bool → χ → χ × Bool × String

/-- The members of the module that are read. `num` is the formatting of a `double` by the
stream. -/
structure Cfg where
  mode : Int                 -- error_handler_mode
  time : ℚ
  conv : ℚ                   -- time_conversion
  on : Bool                  -- print_chemistry_on[0]
  mask : List Int            -- print_chem_mask_root
  sat : List ℚ               -- saturation_root
  map : MapState
  num : ℚ → String

/-- `IPhreeqc::GetOutputString`, `/repo/src/IPhreeqcPhast/IPhreeqc/IPhreeqc.cpp:327-335`: a
message when the string is off. -/
def getOutputString (on : Bool) (s : String) : String :=
  if on then s else "GetOutputString: OutputStringOn not set.\n"

/-- The loop writing the grid cells of a reaction cell, `/repo/src/PhreeqcRM.cpp:10401-10404`
and `:10442-10445`. -/
def gridCells : List Nat → String
  | [] => ""
  | b :: bs => toString b ++ " " ++ gridCells bs

/-- The heading of a cell up to the list of its grid cells,
`/repo/src/PhreeqcRM.cpp:10398-10404` and `:10439-10445`. -/
def heading (c : Cfg) (i : Int) (back : List Nat) : String :=
  "Time:                   " ++ c.num (c.time * c.conv) ++ "\n" ++
  "Chemistry cell:         " ++ toString i ++ "\n" ++
  "Grid cell(s) (0-based): " ++ gridCells back

/-- One pass of the loop over cells, `/repo/src/PhreeqcRM.cpp:10333-10476`: the state of the
instance, the stream, and whether `PhreeqcRMStop` was thrown. -/
def cellStep {χ : Type} (E : Engine χ) (c : Cfg) (i : Int) (x : χ) (out : String) :
    Out (χ × String × Bool) := do
  let back ← idx c.map.backward i
  let j ← idx back 0
  let m ← idx c.mask j
  let pr := c.on && m != 0
  let s ← idx c.sat j
  if s ≤ 1 / 1000000 then
    pure (x, if pr then out ++ (heading c i back ++ "\nCell is dry.\n") else out, false)
  else
    let r := E.run i pr x
    if r.2.1 then
      if c.mode < 3 then
        pure (r.1, out ++ getOutputString pr r.2.2, true)
      else
        pure (r.1, if pr then out ++ (heading c i back ++ "\nCalculation failure.\n") else out,
          false)
    else
      pure (r.1, if pr then
        out ++ (heading c i back ++ "\n") ++ getOutputString pr r.2.2 else out, false)

/-- The loop of one worker, `/repo/src/PhreeqcRM.cpp:10333-10476`, left by the exception. -/
def cellLoop {χ : Type} (E : Engine χ) (c : Cfg) :
    List Int → χ → String → Out (χ × String × Bool)
  | [], x, out => pure (x, out, false)
  | i :: is, x, out => do
    let r ← cellStep E c i x out
    if r.2.2 then pure r else cellLoop E c is r.1 r.2.1

/-- The workers one after the other, each with a fresh stream
(`/repo/src/PhreeqcRM.cpp:9870-9895`), and the writing of the streams (`:9903-9911`): the states
of the workers, the text written so far, whether some worker was stopped. The threads share
nothing that is written, so that running them in turn is no restriction; the streams are written
after the join, in the order of the workers. -/
def workers {χ : Type} (E : Engine χ) (c : Cfg) :
    List (Int × Int) → List χ → String → Out (List χ × String × Bool)
  | [], xs, file => pure (xs, file, false)
  | _ :: _, [], _ => .ub
  | r :: rs, x :: xs, file => do
    let a ← cellLoop E c (rangeCells r) x ""
    let b ← workers E c rs xs (if c.on then file ++ a.2.1 else file)
    pure (a.1 :: b.1, b.2.1, a.2.2 || b.2.2)

/-- `RunCells` as seen in the output file, `/repo/src/PhreeqcRM.cpp:9868-9914`: the text written
and whether the call is going to report an error. -/
def runCells {χ : Type} (E : Engine χ) (c : Cfg) (xs : List χ) : Out (List χ × String × Bool) :=
  workers E c c.map.ranges xs ""

end Verif.Print
