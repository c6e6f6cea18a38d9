import Mathlib.Data.Rat.Defs
import Mathlib.Algebra.Order.Ring.Rat

/-!
# `RUN_CELLS`: the treatment of a list of cells inside one instance

Model of `Phreeqc::run_as_cells`
(`/repo/src/IPhreeqcPhast/IPhreeqc/phreeqcpp/ReadClass.cxx:675-850`, the branch
compiled when `USE_OPTIMIZED_BUT_NOT_MUCH` is not defined) and of the functions
it calls to move entities between the numbered slots of the reactant maps.

The chemistry itself is a parameter: `Engine.react` stands for `set_initial_moles`,
`run_reactions` (`kinetics.cpp:1972-2363`) and everything below it.  It is a function
of the entities it is given (the ones at the slots of number -2, or the mixed
solutions), of the number of the cell and of the step, and of the times; starting
guesses kept from earlier calculations are not modelled.  What it may write are the
slots -1 and -2 and the calculated results waiting to be saved.
-/

namespace Verif.CellRun

/-- The reactant maps, `/repo/src/IPhreeqcPhast/IPhreeqc/phreeqcpp/Phreeqc.h:1133-1273`
(`Rxn_solution_map`, `Rxn_pp_assemblage_map`, ...). -/
inductive Kind where
  | solution | pp | exchange | surface | gas | ss | kinetics
  | reaction | temperature | pressure | mix
  deriving DecidableEq, Repr

/-- All maps: the entity of a kind at a number.  The user numbers stored inside the
entities, which every copy sets to the number of the slot, are not part of the
content. -/
abbrev Maps (D : Type) := Kind → Int → Option D

/-- `map[n] = d`. -/
def put {D : Type} (m : Maps D) (k : Kind) (n : Int) (d : D) : Maps D :=
  fun k' n' => if k' = k ∧ n' = n then some d else m k' n'

/-- `Utilities::Rxn_copy`, `/repo/src/IPhreeqcPhast/IPhreeqc/phreeqcpp/Phreeqc.h:1952-1969`. -/
def rxnCopy {D : Type} (m : Maps D) (k : Kind) (i j : Int) : Maps D :=
  match m k i with
  | some d => put m k j d
  | none => m

/-- Copies of slot `n` to the slots after it up to `e`: the loops of `saver`,
`mainsubs.cpp:951-954`, and `Utilities::Rxn_copies`, `Phreeqc.h:1971-1987`. -/
def copies {D : Type} (m : Maps D) (k : Kind) (n e : Int) : Maps D :=
  (List.range (e - n).toNat).foldl (fun m' (j : Nat) => rxnCopy m' k n (n + 1 + j)) m

/-- Which entities take part (`cxxUse`, `Use.h`): the flags `..._in` and the numbers
`n_..._user`.  The pointers are not kept: wherever one is read here it was set from
the slot of that number, and is null exactly when the flag is off. -/
structure Use where
  inn : Kind → Bool
  num : Kind → Int

/-- Where results go (`class save`, `global_structures.h:246-307`). -/
structure Save where
  on : Kind → Bool
  num : Kind → Int
  last : Kind → Int

/-- Where the water of a step comes from, `step.cpp:54-80`: one solution, or a mix
with the solutions it names (`add_mix`, `step.cpp:616-689`; a missing one counts as an
input error and is left out). -/
inductive Source (D : Type) where
  | one (d : D)
  | mixed (mix : D) (sols : List (Option D))

/-- What one step of the chemistry is given.  `cell` is what `CELL_NO` shows
(`basicsubs.cpp:3992-4026`). -/
structure Input (D : Type) where
  source : Source D
  part : Kind → Option D
  cell : Int
  step : Nat
  steps : Nat
  kinTime : ℚ
  start : ℚ
  simStart : ℚ

/-- What a successful step leaves: the results waiting to be saved (`sol` and `x`) and
the slots -1 and -2 it rewrote. -/
structure Output (D : Type) where
  sol : D
  x : Kind → D
  slot1 : Kind → Option D
  slot2 : Kind → Option D

/-- The chemistry.  `react` is `none` when the calculation ends in an error that stops
the run (`kinetics.cpp:2032-2036`, `2101-2105`, `2241-2249`). -/
structure Engine (D : Type) where
  react : Input D → Option (Output D)
  /-- numbers named by a `MIX` -/
  named : D → List Int
  /-- `Get_reaction_steps`, `Get_countTemps`, `Get_count` -/
  count : Kind → D → Nat
  /-- `cxxKinetics::Current_step` -/
  current : D → Bool → Nat → ℚ

/-- `run_info` and the switches the run depends on: `incremental_reactions`,
`run_cells_one_step` (`Phreeqc.h:1390`), `-start_time`, `-time_step`
(`runner.h`; `NA` is `none`). -/
structure Opts where
  incr : Bool
  oneStep : Bool
  start : Option ℚ
  step : Option ℚ

/-- A row of selected output: the cell, the step and the results it is made from. -/
structure Row (D : Type) where
  cell : Int
  step : Nat
  out : Output D

/-- The part of the instance that `run_as_cells` reads and writes. -/
structure St (D : Type) where
  maps : Maps D
  use : Use
  save : Save
  /-- results waiting to be saved -/
  x : Option (Output D)
  /-- `initial_total_time` -/
  time : ℚ
  /-- `rate_sim_time_start` and `rate_sim_time` -/
  simStart : ℚ
  sim : ℚ
  rows : List (Row D)
  /-- `run_info.Get_cells().Get_defined()` and `run_info.Get_run_cells()` -/
  defined : Bool
  running : Bool

/-- How a call ends: normally, by an error that stops the run (an exception that
leaves the state as it is), or by undefined behaviour. -/
inductive Res (D : Type) where
  | ok (s : St D)
  | stop (s : St D)
  | ub

/-- Kinds whose results `saver` writes when they took part, `mainsubs.cpp:956-992`. -/
def Kind.saved : Kind → Bool
  | .pp | .exchange | .surface | .gas | .ss => true
  | _ => false

/-- `set_advection(i, TRUE, TRUE, i)`, `kinetics.cpp:2401-2598`: the entities of number
`i` are put in use, and the results are to be saved to `i`.  With a `MIX` the flag of
the solution keeps its old value.  `none` is the error "Solution not found". -/
def setAdvection {D : Type} (m : Maps D) (u : Use) (v : Save) (i : Int) : Option (Use × Save) :=
  if (m .mix i).isSome || (m .solution i).isSome then
    some (
      { inn := fun k => match k with
          | .solution => if (m .mix i).isSome then u.inn .solution else true
          | k => (m k i).isSome
        num := fun k => match k with
          | .solution => i
          | k => if (m k i).isSome then i else u.num k },
      { on := fun k => match k with
          | .solution => true
          | .pp | .exchange | .surface | .gas | .ss | .kinetics => (m k i).isSome
          | k => v.on k
        num := fun k => match k with
          | .solution => i
          | .pp | .exchange | .surface | .gas | .ss | .kinetics =>
              if (m k i).isSome then i else v.num k
          | k => v.num k
        last := fun k => match k with
          | .solution => i
          | .pp | .exchange | .surface | .gas | .ss | .kinetics =>
              if (m k i).isSome then i else v.last k
          | k => v.last k })
  else none

/-- The maps after `copy_use(-2)`, `mainsubs.cpp:1596-1735`: every kind in use is copied
from its number to -2. -/
def copyMaps {D : Type} (m : Maps D) (u : Use) : Maps D :=
  [Kind.mix, .solution, .pp, .reaction, .exchange, .kinetics, .surface, .temperature,
    .pressure, .gas, .ss].foldl
    (fun m' k => if u.inn k then rxnCopy m' k (u.num k) (-2) else m') m

/-- Where results go after `copy_use(-2)`, `mainsubs.cpp:1596-1735`. -/
def copySave (u : Use) (v : Save) : Save where
  on := fun k => match k with
    | .solution => true
    | .pp | .reaction | .exchange | .kinetics | .surface | .gas | .ss => u.inn k
    | k => v.on k
  num := fun k => match k with
    | .solution => -2
    | .pp | .reaction | .exchange | .kinetics | .surface | .gas | .ss =>
        if u.inn k then -2 else v.num k
    | k => v.num k
  last := fun k => match k with
    | .solution => -2
    | .pp | .reaction | .exchange | .kinetics | .surface | .gas | .ss =>
        if u.inn k then -2 else v.last k
    | k => v.last k

/-- One block of `saver`: the result of one kind, `mainsubs.cpp:956-992`; the functions
called (`xpp_assemblage_save` at 1202-1241 and the like) do nothing for a kind that is
not in use. -/
def saveOne {D : Type} (u : Use) (v : Save) (o : Output D) (m : Maps D) (k : Kind) : Maps D :=
  if v.on k then
    copies (if u.inn k then put m k (v.num k) (o.x k) else m) k (v.num k) (v.last k)
  else m

/-- The kinetics block of `saver`, `mainsubs.cpp:993-1012`, in the state `REACTION`. -/
def saveKinetics {D : Type} (u : Use) (v : Save) (m : Maps D) : Maps D :=
  if v.on .kinetics && u.inn .kinetics then
    match m .kinetics (-2) with
    | some _ => (List.range (v.last .kinetics + 1 - v.num .kinetics).toNat).foldl
        (fun m' (j : Nat) => rxnCopy m' .kinetics (-2) (v.num .kinetics + j)) m
    | none => m
  else m

/-- `saver`, `mainsubs.cpp:929-1014`. -/
def saver {D : Type} (m : Maps D) (u : Use) (v : Save) (o : Output D) : Maps D :=
  let m1 := if v.on .solution then
      copies (put m .solution (v.num .solution) o.sol) .solution (v.num .solution)
        (v.last .solution)
    else m
  saveKinetics u v ([Kind.pp, .exchange, .surface, .gas, .ss].foldl (saveOne u v o) m1)

/-- The larger of a count so far and the one of an entity in use. -/
def atLeast {D : Type} (E : Engine D) (m : Maps D) (u : Use) (c : Nat) (k : Kind) : Nat :=
  if u.inn k then
    match m k (u.num k) with
    | some d => if c < E.count k d then E.count k d else c
    | none => c
  else c

/-- The number of steps of a cell, `ReadClass.cxx:721-751`. -/
def countSteps {D : Type} (E : Engine D) (O : Opts) (m : Maps D) (u : Use) : Nat :=
  if O.oneStep then 1
  else [Kind.reaction, .kinetics, .temperature, .pressure].foldl (atLeast E m u) 1

/-- The time of the kinetic reactions of step `s`, `ReadClass.cxx:776-800`; `none` is a
null pointer dereferenced. -/
def kinTime {D : Type} (E : Engine D) (O : Opts) (m : Maps D) (u : Use) (n s : Nat) : Option ℚ :=
  if u.inn .kinetics then
    match O.step with
    | some t => some (if O.incr then t / n else s * t / n)
    | none => (m .kinetics (-2)).map fun d => E.current d O.incr s
  else some 0

/-- `set_reaction(-2, use_mix, ...)`, `kinetics.cpp:1808-1970`, with what `step`
(`step.cpp:28-307`) reads through the pointers it sets; `none` when one of the entities
in use is not found, which stops the run. -/
def setReaction {D : Type} (E : Engine D) (m : Maps D) (u : Use) (useMix : Bool) :
    Option (Source D × (Kind → Option D)) :=
  let source := if useMix && u.inn .mix then
      (m .mix (-2)).map fun d => Source.mixed d ((E.named d).map (m .solution))
    else (m .solution (-2)).map Source.one
  let parts := [Kind.pp, .reaction, .exchange, .surface, .temperature, .pressure, .gas, .ss,
    .kinetics]
  if parts.all fun k => !u.inn k || (m k (-2)).isSome then
    source.map fun w => (w, fun k => if k ∈ parts ∧ u.inn k then m k (-2) else none)
  else none

/-- The slots -1 and -2 after a step of the chemistry. -/
def scratch {D : Type} (m : Maps D) (o : Output D) : Maps D := fun k n =>
  if n = -1 then (o.slot1 k).or (m k n)
  else if n = -2 then (o.slot2 k).or (m k n)
  else m k n

/-- `copy_use(-2)`. -/
def copyUse {D : Type} (st : St D) : St D :=
  { st with maps := copyMaps st.maps st.use, save := copySave st.use st.save }

/-- One pass of the loop over the steps of cell `i`, `ReadClass.cxx:764-833`. -/
def stepOnce {D : Type} (E : Engine D) (O : Opts) (i : Int) (n s : Nat) (st0 : St D) : Res D :=
  let st := if 1 < s ∧ O.incr = false then copyUse st0 else st0
  match kinTime E O st.maps st.use n s with
  | none => .ub
  | some kt =>
    match setReaction E st.maps st.use (!O.incr || s == 1) with
    | none => .stop st
    | some (w, p) =>
      match E.react { source := w, part := p,
                      cell := if st.use.inn .mix then st.use.num .mix else st.use.num .solution,
                      step := s, steps := n, kinTime := kt, start := st.time,
                      simStart := st.simStart } with
      | none => .stop st
      | some o =>
        let st1 := { st with
          maps := scratch st.maps o
          x := some o
          simStart := if O.incr then st.simStart + kt else st.simStart
          sim := if O.incr then st.simStart + kt else kt
          rows := st.rows ++ [⟨i, s, o⟩] }
        .ok (if s < n then { st1 with maps := saver st1.maps st1.use st1.save o } else st1)

/-- The loop over the steps that are left, `ReadClass.cxx:764-833`. -/
def stepLoop {D : Type} (E : Engine D) (O : Opts) (i : Int) (n : Nat) : List Nat → St D → Res D
  | [], st => .ok st
  | s :: rest, st =>
    match stepOnce E O i n s st with
    | .ok st' => stepLoop E O i n rest st'
    | r => r

/-- The body of the loop over the cells, `ReadClass.cxx:712-843`, for a cell that is not
skipped; `t0` is `initial_total_time_save`.  Results that were never calculated would
be read when there is no step. -/
def runCell {D : Type} (E : Engine D) (O : Opts) (t0 : ℚ) (i : Int) (st0 : St D) : Res D :=
  match setAdvection st0.maps st0.use st0.save i with
  | none => .stop { st0 with time := t0 }
  | some (u, v) =>
    let n := countSteps E O st0.maps u
    let st1 := copyUse { st0 with time := t0, use := u, save := v }
    match stepLoop E O i n ((List.range n).map (· + 1)) { st1 with simStart := 0, sim := 0 } with
    | .ok st2 =>
      match st2.x with
      | none => .ub
      | some o =>
        let m := if st2.use.inn .kinetics then
            rxnCopy st2.maps .kinetics (-2) (st2.use.num .kinetics) else st2.maps
        .ok { st2 with save := v, maps := saver m st2.use v o }
    | r => r

/-- The loop over the cells, `ReadClass.cxx:703-844`. -/
def cellLoop {D : Type} (E : Engine D) (O : Opts) (t0 : ℚ) : List Int → St D → Res D
  | [], st => .ok st
  | i :: rest, st =>
    if i < 0 then cellLoop E O t0 rest st
    else if st.maps .solution i = none ∧ st.maps .mix i = none then cellLoop E O t0 rest st
    else
      match runCell E O t0 i st with
      | .ok st' => cellLoop E O t0 rest st'
      | r => r

/-- `run_as_cells`, `ReadClass.cxx:675-850`; `cells` are the numbers of the set
`run_info.Get_cells().Get_numbers()` in order. -/
def runAsCells {D : Type} (E : Engine D) (O : Opts) (cells : List Int) (st : St D) :
    Res D :=
  if cells = [] ∨ st.defined = false then .ok st
  else
    match cellLoop E O (O.start.getD st.time) cells { st with running := true } with
    | .ok st' => .ok { st' with time := st'.time + st'.sim, defined := false, running := false }
    | r => r

end Verif.CellRun
