import Verif.Base
import Mathlib.Algebra.Order.Field.Rat

/-!
# Reaction steps (C61)

Model of the time steps of kinetic reactions, of the amounts of stepwise reactions and of the
loop that runs the steps. Files are in `/repo/src/IPhreeqcPhast/IPhreeqc/phreeqcpp/`.

Simplifications: the chemistry of a step (`run_reactions`) is not modelled, only the times it is
given; numbers are rational.
-/

namespace Verif.Steps

/-- The members of `cxxKinetics` that fix the time steps (cxxKinetics.h); `cxxReaction` has the
same three (Reaction.h: `steps`, `equalIncrements`, `countSteps`). -/
structure Sched where
  steps : List ℚ
  equal : Bool
  count : Int
  deriving DecidableEq, Repr

/-- A new `cxxKinetics` (cxxKinetics.cxx:30-45). -/
def Sched.new : Sched := ⟨[], false, 0⟩

/-- `steps[i]` of a `std::vector`. -/
def nth (l : List ℚ) (i : Int) : Out ℚ :=
  if 0 ≤ i then
    match l[i.toNat]? with
    | some x => .ok x
    | none => .ub
  else .ub

/-- A quotient; a zero divisor gives NaN or infinity. -/
def quot (a b : ℚ) : Out ℚ := if b = 0 then .ub else .ok (a / b)

/-- `cxxKinetics::Get_reaction_steps` (cxxKinetics.cxx:475-483),
`cxxReaction::Get_reaction_steps` (Reaction.cxx:267-275). -/
def Sched.reactionSteps (k : Sched) : Int := if k.equal then k.count else k.steps.length

/-- `cxxKinetics::Current_step` (cxxKinetics.cxx:484-541). -/
def Sched.currentStep (k : Sched) (incremental : Bool) (step : Int) : Out ℚ :=
  if k.steps.length = 0 then .ok 1
  else if incremental = false then
    if k.equal = false then
      if step > k.steps.length then nth k.steps (k.steps.length - 1) else nth k.steps (step - 1)
    else
      if step > k.count then nth k.steps 0
      else do
        let t ← nth k.steps 0
        quot (step * t) k.count
  else
    if k.equal = false then
      if step > k.steps.length then nth k.steps (k.steps.length - 1) else nth k.steps (step - 1)
    else
      if step > k.count then .ok 0
      else do
        let t ← nth k.steps 0
        quot t k.count

/-- The step size in `add_reaction` (step.cpp:913-973), before the units are applied. -/
def Sched.stepX (r : Sched) (incremental : Bool) (step : Int) : Out ℚ :=
  if incremental = false then
    if r.equal = false ∧ r.steps.length > 0 then
      if step > r.steps.length then nth r.steps (r.steps.length - 1) else nth r.steps (step - 1)
    else if r.equal = true ∧ r.steps.length > 0 then
      if step > r.reactionSteps then nth r.steps 0
      else do
        let t ← nth r.steps 0
        quot (t * step) r.reactionSteps
    else .ok 0
  else
    if r.equal = false ∧ r.steps.length > 0 then
      if step > r.reactionSteps then nth r.steps (r.reactionSteps - 1) else nth r.steps (step - 1)
    else if r.equal = true ∧ r.steps.length > 0 then
      if step > r.reactionSteps then .ok 0
      else do
        let t ← nth r.steps 0
        quot t r.reactionSteps
    else .ok 0

/-- The clock of the loop over the steps: `rate_sim_time_start` and `rate_sim_time`. -/
structure Clock where
  start : ℚ
  now : ℚ
  deriving DecidableEq, Repr

/-- One turn of the loop as far as the time goes (mainsubs.cpp:851-879, ReadClass.cxx:776-822);
`kinTime` is the time given to `run_reactions`. -/
def Clock.turn (incremental : Bool) (kinTime : ℚ) (c : Clock) : Clock :=
  if incremental then ⟨c.start + kinTime, c.start + kinTime⟩ else ⟨c.start, kinTime⟩

/-- The loop over the steps (mainsubs.cpp:836-889, ReadClass.cxx:762-833) for a time per step
given by `f`: the times passed to `run_reactions` and the final clock. -/
def runSteps (f : Int → Out ℚ) (incremental : Bool) : Nat → Out (List ℚ × Clock)
  | 0 => .ok ([], ⟨0, 0⟩)
  | n + 1 => do
    let (ts, c) ← runSteps f incremental n
    let t ← f ((n : Int) + 1)
    .ok (ts ++ [t], c.turn incremental t)

/-- The undefined value of a number (NA.h:1). -/
def NA : ℚ := -987654321 / 10000000

/-- A cell as far as `run_as_cells` needs it: the kinetics it has and the largest number of
steps of its reaction, temperature and pressure definitions. -/
structure Cell where
  kinetics : Option Sched
  otherSteps : Int

/-- `count_steps` (ReadClass.cxx:721-751). -/
def Cell.countSteps (c : Cell) (oneStep : Bool) : Int :=
  if oneStep then 1
  else max (max 1 c.otherSteps) ((c.kinetics.map Sched.reactionSteps).getD 1)

/-- The time of one step (ReadClass.cxx:776-800). -/
def Cell.kinTime (c : Cell) (timeStep : ℚ) (incremental : Bool) (count step : Int) : Out ℚ :=
  match c.kinetics with
  | none => .ok 0
  | some k =>
    if timeStep ≠ NA then
      if incremental = false then quot (step * timeStep) count else quot timeStep count
    else k.currentStep incremental step

/-- The steps of one cell in `run_as_cells` (ReadClass.cxx:713-843). -/
def Cell.run (c : Cell) (timeStep : ℚ) (incremental oneStep : Bool) : Out (List ℚ × Clock) :=
  runSteps (c.kinTime timeStep incremental (c.countSteps oneStep)) incremental
    (c.countSteps oneStep).toNat

/-- `TOTAL_TIME` of BASIC in a reaction calculation (PBasic.cpp:4694-4721; the state is
`REACTION`, ReadClass.cxx:685): nothing but 0 without kinetics. -/
def Cell.totalTime (c : Cell) (initial : ℚ) (clock : Clock) : ℚ :=
  match c.kinetics with
  | none => 0
  | some _ => initial + clock.now

/-- What a cell reports as `TOTAL_TIME` after `RunCells`: PhreeqcRM passes the start time
`time - time_step` and the time step (PhreeqcRM.cpp:10373-10377) and allows one step
(PhreeqcRM.cpp:9873). The two numbers are taken as passed unrounded. -/
def Cell.reported (c : Cell) (time timeStep : ℚ) (incremental : Bool) : Out ℚ := do
  let r ← c.run timeStep incremental true
  .ok (c.totalTime (time - timeStep) r.2)

/-! ## Reading the steps -/

/-- A word after `-steps`: a number with what `sscanf("%d")` makes of it, `k*x`, `k*` without a
readable number, or a word that does or does not start with `i`. -/
inductive Tok where
  | num (x : ℚ) (int : Option Int)
  | rep (k : Int) (x : ℚ)
  | badRep (int : Option Int)
  | word (i : Bool)
  deriving DecidableEq, Repr

/-- `sscanf(token, "%d", &i)`. -/
def Tok.int : Tok → Option Int
  | .num _ i => i
  | .rep k _ => some k
  | .badRep i => i
  | .word _ => none

/-- The inner loop of the reader (read.cpp:2185-2204), starting with the word that began with
`i`: the first word with an integer gives the count; the words after it are returned. -/
def findCount : List Tok → Option (Int × List Tok)
  | [] => none
  | t :: ts =>
    match t.int with
    | some i => some ((i.natAbs : Int), ts)
    | none => findCount ts

theorem findCount_lt {ts : List Tok} {c : Int} {r : List Tok} (h : findCount ts = some (c, r)) :
    r.length < ts.length := by
  induction ts with
  | nil => simp [findCount] at h
  | cons t ts ih =>
    simp only [findCount] at h
    split at h
    · simp only [Option.some.injEq, Prod.mk.injEq] at h
      obtain ⟨_, rfl⟩ := h
      simp
    · have := ih h
      simp only [List.length_cons]
      omega

/-- The words after `-steps` of `KINETICS` (read.cpp:2135-2212): the definition and the number
of errors. `break` at 2182 leaves the loop. Units (2208, 2341-2348) are not modelled. -/
def readSteps (k : Sched) (errors : Nat) : List Tok → Sched × Nat
  | [] => (k, errors)
  | .num x _ :: ts => readSteps { k with steps := k.steps ++ [x] } errors ts
  | .rep n x :: ts => readSteps { k with steps := k.steps ++ List.replicate n.toNat x } errors ts
  | .badRep _ :: ts => readSteps k (errors + 1) ts
  | .word false :: ts => readSteps k errors ts
  | .word true :: ts =>
    if k.steps.length ≠ 1 then (k, errors + 1)
    else match h : findCount ts with
      | some (c, r) => readSteps { k with equal := true, count := c } errors r
      | none => ({ k with equal := true }, errors)
  termination_by ts => ts.length
  decreasing_by
    all_goals first
      | (simp; done)
      | (have := findCount_lt h; simp only [List.length_cons]; omega)

/-- The default of one second (read.cpp:2337-2340). -/
def Sched.finish (k : Sched) : Sched := if k.steps.length = 0 then { k with steps := [1] } else k

/-- The definition read by `KINETICS` from one line of steps, `none` if there is an error. -/
def readKinetics (ts : List Tok) : Option Sched :=
  let r := readSteps Sched.new 0 ts
  if r.2 = 0 then some r.1.finish else none

/-- `read_reaction_steps` (read.cpp:4553-4654) from the first word that is no number, after the
units: with exactly one step the first integer found must be positive. `none` is an error. -/
def reactionCount (r : Sched) (ts : List Tok) : Option Sched :=
  if r.reactionSteps ≠ 1 then none
  else match ts.findSome? Tok.int with
    | some i => if i > 0 then some { r with count := i, equal := true } else none
    | none => none

/-- The defaults of `REACTION` (read.cpp:4460-4472). -/
def Sched.finishReaction (r : Sched) : Sched :=
  let r := if r.steps.length = 0 then { r with steps := [1] } else r
  if r.equal = true ∧ r.count = 0 then { r with count := 1 } else r

/-! ## Temperatures -/

/-- `cxxTemperature::Temperature_for_step` (Temperature.cxx:330-374),
`cxxPressure::Pressure_for_step` (Pressure.cxx:322-366): with equal increments and another
number of temperatures than two there is only a message before the accesses. -/
def Sched.forStep (k : Sched) (step : Int) : Out ℚ :=
  if k.steps.length = 0 then .ok 1
  else if k.equal then
    if step > k.count then nth k.steps 1
    else do
      let denom : ℚ := if k.count ≤ 1 then 1 else k.count - 1
      let t0 ← nth k.steps 0
      let t1 ← nth k.steps 1
      .ok (t0 + (t1 - t0) * (step - 1) / denom)
  else
    if step > k.steps.length then nth k.steps (k.steps.length - 1) else nth k.steps (step - 1)

/-! ## Units of time -/

/-- First letters that `Utilities::convert_time` knows (common/Utils.cxx:136-177); any other
word leaves the number as it is. -/
inductive TimeUnit where
  | minute | hour | day | year | other
  deriving DecidableEq, Repr

/-- Seconds in a unit (common/Utils.cxx:142-157). -/
def TimeUnit.seconds : TimeUnit → ℚ
  | .minute => 60
  | .hour => 3600
  | .day => 3600 * 24
  | .year => 3600 * 24 * (1461 / 4)
  | .other => 1

/-- `Utilities::convert_time` (common/Utils.cxx:136-177). -/
def convertTime (t : ℚ) (i o : TimeUnit) : ℚ := t * i.seconds / o.seconds

end Verif.Steps
