import Verif.Getters.Model
import Verif.Mixing.Reactants

/-!
# Setters and the error-handler mode

The settings of the module and the calls that change them (build without MPI). Every call is
`/repo/src/PhreeqcRM.cpp`:

* `SetErrorHandlerMode` `11722-11762`, `ReturnHandler` `9633-9665`, `ErrorHandler` `110-120`,
  `DecodeError` `1943-1977`, `ErrorMessage` `2777-2795`;
* `SetGeneric` `11816-11846` and its callers `SetDensityUser` `11586-11595`, `SetPorosity`
  `11931-11940`, `SetPressure` `11943-12003`, `SetRepresentativeVolume` `12122-12130`,
  `SetSaturationUser` `12142-12151`, `SetTemperature` `12228-12278`;
* `SetPrintChemistryMask` `12037-12068`, `SetUnits*` `12356-12570`;
* `SetDumpFileName` `11598-11623`, `SetFilePrefix` `11781-11813`;
* `SetTime`, `SetTimeConversion`, `SetTimeStep` `12280-12353`.

Simplifications: vector sizes fit in `int`; messages are kept as a list of lines; what
`ErrorMessage` also writes to the output, log and error streams is left out; the OpenMP loops of
`SetPressure` and `SetTemperature` run in worker order (each worker touches its own cells only).
-/

namespace Verif.Setters

open Verif.Mapping Verif.Grid Verif.Getters Verif.Mixing

/-- What the caller of an API function sees: a result code, an exception `PhreeqcRMStop`, or the
end of the process by `exit`. -/
inductive Ret
  | value (r : IRM)
  | threw
  | exited (status : Int)
  deriving DecidableEq, Repr

/-- The arrays with one value per grid cell that have a setter built on `SetGeneric`. -/
inductive Arr
  | porosity | saturation | density | pressure | temperature | volume
  deriving DecidableEq, Repr

/-- The seven unit settings. -/
inductive UnitOf
  | solution | exchange | gasPhase | kinetics | ppAssemblage | ssAssemblage | surface
  deriving DecidableEq, Repr

/-- The members of `PhreeqcRM` set by these calls; `openmp` is the build flag `USE_OPENMP`. -/
structure RM where
  openmp : Bool
  map    : MapState
  mode   : Int                 -- error_handler_mode
  err    : List String         -- phreeqcrm_error_string, by lines
  arr    : Arr → List ℚ        -- porosity_root, saturation_root, ...
  mask   : List Int            -- print_chem_mask_root
  units  : UnitOf → Int        -- units_Solution, ...
  prefx  : String              -- file_prefix
  dump   : String              -- dump_file_name
  time   : ℚ
  step   : ℚ                   -- time_step
  conv   : ℚ                   -- time_conversion
  sol    : Nat → Int → Option Soln      -- solutions of the workers
  gas    : Nat → Int → Option GasPhase  -- gas phases of the workers

/-- `ErrorMessage(text)`, `/repo/src/PhreeqcRM.cpp:2777-2795`. -/
def say (e : List String) (text : String) : List String := e ++ ["ERROR: " ++ text]

/-- `DecodeError`, `/repo/src/PhreeqcRM.cpp:1943-1977`. -/
def decodeError (e : List String) : IRM → List String
  | .ok          => e
  | .outOfMemory => say e "Out of memory."
  | .badVarType  => say e "Bad variable type."
  | .invalidArg  => say e "Invalid argument."
  | .invalidRow  => say e "Invalid row number."
  | .invalidCol  => say e "Invalid column number."
  | .badInstance => say e "Bad PhreeqcRM id."
  | .fail        => say e "PhreeqcRM failed."

/-- `ReturnHandler`, `/repo/src/PhreeqcRM.cpp:9633-9665`: the messages afterwards and what the
caller sees. The last message is an empty line (`ErrorMessage(..., false)`). -/
def returnHandler (mode : Int) (e : List String) (r : IRM) (name : String) : List String × Ret :=
  if r.toInt < 0 then
    (say (decodeError e r) name ++ [""],
      if mode = 0 then .value r
      else if mode = 1 then .threw
      else if mode = 2 then .exited r.toInt
      else .value r)
  else (e, .value r)

/-- `return this->ReturnHandler(r, name)`. -/
def RM.finish (s : RM) (r : IRM) (name : String) : RM × Ret :=
  let p := returnHandler s.mode s.err r name
  ({ s with err := p.1 }, p.2)

/-- `phreeqcrm_error_string.clear()`. -/
def RM.clear (s : RM) : RM := { s with err := [] }

/-- `SetErrorHandlerMode`, `/repo/src/PhreeqcRM.cpp:11722-11762`. -/
def setErrorHandlerMode (s : RM) (i : Int) : RM × Ret :=
  let s := { s.clear with mode := 0 }
  if i < 0 then s.finish .invalidArg "PhreeqcRM::SetErrorHandlerMode"
  else if i < 3 then { s with mode := i }.finish .ok "PhreeqcRM::SetErrorHandlerMode"
  else if s.openmp = true ∧ i = 3 then
    { s with mode := i }.finish .ok "PhreeqcRM::SetErrorHandlerMode"
  else s.finish .invalidArg "PhreeqcRM::SetErrorHandlerMode"

/-- The names given to `SetGeneric`. -/
def Arr.method : Arr → String
  | .porosity    => "SetPorosity"
  | .saturation  => "SetSaturationUser"
  | .density     => "SetDensityUser"
  | .pressure    => "SetPressure"
  | .temperature => "SetTemperature"
  | .volume      => "SetRepresentativeVolume"

/-- `SetGeneric`, `/repo/src/PhreeqcRM.cpp:11816-11846`: the exception of `ErrorHandler` is
caught, the messages stay. -/
def setGeneric (s : RM) (a : Arr) (v : List ℚ) : RM × IRM :=
  if v.length < s.map.nxyz then
    ({ s with
        err := say (decodeError s.err .invalidArg)
          ("Wrong number of elements in vector argument for " ++ a.method) }, .fail)
  else ({ s with arr := fun b => if b = a then v else s.arr b }, .ok)

/-- `backward_mapping[j][0]` and the value of the array there,
`/repo/src/PhreeqcRM.cpp:11983-11992`. -/
def primaryValue (m : MapState) (v : List ℚ) (j : Int) : Out ℚ := do
  let cells ← idx m.backward j
  let i ← idx cells 0
  idx v (i : Int)

/-- The loop of `SetPressure` over solutions, `/repo/src/PhreeqcRM.cpp:11977-11988`. -/
def pressureSol (s : RM) (v : List ℚ) : Out RM := do
  let w ← updateCells s.map.ranges (fun _ j (x : Soln) => do
    let p ← primaryValue s.map v j
    Out.ok { x with patm := p }) s.sol
  .ok { s with sol := w }

/-- The loop of `SetPressure` over gas phases, `/repo/src/PhreeqcRM.cpp:11989-11993`; the code
has one loop for both. -/
def pressureGas (s : RM) (v : List ℚ) : Out RM := do
  let w ← updateCells s.map.ranges (fun _ j (x : GasPhase) => do
    let p ← primaryValue s.map v j
    Out.ok (if x.type = .pressure then { x with totalP := p } else x)) s.gas
  .ok { s with gas := w }

/-- The loop of `SetTemperature`, `/repo/src/PhreeqcRM.cpp:12257-12269`. -/
def temperatureSol (s : RM) (v : List ℚ) : Out RM := do
  let w ← updateCells s.map.ranges (fun _ j (x : Soln) => do
    let p ← primaryValue s.map v j
    Out.ok { x with tc := p }) s.sol
  .ok { s with sol := w }

/-- What a setter does with an accepted vector besides storing it. -/
def distribute (s : RM) (a : Arr) (v : List ℚ) : Out RM :=
  match a with
  | .pressure => do
    let s ← pressureSol s v
    pressureGas s v
  | .temperature => temperatureSol s v
  | _ => .ok s

/-- `SetPorosity` and the five other setters built on `SetGeneric`. -/
def setGrid (s : RM) (a : Arr) (v : List ℚ) : Out (RM × Ret) :=
  let p := setGeneric s.clear a v
  if p.2 = .ok then do
    let s' ← distribute p.1 a v
    .ok (s'.finish .ok ("PhreeqcRM::" ++ a.method))
  else .ok (p.1.finish p.2 ("PhreeqcRM::" ++ a.method))

/-- `SetPrintChemistryMask`, `/repo/src/PhreeqcRM.cpp:12037-12068`. -/
def setMask (s : RM) (v : List Int) : RM × Ret :=
  let s := s.clear
  if v.length < s.map.nxyz then
    { s with
        err := say (decodeError s.err .invalidArg)
          "Wrong number of elements in vector argument for SetPrintChemistryMask" }.finish
      .invalidArg "PhreeqcRM::SetPrintChemistryMask"
  else { s with mask := v }.finish .ok "PhreeqcRM::SetPrintChemistryMask"

/-- Names of the unit setters. -/
def UnitOf.method : UnitOf → String
  | .solution     => "PhreeqcRM::SetUnitsSolution"
  | .exchange     => "PhreeqcRM::SetUnitsExchange"
  | .gasPhase     => "PhreeqcRM::SetUnitsGasPhase"
  | .kinetics     => "PhreeqcRM::SetUnitsKinetics"
  | .ppAssemblage => "PhreeqcRM::SetUnitsPPassemblage"
  | .ssAssemblage => "PhreeqcRM::SetUnitsSSassemblage"
  | .surface      => "PhreeqcRM::SetUnitsSurface"

/-- The range test of a unit setter, e.g. `/repo/src/PhreeqcRM.cpp:12489` (solution, `u > 0 && u
< 4`) and `:12402` (gas phase, `u >= 0 && u < 3`). -/
def unitTest : UnitOf → Int → Bool
  | .solution, u => decide (u > 0) && decide (u < 4)
  | _, u => decide (u ≥ 0) && decide (u < 3)

/-- `SetUnitsSolution` and the six other unit setters, `/repo/src/PhreeqcRM.cpp:12356-12570`. -/
def setUnits (s : RM) (k : UnitOf) (u : Int) : RM × Ret :=
  let s := s.clear
  if unitTest k u then
    { s with units := fun k' => if k' = k then u else s.units k' }.finish .ok k.method
  else s.finish .invalidArg k.method

/-- `SetDumpFileName`, `/repo/src/PhreeqcRM.cpp:11598-11623`. -/
def setDumpFileName (s : RM) (n : String) : RM × Ret :=
  let s := s.clear
  if n ≠ "" then { s with dump := n }.finish .ok "PhreeqcRM::SetDumpFileName"
  else { s with dump := s.prefx ++ ".dmp" }.finish .invalidArg "PhreeqcRM::SetDumpFileName"

/-- `SetFilePrefix`, `/repo/src/PhreeqcRM.cpp:11781-11813`. -/
def setFilePrefix (s : RM) (n : String) : RM × Ret :=
  let s := { s.clear with prefx := n }
  if s.prefx = "" then s.finish .invalidArg "PhreeqcRM::SetFilePrefix"
  else s.finish .ok "PhreeqcRM::SetFilePrefix"

/-- The calls of the model. -/
inductive Call
  | errorMode (i : Int)
  | grid (a : Arr) (v : List ℚ)
  | mask (v : List Int)
  | units (k : UnitOf) (u : Int)
  | dumpName (n : String)
  | filePrefix (n : String)
  | time (t : ℚ)
  | timeStep (t : ℚ)
  | timeConversion (t : ℚ)

/-- One call. The three time setters (`/repo/src/PhreeqcRM.cpp:12280-12353`) return `IRM_OK`
without `ReturnHandler`. -/
def exec (s : RM) : Call → Out (RM × Ret)
  | .errorMode i => .ok (setErrorHandlerMode s i)
  | .grid a v => setGrid s a v
  | .mask v => .ok (setMask s v)
  | .units k u => .ok (setUnits s k u)
  | .dumpName n => .ok (setDumpFileName s n)
  | .filePrefix n => .ok (setFilePrefix s n)
  | .time t => .ok ({ s.clear with time := t }, .value .ok)
  | .timeStep t => .ok ({ s.clear with step := t }, .value .ok)
  | .timeConversion t => .ok ({ s.clear with conv := t }, .value .ok)

/-- The settings after construction, `/repo/src/PhreeqcRM.cpp:154-385`: names and units 321-344,
arrays 363-373. `tempc_root` is left empty. -/
def initial (openmp : Bool) (m : MapState) : RM where
  openmp := openmp
  map := m
  mode := 0
  err := []
  arr := fun a => match a with
    | .porosity => List.replicate m.nxyz (1 / 10)
    | .temperature => []
    | _ => List.replicate m.nxyz 1
  mask := List.replicate m.nxyz 0
  units := fun k => if k = .solution then 1 else 0
  prefx := "myrun"
  dump := "myrun.dump"
  time := 0
  step := 0
  conv := 1
  sol := fun _ _ => none
  gas := fun _ _ => none

end Verif.Setters
