import Verif.Base
import Mathlib.Algebra.Order.Field.Rat

/-!
# YAML files: recording calls and replaying them

`YAMLPhreeqcRM` (`/repo/src/YAMLPhreeqcRM.cpp`) has one method per call; it appends a map with
the keyword and the arguments to a document. `PhreeqcRM::InitializeYAML`
(`/repo/src/PhreeqcRM.cpp:5500-5932`) goes through the document and calls the methods.

Simplification: a document is the list of its entries, an entry the list of its key and value
pairs in order. The text form (emitting and parsing by the library yaml-cpp) is not modelled;
it is taken to give back the same entries in the same order with equal values.
-/

namespace Verif.Yaml

/-- Types of arguments. -/
inductive Ty
  | bool | int | double | string | ints | doubles
  deriving DecidableEq, Repr

/-- Values of arguments. -/
inductive Arg
  | bool (b : Bool)
  | int (i : Int)
  | double (d : ℚ)
  | string (s : String)
  | ints (l : List Int)
  | doubles (l : List ℚ)
  deriving DecidableEq

def Arg.ty : Arg → Ty
  | .bool _ => .bool
  | .int _ => .int
  | .double _ => .double
  | .string _ => .string
  | .ints _ => .ints
  | .doubles _ => .doubles

/-- A call of a method of the module. -/
structure Call where
  method : String
  args   : List Arg
  deriving DecidableEq

/-- An entry of the document: a YAML map. -/
abbrev Node := List (String × Arg)

/-- A method of `YAMLPhreeqcRM`: the call it stands for, the keyword it writes and the names and
types of the further items. -/
structure Writer where
  method : String
  key    : String
  fields : List (String × Ty)
  deriving DecidableEq

/-- The methods of `YAMLPhreeqcRM`, in the order of `/repo/src/YAMLPhreeqcRM.cpp:48-597`. -/
def writers : List Writer :=
  [⟨"AddOutputVars", "AddOutputVars", [("option", .string), ("definition", .string)]⟩,
   ⟨"CloseFiles", "CloseFiles", []⟩,
   ⟨"CreateMapping", "CreateMapping", [("grid2chem", .ints)]⟩,
   ⟨"DumpModule", "DumpModule", [("dump_on", .bool), ("append", .bool)]⟩,
   ⟨"FindComponents", "FindComponents", []⟩,
   ⟨"InitialSolutions2Module", "InitialSolutions2Module", [("solutions", .ints)]⟩,
   ⟨"InitialEquilibriumPhases2Module", "InitialEquilibriumPhases2Module", [("equilibrium_phases",
      .ints)]⟩,
   ⟨"InitialExchanges2Module", "InitialExchanges2Module", [("exchanges", .ints)]⟩,
   ⟨"InitialSurfaces2Module", "InitialSurfaces2Module", [("surfaces", .ints)]⟩,
   ⟨"InitialGasPhases2Module", "InitialGasPhases2Module", [("gas_phases", .ints)]⟩,
   ⟨"InitialSolidSolutions2Module", "InitialSolidSolutions2Module", [("solid_solutions", .ints)]⟩,
   ⟨"InitialKinetics2Module", "InitialKinetics2Module", [("kinetics", .ints)]⟩,
   ⟨"InitialPhreeqc2Module", "InitialPhreeqc2Module", [("initial_conditions1", .ints)]⟩,
   ⟨"InitialPhreeqc2Module", "InitialPhreeqc2Module", [("initial_conditions1", .ints),
      ("initial_conditions2", .ints), ("fraction1", .doubles)]⟩,
   ⟨"InitialPhreeqcCell2Module", "InitialPhreeqcCell2Module", [("n", .int), ("cell_numbers",
      .ints)]⟩,
   ⟨"LoadDatabase", "LoadDatabase", [("database", .string)]⟩,
   ⟨"LogMessage", "LogMessage", [("str", .string)]⟩,
   ⟨"OpenFiles", "OpenFiles", []⟩,
   ⟨"OutputMessage", "OutputMessage", [("str", .string)]⟩,
   ⟨"RunCells", "RunCells", []⟩,
   ⟨"RunFile", "RunFile", [("workers", .bool), ("initial_phreeqc", .bool), ("utility", .bool),
      ("chemistry_name", .string)]⟩,
   ⟨"RunString", "RunString", [("workers", .bool), ("initial_phreeqc", .bool), ("utility", .bool),
      ("input_string", .string)]⟩,
   ⟨"ScreenMessage", "ScreenMessage", [("str", .string)]⟩,
   ⟨"SetComponentH2O", "SetComponentH2O", [("tf", .bool)]⟩,
   ⟨"SetConcentrations", "SetConcentrations", [("c", .doubles)]⟩,
   ⟨"SetCurrentSelectedOutputUserNumber", "SetCurrentSelectedOutputUserNumber", [("n_user", .int)]⟩,
   ⟨"SetDensityUser", "SetDensityUser", [("density", .doubles)]⟩,
   ⟨"SetDumpFileName", "SetDumpFileName", [("dump_name", .string)]⟩,
   ⟨"SetErrorHandlerMode", "SetErrorHandlerMode", [("mode", .int)]⟩,
   ⟨"SetErrorOn", "SetErrorOn", [("tf", .bool)]⟩,
   ⟨"SetFilePrefix", "SetFilePrefix", [("prefix", .string)]⟩,
   ⟨"SetGasCompMoles", "SetGasCompMoles", [("gas_moles", .doubles)]⟩,
   ⟨"SetGasPhaseVolume", "SetGasPhaseVolume", [("gas_volume", .doubles)]⟩,
   ⟨"SetGridCellCount", "SetGridCellCount", [("count", .int)]⟩,
   ⟨"SetNthSelectedOutput", "SetNthSelectedOutput", [("n", .int)]⟩,
   ⟨"SetPartitionUZSolids", "SetPartitionUZSolids", [("tf", .bool)]⟩,
   ⟨"SetPorosity", "SetPorosity", [("por", .doubles)]⟩,
   ⟨"SetPressure", "SetPressure", [("p", .doubles)]⟩,
   ⟨"SetPrintChemistryMask", "SetPrintChemistryMask", [("cell_mask", .ints)]⟩,
   ⟨"SetPrintChemistryOn", "SetPrintChemistryOn", [("workers", .bool), ("initial_phreeqc", .bool),
      ("utility", .bool)]⟩,
   ⟨"SetRebalanceByCell", "SetRebalanceByCell", [("tf", .bool)]⟩,
   ⟨"SetRebalanceFraction", "SetRebalanceFraction", [("f", .double)]⟩,
   ⟨"SetRepresentativeVolume", "SetRepresentativeVolume", [("rv", .doubles)]⟩,
   ⟨"SetSaturationUser", "SetSaturationUser", [("sat", .doubles)]⟩,
   ⟨"SetScreenOn", "SetScreenOn", [("tf", .bool)]⟩,
   ⟨"SetSelectedOutputOn", "SetSelectedOutputOn", [("tf", .bool)]⟩,
   ⟨"SetSpeciesSaveOn", "SetSpeciesSaveOn", [("save_on", .bool)]⟩,
   ⟨"SetTemperature", "SetTemperature", [("t", .doubles)]⟩,
   ⟨"SetTime", "SetTime", [("time", .double)]⟩,
   ⟨"SetTimeConversion", "SetTimeConversion", [("conv_factor", .double)]⟩,
   ⟨"SetTimeStep", "SetTimeStep", [("time_step", .double)]⟩,
   ⟨"SetUnitsExchange", "SetUnitsExchange", [("option", .int)]⟩,
   ⟨"SetUnitsGasPhase", "SetUnitsGasPhase", [("option", .int)]⟩,
   ⟨"SetUnitsKinetics", "SetUnitsKinetics", [("option", .int)]⟩,
   ⟨"SetUnitsPPassemblage", "SetUnitsPPassemblage", [("option", .int)]⟩,
   ⟨"SetUnitsSolution", "SetUnitsSolution", [("option", .int)]⟩,
   ⟨"SetUnitsSSassemblage", "SetUnitsSSassemblage", [("option", .int)]⟩,
   ⟨"SetUnitsSurface", "SetUnitsSurface", [("option", .int)]⟩,
   ⟨"SpeciesConcentrations2Module", "SpeciesConcentrations2Module", [("species_conc", .doubles)]⟩,
   ⟨"StateSave", "StateSave", [("istate", .int)]⟩,
   ⟨"StateApply", "StateApply", [("istate", .int)]⟩,
   ⟨"StateDelete", "StateDelete", [("istate", .int)]⟩,
   ⟨"ThreadCount", "ThreadCount", [("nthreads", .int)]⟩,
   ⟨"UseSolutionDensityVolume", "UseSolutionDensityVolume", [("tf", .bool)]⟩,
   ⟨"WarningMessage", "WarningMessage", [("warnstr", .string)]⟩]

/-- One branch of `InitializeYAML`: keyword, required number of items if it is tested by an
`if`, method called (none for the two that do nothing) and types of the arguments in order. -/
structure Reader where
  keyword : String
  size    : Option Nat
  method  : Option String
  types   : List Ty
  deriving DecidableEq

/-- The branches in the order of `/repo/src/PhreeqcRM.cpp:5513-5921`. -/
def readers : List Reader :=
  [⟨"AddOutputVars", none, some "AddOutputVars", [.string, .string]⟩,
   ⟨"CloseFiles", none, some "CloseFiles", []⟩,
   ⟨"CreateMapping", none, some "CreateMapping", [.ints]⟩,
   ⟨"DumpModule", none, some "DumpModule", [.bool, .bool]⟩,
   ⟨"FindComponents", none, some "FindComponents", []⟩,
   ⟨"InitialSolutions2Module", none, some "InitialSolutions2Module", [.ints]⟩,
   ⟨"InitialEquilibriumPhases2Module", none, some "InitialEquilibriumPhases2Module", [.ints]⟩,
   ⟨"InitialExchanges2Module", none, some "InitialExchanges2Module", [.ints]⟩,
   ⟨"InitialSurfaces2Module", none, some "InitialSurfaces2Module", [.ints]⟩,
   ⟨"InitialGasPhases2Module", none, some "InitialGasPhases2Module", [.ints]⟩,
   ⟨"InitialSolidSolutions2Module", none, some "InitialSolidSolutions2Module", [.ints]⟩,
   ⟨"InitialKinetics2Module", none, some "InitialKinetics2Module", [.ints]⟩,
   ⟨"InitialPhreeqc2Module", some 2, some "InitialPhreeqc2Module", [.ints]⟩,
   ⟨"InitialPhreeqc2Module", some 4, some "InitialPhreeqc2Module", [.ints, .ints, .doubles]⟩,
   ⟨"InitialPhreeqc2Module_mix", some 4, some "InitialPhreeqc2Module", [.ints, .ints, .doubles]⟩,
   ⟨"InitialPhreeqcCell2Module", none, some "InitialPhreeqcCell2Module", [.int, .ints]⟩,
   ⟨"LoadDatabase", none, some "LoadDatabase", [.string]⟩,
   ⟨"OpenFiles", none, some "OpenFiles", []⟩,
   ⟨"OutputMessage", none, some "OutputMessage", [.string]⟩,
   ⟨"RunCells", none, some "RunCells", []⟩,
   ⟨"RunFile", none, some "RunFile", [.bool, .bool, .bool, .string]⟩,
   ⟨"RunString", none, some "RunString", [.bool, .bool, .bool, .string]⟩,
   ⟨"ScreenMessage", none, some "ScreenMessage", [.string]⟩,
   ⟨"SetComponentH2O", none, some "SetComponentH2O", [.bool]⟩,
   ⟨"SetConcentrations", none, some "SetConcentrations", [.doubles]⟩,
   ⟨"SetCurrentSelectedOutputUserNumber", none, some "SetCurrentSelectedOutputUserNumber", [.int]⟩,
   ⟨"SetDensityUser", none, some "SetDensityUser", [.doubles]⟩,
   ⟨"SetDumpFileName", none, some "SetDumpFileName", [.string]⟩,
   ⟨"SetErrorHandlerMode", none, some "SetErrorHandlerMode", [.int]⟩,
   ⟨"SetErrorOn", none, some "SetErrorOn", [.bool]⟩,
   ⟨"SetFilePrefix", none, some "SetFilePrefix", [.string]⟩,
   ⟨"SetGasCompMoles", none, some "SetGasCompMoles", [.doubles]⟩,
   ⟨"SetGasPhaseVolume", none, some "SetGasPhaseVolume", [.doubles]⟩,
   ⟨"SetGridCellCount", none, none, []⟩,
   ⟨"SetPartitionUZSolids", none, some "SetPartitionUZSolids", [.bool]⟩,
   ⟨"SetPorosity", none, some "SetPorosity", [.doubles]⟩,
   ⟨"SetPressure", none, some "SetPressure", [.doubles]⟩,
   ⟨"SetPrintChemistryMask", none, some "SetPrintChemistryMask", [.ints]⟩,
   ⟨"SetPrintChemistryOn", none, some "SetPrintChemistryOn", [.bool, .bool, .bool]⟩,
   ⟨"SetRebalanceByCell", none, some "SetRebalanceByCell", [.bool]⟩,
   ⟨"SetRebalanceFraction", none, some "SetRebalanceFraction", [.double]⟩,
   ⟨"SetRepresentativeVolume", none, some "SetRepresentativeVolume", [.doubles]⟩,
   ⟨"SetSaturationUser", none, some "SetSaturationUser", [.doubles]⟩,
   ⟨"SetScreenOn", none, some "SetScreenOn", [.bool]⟩,
   ⟨"SetSelectedOutputOn", none, some "SetSelectedOutputOn", [.bool]⟩,
   ⟨"SetSpeciesSaveOn", none, some "SetSpeciesSaveOn", [.bool]⟩,
   ⟨"SetTemperature", none, some "SetTemperature", [.doubles]⟩,
   ⟨"SetTime", none, some "SetTime", [.double]⟩,
   ⟨"SetTimeConversion", none, some "SetTimeConversion", [.double]⟩,
   ⟨"SetTimeStep", none, some "SetTimeStep", [.double]⟩,
   ⟨"SetUnitsExchange", none, some "SetUnitsExchange", [.int]⟩,
   ⟨"SetUnitsGasPhase", none, some "SetUnitsGasPhase", [.int]⟩,
   ⟨"SetUnitsKinetics", none, some "SetUnitsKinetics", [.int]⟩,
   ⟨"SetUnitsPPassemblage", none, some "SetUnitsPPassemblage", [.int]⟩,
   ⟨"SetUnitsSolution", none, some "SetUnitsSolution", [.int]⟩,
   ⟨"SetUnitsSSassemblage", none, some "SetUnitsSSassemblage", [.int]⟩,
   ⟨"SetUnitsSurface", none, some "SetUnitsSurface", [.int]⟩,
   ⟨"SpeciesConcentrations2Module", none, some "SpeciesConcentrations2Module", [.doubles]⟩,
   ⟨"StateSave", none, some "StateSave", [.int]⟩,
   ⟨"StateApply", none, some "StateApply", [.int]⟩,
   ⟨"StateDelete", none, some "StateDelete", [.int]⟩,
   ⟨"ThreadCount", none, none, []⟩,
   ⟨"UseSolutionDensityVolume", none, some "UseSolutionDensityVolume", [.bool]⟩,
   ⟨"WarningMessage", none, some "WarningMessage", [.string]⟩]

/-- What a method of `YAMLPhreeqcRM` appends. -/
def Writer.node (w : Writer) (args : List Arg) : Node :=
  ("key", .string w.key) :: (w.fields.map Prod.fst).zip args

/-- The document, `/repo/src/YAMLPhreeqcRM.h` (`YAML_doc`) with `push_back` and `Clear`
(`/repo/src/YAMLPhreeqcRM.cpp:32-36`). -/
inductive DocOp
  | record (w : Writer) (args : List Arg)
  | clear

def DocOp.step (doc : List Node) : DocOp → List Node
  | .record w args => doc ++ [w.node args]
  | .clear => []

/-- `as<T>()`: the same value for the same type; an integer is also accepted as a double. All
other conversions count as failing, which is an exception (`YAML::BadConversion`). -/
def Arg.as : Ty → Arg → Out Arg
  | .bool, .bool b => .ok (.bool b)
  | .int, .int i => .ok (.int i)
  | .double, .double d => .ok (.double d)
  | .double, .int i => .ok (.double i)
  | .string, .string s => .ok (.string s)
  | .ints, .ints l => .ok (.ints l)
  | .doubles, .doubles l => .ok (.doubles l)
  | .doubles, .ints l => .ok (.doubles (l.map (fun (i : Int) => (i : ℚ))))
  | _, _ => .throw

/-- The arguments, by position: `it1++->second.as<T>()`. Dereferencing the end is undefined. -/
def decode : List Ty → Node → Out (List Arg)
  | [], _ => .ok []
  | _ :: _, [] => .ub
  | t :: ts, (_, a) :: rest => do
    let x ← a.as t
    let xs ← decode ts rest
    .ok (x :: xs)

/-- One turn of the loop, `/repo/src/PhreeqcRM.cpp:5507-5926`, up to the call: the call to make,
or none. The first item is taken as keyword whatever its key is. An unknown keyword, and a
wrong number of items where it is tested, is an exception. -/
def readNode : Node → Out (Option Call)
  | [] => .ub
  | (k, a) :: rest =>
    match a with
    | .string kw =>
      match readers.find? (fun r => r.keyword = kw ∧
          (r.size = none ∨ r.size = some ((k, a) :: rest).length)) with
      | none => .throw
      | some r => do
        let args ← decode r.types rest
        .ok (r.method.map (fun m => ⟨m, args⟩))
    | _ => .throw

/-- The loop and the return value. `perform` is the module: the state after a call and the code
it returns, or none if the call ends with an exception (error handler mode 1). The codes are not
looked at. The result is the state reached, with the value returned or the way the loop was
left. -/
def replay {σ : Type} (perform : Call → σ → Option (σ × IRM)) : List Node → σ → σ × Out IRM
  | [], s => (s, .ok .ok)
  | n :: ns, s =>
    match readNode n with
    | .ok none => replay perform ns s
    | .ok (some c) =>
      match perform c s with
      | some (s', _) => replay perform ns s'
      | none => (s, .throw)
    | .throw => (s, .throw)
    | .ub => (s, .ub)

/-- The first loop of `BMIPhreeqcRM::Initialize`, `/repo/src/BMIPhreeqcRM.cpp:173-194`: grid cell
count and thread count. Until both are found a later entry replaces an earlier one. -/
def scanCounts : List Node → Option Int → Option Int → Out (Option Int × Option Int)
  | [], n, t => .ok (n, t)
  | [] :: _, _, _ => .ub
  | ((_, a) :: rest) :: ns, n, t =>
    match a with
    | .string kw =>
      if kw = "SetGridCellCount" then
        match rest with
        | [] => .ub
        | (_, v) :: _ =>
          match v with
          | .int i => if t.isSome then .ok (some i, t) else scanCounts ns (some i) t
          | _ => .throw
      else if kw = "ThreadCount" then
        match rest with
        | [] => .ub
        | (_, v) :: _ =>
          match v with
          | .int i => if n.isSome then .ok (n, some i) else scanCounts ns n (some i)
          | _ => .throw
      else scanCounts ns n t
    | _ => .throw

/-- `GetGridCellCountYAML` after opening the file, `/repo/src/PhreeqcRM.cpp:133-146`. -/
def gridCellCount : List Node → Out Int
  | [] => .ok 0
  | [] :: _ => .ub
  | ((_, a) :: rest) :: ns =>
    match a with
    | .string kw =>
      if kw = "SetGridCellCount" then
        match rest with
        | [] => .ub
        | (_, v) :: _ =>
          match v with
          | .int i => .ok i
          | _ => .throw
      else gridCellCount ns
    | _ => .throw

end Verif.Yaml
