import Verif.Lockstep.Prog
import Verif.MpiMove.Model

/-!
# The functions of the MPI build, as run by the root and by the workers

Model of the branches `#ifdef USE_MPI` of `/repo/src/PhreeqcRM.cpp`: every function is written once
and run by all processes, `p` being `mpi_myself`. On the root it is called by the user, on the other
processes by `MpiWorker` with dummy arguments (`:7016-7479`), after the number of the method has been
broadcast. `tasks` is `mpi_tasks`.

The chemistry of a process (its IPhreeqc instances) is an arbitrary type `χ`, with arbitrary
functions in `Engine`. The theorems hold for all of them.

Simplifications: the ranges of cells of the processes follow each other (C02), so that they are
given by the numbers of cells, `start_cell` being the sum of the earlier ones; texts of error
messages are shortened; the vectors `Ith…` of `RunCells` (`:9675-9697`), the debugging check
`CheckSelectedOutput` and missing solutions in the getters are not modelled.
-/

namespace Verif.Lockstep

/-- Settings of type `bool`. -/
inductive Flag where
  | rebalanceByCell | selectedOutputOn | speciesSaveOn | componentH2O | useSolutionDensityVolume
  deriving DecidableEq, Repr

/-- Settings of type `double`. -/
inductive Num where
  | time | timeStep | timeConversion | rebalanceFraction
  deriving DecidableEq, Repr

/-- The seven units. -/
inductive UKind where
  | solution | ppassemblage | exchange | surface | gasPhase | ssassemblage | kinetics
  deriving DecidableEq, Repr

/-- Properties of cells set with `SetGeneric`. -/
inductive Arr where
  | density | porosity | rv | saturation | pressure | temperature
  deriving DecidableEq, Repr

/-- Values per cell collected with `GatherNchem`. -/
inductive Reading where
  | densityCalculated | pressure | saturationCalculated | solutionVolume | temperature | viscosity
  deriving DecidableEq, Repr

/-- Settings, which every process has. -/
structure Settings where
  mode : Int
  filePrefix : List Char
  nums : Num → ℚ
  flags : Flag → Bool
  units : UKind → Int
  partUZ : Bool
  printOn : Bool × Bool × Bool

/-- Members that every process has and that ought to be the same in all of them. -/
structure Shared where
  set : Settings
  /-- `need_error_check` -/
  check : Bool
  nxyz : Nat
  /-- `backward_mapping`; `count_chemistry` is its length -/
  back : List (List Nat)
  /-- numbers of cells of the processes, `end_cell[p] - start_cell[p] + 1` -/
  cells : List Nat
  /-- number of components -/
  ncomp : Nat
  /-- number of species -/
  nspec : Nat
  /-- ranges of the saved states, newest first -/
  savedCells : List (Int × List Nat)

/-- Data of one process. -/
structure St (χ : Type) where
  sh : Shared
  database : List Char
  chemistryName : List Char
  /-- `phreeqcrm_error_string` -/
  errs : List Char
  /-- arrays for the grid, used on the root -/
  rootArr : Arr → List ℚ
  /-- values for the cells of the process -/
  workArr : Arr → List ℚ
  oldSatRoot : List ℚ
  oldSatWork : List ℚ
  maskRoot : List Int
  maskWork : List Int
  /-- saved chemistries, newest first -/
  saved : List (Int × χ)
  chem : χ
  /-- vector returned to the caller, on the root -/
  out : List ℚ
  /-- `error_count` -/
  errorCount : Int

/-- What the IPhreeqc instances of a process do, and where messages sent with `MPI_COMM_WORLD`
go. -/
structure Engine (χ : Type) where
  /-- `LoadDatabase` of the worker, of InitialPhreeqc and of Utility -/
  load : List Char → χ → χ × Int × Int × Int
  /-- `RunFileThread(i)` -/
  runFile : Nat → List Char → χ → χ × Int
  /-- `RunStringThread(i, input)` -/
  runString : Nat → List Char → χ → χ × Int
  /-- `workers[0]->GetErrorString()` -/
  errText : χ → List Char
  /-- all cells from the first to before the last have a solution -/
  defined : χ → Nat → Nat → Bool
  /-- `RunCellsThread(0)` with the process's values: chemistry, status, output text -/
  runCells : Nat → St χ → χ × Int × List Char
  /-- concentration of a component in a cell -/
  conc : Nat → St χ → Nat → Nat → ℚ
  /-- `Concentrations2Solutions` -/
  setConc : Nat → St χ → List ℚ → χ
  /-- species concentration -/
  species : χ → Nat → Nat → ℚ
  /-- value of a reading for a cell -/
  reading : Nat → St χ → Reading → Nat → ℚ
  /-- pressure or temperature given to the solutions and gas phases -/
  apply : Arr → Nat → List ℚ → χ → χ
  /-- `cell_clock_times` and `thread_clock_time` of the worker -/
  cellTime : χ → Nat → ℚ
  threadTime : χ → ℚ
  /-- new numbers of cells found by the root, by cell times; `:8769-8868` -/
  balanceCells : Nat → Shared → List ℚ → List Nat
  /-- new numbers of cells found by the root from process times, or an exception; `:7742-7881` -/
  balanceTasks : Nat → Shared → List ℚ → Option (List Nat)
  /-- `Serialize` of cells -/
  pack : χ → List Nat → List Char × List Int × List ℚ
  /-- `Deserialize`, or an exception -/
  unpack : χ → List Char × List Int × List ℚ → Option χ
  /-- `DELETE; -cell` and its status -/
  delete : χ → List Nat → χ × Int
  /-- unsaturated-zone reactants of cells taken out as text -/
  uzTake : χ → List Nat → χ × List Char
  /-- text read into the unsaturated zone -/
  uzPut : χ → List Char → χ
  /-- the process of the communicator of PhreeqcRM that has a rank in `MPI_COMM_WORLD` -/
  world : Nat → Nat

/-- `METHOD_…` of the functions modelled, `/repo/src/PhreeqcRM.h:61-123`. -/
inductive Method where
  | getConcentrations | getErrorString | getReading (r : Reading) | getSpecies
  | loadDatabase | workerBreak | runCells | runFile | runString
  | setConcentrations | setArr (a : Arr) | setMode | setFilePrefix | setPartitionUZ
  | setPrintOn | setMask | setFlag (f : Flag) | setNum (k : Num) | setUnits (u : UKind)
  | stateSave | stateApply | stateDelete
  deriving DecidableEq, Repr

/-- Place of the method in the enumeration, `/repo/src/PhreeqcRM.h:61-123`. -/
def Method.code : Method → Int
  | .getConcentrations => 4
  | .getReading .densityCalculated => 5
  | .getErrorString => 6
  | .getReading .pressure => 11
  | .getReading .saturationCalculated => 12
  | .getReading .solutionVolume => 14
  | .getSpecies => 15
  | .getReading .temperature => 18
  | .getReading .viscosity => 19
  | .loadDatabase => 22
  | .workerBreak => 23
  | .runCells => 24
  | .runFile => 25
  | .runString => 26
  | .setFlag .componentH2O => 27
  | .setConcentrations => 28
  | .setArr .density => 29
  | .setMode => 30
  | .setFilePrefix => 31
  | .setPartitionUZ => 34
  | .setArr .porosity => 35
  | .setArr .pressure => 36
  | .setPrintOn => 37
  | .setMask => 38
  | .setFlag .rebalanceByCell => 39
  | .setNum .rebalanceFraction => 40
  | .setArr .rv => 41
  | .setArr .saturation => 42
  | .setFlag .selectedOutputOn => 43
  | .setFlag .speciesSaveOn => 44
  | .setArr .temperature => 45
  | .setNum .time => 46
  | .setNum .timeConversion => 47
  | .setNum .timeStep => 48
  | .setUnits .exchange => 49
  | .setUnits .gasPhase => 50
  | .setUnits .kinetics => 51
  | .setUnits .ppassemblage => 52
  | .setUnits .solution => 53
  | .setUnits .ssassemblage => 54
  | .setUnits .surface => 55
  | .stateSave => 57
  | .stateApply => 58
  | .stateDelete => 59
  | .setFlag .useSolutionDensityVolume => 60

/-- All methods modelled. -/
def Method.list : List Method :=
  [.getConcentrations, .getErrorString, .getReading .densityCalculated, .getReading .pressure,
   .getReading .saturationCalculated, .getReading .solutionVolume, .getReading .temperature,
   .getReading .viscosity, .getSpecies, .loadDatabase, .workerBreak, .runCells, .runFile, .runString,
   .setConcentrations, .setArr .density, .setArr .porosity, .setArr .rv, .setArr .saturation,
   .setArr .pressure, .setArr .temperature, .setMode, .setFilePrefix, .setPartitionUZ, .setPrintOn,
   .setMask, .setFlag .rebalanceByCell, .setFlag .selectedOutputOn, .setFlag .speciesSaveOn,
   .setFlag .componentH2O, .setFlag .useSolutionDensityVolume, .setNum .time, .setNum .timeStep,
   .setNum .timeConversion, .setNum .rebalanceFraction, .setUnits .solution, .setUnits .ppassemblage,
   .setUnits .exchange, .setUnits .surface, .setUnits .gasPhase, .setUnits .ssassemblage,
   .setUnits .kinetics, .stateSave, .stateApply, .stateDelete]

/-- `switch (method)` in `MpiWorker`, `/repo/src/PhreeqcRM.cpp:7033-7470`: the method of a number. -/
def Method.ofCode (c : Int) : Option Method := Method.list.find? (fun m => m.code = c)

variable {χ : Type}

/-- First cell of a process, `start_cell[p]`. -/
def Shared.start (sh : Shared) (p : Nat) : Nat := (sh.cells.take p).sum

/-- Number of cells of a process, `end_cell[p] - start_cell[p] + 1`. -/
def Shared.count (sh : Shared) (p : Nat) : Nat := sh.cells.getD p 0

/-- The parts of a list with given lengths, `send_counts` and `send_displs`. -/
def parts {α : Type} : List Nat → List α → List (List α)
  | [], _ => []
  | c :: cs, l => l.take c :: parts cs (l.drop c)

/-- `phreeqcrm_error_string.clear()`. -/
def clearErrs : M (St χ) Unit := M.modify (fun s => { s with errs := [] })

/-- `ErrorMessage`, `/repo/src/PhreeqcRM.cpp:2777-2795`; the text is simplified. -/
def errorMessage (t : List Char) : M (St χ) Unit := M.modify (fun s => { s with errs := s.errs ++ t })

/-- `ReturnHandler`, `/repo/src/PhreeqcRM.cpp:9633-9662`. -/
def returnHandler (c : IRM) : M (St χ) IRM := do
  if c = .ok then pure c
  else do
    let s ← M.get
    if s.sh.set.mode = 1 then M.throw else if s.sh.set.mode = 2 then M.exit else pure c

/-- The broadcast of the method number by the root; the workers take part in it in `MpiWorker`,
`/repo/src/PhreeqcRM.cpp:7032`. -/
def tell (p : Nat) (m : Method) : M (St χ) Unit :=
  M.onRoot p (M.bind (M.bcastInt m.code) (fun _ => M.pure ()))

/-- `ScatterNchem` of an array of the root, `/repo/src/PhreeqcRM.cpp:10920-10962`: the values of the
first grid cell of every reaction cell are distributed. `none` is an access beyond the end. -/
def pick {α : Type} (back : List (List Nat)) (source : List α) : Option (List α) :=
  back.mapM (fun b => b.head?.bind (fun i => source[i]?))

/-- `ScatterNchem(std::vector<double> &, …)`, `/repo/src/PhreeqcRM.cpp:10920-10962`. -/
def scatterNchem (p : Nat) (source : List ℚ) : M (St χ) (List ℚ) := do
  let s ← M.get
  if p = 0 then
    match pick s.sh.back source with
    | none => M.ub
    | some d => M.scattervDbls (parts s.sh.cells d) (s.sh.count p)
  else M.scattervDbls [] (s.sh.count p)

/-- `ScatterNchem(std::vector<int> &, …)`, `/repo/src/PhreeqcRM.cpp:10966-11008`. -/
def scatterNchemInt (p : Nat) (source : List Int) : M (St χ) (List Int) := do
  let s ← M.get
  if p = 0 then
    match pick s.sh.back source with
    | none => M.ub
    | some d => M.scattervInts (parts s.sh.cells d) (s.sh.count p)
  else M.scattervInts [] (s.sh.count p)

/-- The values of reaction cells put in the grid, `/repo/src/PhreeqcRM.cpp:3297-3309`; grid cells
that no reaction cell has keep `old`. -/
def spread (back : List (List Nat)) (vals old : List ℚ) : List ℚ :=
  (back.zip vals).foldl (fun d e => e.1.foldl (fun d i => d.set i e.2) d) old

/-- `GatherNchem`, `/repo/src/PhreeqcRM.cpp:3266-3313`, from the values of the cells of the process
to an array of the root (empty elsewhere). -/
def gatherNchem (p : Nat) (mine old : List ℚ) : M (St χ) (List ℚ) := do
  let s ← M.get
  let buf ← M.gathervDbls s.sh.cells mine
  if p = 0 then
    pure (spread s.sh.back buf (old.take s.sh.nxyz ++ List.replicate (s.sh.nxyz - old.length) 0))
  else pure old

/-- `HandleErrorsInternal(r_vector)` of the MPI build, `/repo/src/PhreeqcRM.cpp:5406-5475`. Only
`r_vector[0]`, here `r`, is gathered. The function throws in all processes if the status of any is
not zero; the failing workers first send their error text to the root. -/
def handleErrors (E : Engine χ) (p tasks : Nat) (r : Int) : M (St χ) Unit := do
  let recv ← M.gatherInt r
  M.modify (fun s => { s with errorCount :=
    if p = 0 then ((recv.filter (· ≠ 0)).length : Int) else 0 })
  let s ← M.get
  let c ← M.bcastInt s.errorCount
  M.modify (fun s => { s with errorCount := c })
  if c = 0 then pure ()
  else do
    M.loop (List.range tasks) (fun i =>
      if p = i then
        if p = 0 then
          if recv.getD i 0 ≠ 0 then do
            let s ← M.get
            errorMessage (E.errText s.chem)
          else pure ()
        else if r ≠ 0 then do
          let s ← M.get
          M.send 0 (.ints [((E.errText s.chem).length : Int)])
          M.send 0 (.chars (E.errText s.chem))
        else pure ()
      else if p = 0 then
        if recv.getD i 0 ≠ 0 then do
          let v ← M.recv i .int 1
          let size : Int := match v with | .ints (a :: _) => a | _ => 0
          let t ← M.recv i .chr size.toNat
          errorMessage (match t with | .chars t => t | _ => [])
        else pure ()
      else pure ())
    M.barrier
    M.throw

/-! ## Settings -/

/-- `SetTime`, `SetTimeStep`, `SetTimeConversion` and `SetRebalanceFraction`,
`/repo/src/PhreeqcRM.cpp:12283-12353, 12101-12117`; the last assigns before it broadcasts the
method. -/
def setNum (p : Nat) (k : Num) (t : ℚ) : M (St χ) IRM := do
  clearErrs
  let s ← M.get
  if p = 0 ∧ s.sh.set.nums k = t then pure .ok
  else do
    tell p (.setNum k)
    let x ← M.bcastDbl (if p = 0 then t else s.sh.set.nums k)
    M.modify (fun s => { s with sh := { s.sh with set := { s.sh.set with nums := Function.update s.sh.set.nums k x } } })
    pure .ok

/-- `SetRebalanceByCell`, `SetSelectedOutputOn`, `SetSpeciesSaveOn`, `UseSolutionDensityVolume` and
`SetComponentH2O`, `/repo/src/PhreeqcRM.cpp:12075-12097, 12170-12194, 12198-12225, 12996-13017,
11046-11069`; all but the last do nothing if the value is the same. -/
def setFlag (p : Nat) (f : Flag) (t : Bool) : M (St χ) IRM := do
  clearErrs
  let s ← M.get
  if p = 0 ∧ f ≠ .componentH2O ∧ s.sh.set.flags f = t then pure .ok
  else do
    tell p (.setFlag f)
    let x ← M.bcastInt (if (if p = 0 then t else s.sh.set.flags f) = true then 1 else 0)
    M.modify (fun s => { s with sh :=
      { s.sh with set :=
        { s.sh.set with flags := Function.update s.sh.set.flags f (decide (x ≠ 0)) } } })
    pure .ok

/-- Values accepted for a unit, `/repo/src/PhreeqcRM.cpp:12371, 12402, 12433, 12464, 12495, 12526,
12557`. -/
def unitOk : UKind → Int → Bool
  | .solution, u => decide (0 < u ∧ u < 4)
  | _, u => decide (0 ≤ u ∧ u < 3)

/-- `SetUnits…`, `/repo/src/PhreeqcRM.cpp:12356-12568`. -/
def setUnits (p : Nat) (k : UKind) (u : Int) : M (St χ) IRM := do
  clearErrs
  let s ← M.get
  if p = 0 ∧ s.sh.set.units k = u then pure .ok
  else do
    tell p (.setUnits k)
    let x ← M.bcastInt (if p = 0 ∧ unitOk k u = true then u else s.sh.set.units k)
    M.modify (fun s => { s with sh := { s.sh with set := { s.sh.set with units := Function.update s.sh.set.units k x } } })
    returnHandler (if p = 0 ∧ unitOk k u = false then .invalidArg else .ok)

/-- `SetErrorHandlerMode`, `/repo/src/PhreeqcRM.cpp:11723-11762`: other values give mode 0. -/
def setMode (p : Nat) (i : Int) : M (St χ) IRM := do
  clearErrs
  let s ← M.get
  if p = 0 ∧ s.sh.set.mode = i then pure .ok
  else do
    tell p .setMode
    let good : Bool := decide (0 ≤ i ∧ i < 3)
    let x ← M.bcastInt (if p = 0 then (if good then i else 0) else s.sh.set.mode)
    M.modify (fun s => { s with sh := { s.sh with set := { s.sh.set with mode := x } } })
    returnHandler (if p = 0 ∧ good = false then .invalidArg else .ok)

/-- `SetFilePrefix`, `/repo/src/PhreeqcRM.cpp:11781-11812`. -/
def setFilePrefix (p : Nat) (t : List Char) : M (St χ) IRM := do
  clearErrs
  let s ← M.get
  if p = 0 ∧ s.sh.set.filePrefix = t then pure .ok
  else do
    tell p .setFilePrefix
    let l ← M.bcastInt (if p = 0 then (t.length : Int) else 0)
    let x ← M.bcastChars l.toNat (if p = 0 then t else List.replicate l.toNat ' ')
    M.modify (fun s => { s with sh := { s.sh with set := { s.sh.set with filePrefix := x } } })
    returnHandler (if x = [] then .invalidArg else .ok)

/-- `SetPrintChemistryOn`, `/repo/src/PhreeqcRM.cpp:12008-12040`. -/
def setPrintOn (p : Nat) (w i u : Bool) : M (St χ) IRM := do
  clearErrs
  let s ← M.get
  if p = 0 ∧ s.sh.set.printOn = (w, i, u) then pure .ok
  else do
    tell p .setPrintOn
    let b (t : Bool) : Int := if p = 0 ∧ t = true then 1 else 0
    let l ← M.bcastInts 3 [b w, b i, b u]
    match l with
    | [x, y, z] =>
      M.modify (fun s => { s with sh :=
        { s.sh with set :=
          { s.sh.set with printOn := (decide (x ≠ 0), decide (y ≠ 0), decide (z ≠ 0)) } } })
      pure .ok
    | _ => M.ub

/-- `SetPartitionUZSolids`, `/repo/src/PhreeqcRM.cpp:11891-11927`. -/
def setPartitionUZ (p : Nat) (t : Bool) : M (St χ) IRM := do
  clearErrs
  let s ← M.get
  if p = 0 ∧ s.sh.set.partUZ = t then pure .ok
  else do
    tell p .setPartitionUZ
    let x ← M.bcastInt (if (if p = 0 then t else s.sh.set.partUZ) = true then 1 else 0)
    M.modify (fun s => { s with sh := { s.sh with set := { s.sh.set with partUZ := decide (x ≠ 0) } } })
    if x ≠ 0 then do
      M.modify (fun s => if p = 0 ∧ s.oldSatRoot.length ≠ s.sh.nxyz then
        { s with oldSatRoot := s.oldSatRoot.take s.sh.nxyz ++
          List.replicate (s.sh.nxyz - s.oldSatRoot.length) 1 } else s)
      let s ← M.get
      let d ← scatterNchem p s.oldSatRoot
      M.modify (fun s => { s with oldSatWork := d })
      pure .ok
    else pure .ok

/-- `SetPrintChemistryMask` after the check, `/repo/src/PhreeqcRM.cpp:12059-12064`. -/
def scatterMask (p : Nat) (m : List Int) : M (St χ) IRM := do
  M.onRoot p (M.modify (fun s => { s with maskRoot := m }))
  let s ← M.get
  let d ← scatterNchemInt p s.maskRoot
  M.modify (fun s => { s with maskWork := d })
  pure .ok

/-- `SetPrintChemistryMask`, `/repo/src/PhreeqcRM.cpp:12044-12071`: the root broadcasts the method
before it looks at the length of the vector. -/
def setMask (p : Nat) (m : List Int) : M (St χ) IRM := do
  clearErrs
  tell p .setMask
  let s ← M.get
  let c ← M.tryCatch (if p = 0 ∧ m.length < s.sh.nxyz then M.throw else scatterMask p m)
    (pure .invalidArg)
  returnHandler c

/-- `SetGeneric` after the check, `/repo/src/PhreeqcRM.cpp:11827-11836`. -/
def scatterArr (p : Nat) (a : Arr) : M (St χ) IRM := do
  tell p (.setArr a)
  let s ← M.get
  let d ← scatterNchem p (s.rootArr a)
  M.modify (fun s => { s with workArr := Function.update s.workArr a d })
  pure .ok

/-- What `SetPressure` and `SetTemperature` do after `SetGeneric`,
`/repo/src/PhreeqcRM.cpp:11950-12003, 12236-12279`. -/
def afterGeneric (E : Engine χ) (p : Nat) (a : Arr) : M (St χ) IRM :=
  if a = .pressure ∨ a = .temperature then do
    M.modify (fun s => { s with chem := E.apply a (s.sh.start p) (s.workArr a) s.chem })
    pure .ok
  else pure .ok

/-- `SetGeneric` with the rest of `SetDensityUser`, `SetPorosity`, `SetPressure`,
`SetRepresentativeVolume`, `SetSaturationUser` and `SetTemperature`,
`/repo/src/PhreeqcRM.cpp:11816-11843, 11586-11594, 11931-12003, 12123-12130, 12143-12151,
12229-12279`: the root looks at the length of the vector before it broadcasts the method. -/
def setArr (E : Engine χ) (p : Nat) (a : Arr) (v : List ℚ) : M (St χ) IRM := do
  clearErrs
  let s ← M.get
  if p = 0 ∧ v.length < s.sh.nxyz then returnHandler .fail
  else do
    M.onRoot p (M.modify (fun s => { s with rootArr := Function.update s.rootArr a v }))
    let _ ← scatterArr p a
    afterGeneric E p a

/-! ## Input -/

/-- `SetDatabaseFileName` in `LoadDatabase`, `/repo/src/PhreeqcRM.cpp:11551-11575`: the length is
broadcast, then the text if it is not empty. The text is already trimmed. -/
def setName (p : Nat) (t : List Char) (upd : List Char → St χ → St χ) : M (St χ) IRM := do
  M.onRoot p (M.modify (upd t))
  let l ← M.bcastInt (if p = 0 then (t.length : Int) else 0)
  if l > 0 then do
    let x ← M.bcastChars l.toNat (if p = 0 then t else List.replicate l.toNat ' ')
    M.modify (upd x)
    returnHandler (if l = 0 then .invalidArg else .ok)
  else returnHandler (if l = 0 then .invalidArg else .ok)

/-- `LoadDatabase`, `/repo/src/PhreeqcRM.cpp:6931-6996`. -/
def loadDatabase (E : Engine χ) (p tasks : Nat) (t : List Char) : M (St χ) IRM := do
  clearErrs
  tell p .loadDatabase
  let c ← M.tryCatch
    (do
      let r ← setName p t (fun x s => { s with database := x })
      handleErrors E p tasks r.toInt
      let s ← M.get
      let l := E.load s.database s.chem
      M.modify (fun s => { s with chem := l.1 })
      -- r_vector[0], r_vector[1], r_vector[2]: only the first is looked at
      handleErrors E p tasks l.2.1
      pure IRM.ok)
    (pure .fail)
  let g ← M.allmin c.toInt
  returnHandler (if g = 0 then .ok else .fail)

/-- The runs of `RunFile` and `RunString` in the instances that are asked for: the worker, then
InitialPhreeqc, then Utility; the statuses are `r_vector`. -/
def runThree (run : Nat → χ → χ × Int) (w i u : Bool) (c : χ) : χ × Int × Int × Int :=
  let a := if w then run 0 c else (c, 0)
  let b := if i then run 1 a.1 else (a.1, 0)
  let d := if u then run 2 b.1 else (b.1, 0)
  (d.1, a.2, b.2, d.2)

/-- `RunFile`, `/repo/src/PhreeqcRM.cpp:10511-10590`. -/
def runFile (E : Engine χ) (p tasks : Nat) (w i u : Bool) (t : List Char) : M (St χ) IRM := do
  clearErrs
  tell p .runFile
  M.modify (fun s => { s with errorCount := 0 })
  clearErrs
  let _ ← setName p t (fun x s => { s with chemistryName := x })
  let s ← M.get
  let b (t : Bool) : Int := if p = 0 ∧ t = true then 1 else 0
  let fl ← M.bcastInts 4 [b w, b i, b u, if p = 0 then s.errorCount else 0]
  match fl with
  | [x, y, z, e] =>
    if e > 0 then pure .fail
    else do
      let s ← M.get
      let l := runThree (fun n => E.runFile n s.chemistryName) (decide (x ≠ 0)) (decide (y ≠ 0))
        (decide (z ≠ 0)) s.chem
      M.modify (fun s => { s with chem := l.1 })
      let c ← M.tryCatch (do handleErrors E p tasks l.2.1; pure IRM.ok) (pure .fail)
      returnHandler c
  | _ => M.ub

/-- `RunString`, `/repo/src/PhreeqcRM.cpp:10647-10730`. -/
def runString (E : Engine χ) (p tasks : Nat) (w i u : Bool) (t : List Char) : M (St χ) IRM := do
  clearErrs
  tell p .runString
  M.modify (fun s => { s with errorCount := 0 })
  let s ← M.get
  let b (t : Bool) : Int := if p = 0 ∧ t = true then 1 else 0
  let fl ← M.bcastInts 5 [b w, b i, b u, if p = 0 then (t.length : Int) else 0,
    if p = 0 then s.errorCount else 0]
  match fl with
  | [x, y, z, n, e] => do
    let input ← M.bcastChars n.toNat (if p = 0 then t else List.replicate n.toNat ' ')
    if e > 0 then pure .fail
    else do
      let s ← M.get
      let l := runThree (fun n => E.runString n input) (decide (x ≠ 0)) (decide (y ≠ 0))
        (decide (z ≠ 0)) s.chem
      M.modify (fun s => { s with chem := l.1 })
      let c ← M.tryCatch (do handleErrors E p tasks l.2.1; pure IRM.ok) (pure .fail)
      returnHandler c
  | _ => M.ub

/-! ## Values of cells -/

/-- `SetConcentrations`, `/repo/src/PhreeqcRM.cpp:11072-11142`; `none` is an access beyond the end of
the vector. -/
def setConcentrations (E : Engine χ) (p : Nat) (t : List ℚ) : M (St χ) IRM := do
  clearErrs
  let s ← M.get
  let c : Option (List ℚ) := (s.sh.back.mapM (fun (b : List Nat) => b.head?.bind (fun j =>
    (List.range s.sh.ncomp).mapM (fun k => t[k * s.sh.nxyz + j]?)))).map List.flatten
  if p = 0 then
    match c with
    | none => M.ub
    | some c => do
      tell p .setConcentrations
      let d ← M.scattervDbls (parts (s.sh.cells.map (· * s.sh.ncomp)) c) (s.sh.count p * s.sh.ncomp)
      M.modify (fun s => { s with chem := E.setConc p s d })
      pure .ok
  else do
    let d ← M.scattervDbls [] (s.sh.count p * s.sh.ncomp)
    M.modify (fun s => { s with chem := E.setConc p s d })
    pure .ok

/-- `GetConcentrations`, `/repo/src/PhreeqcRM.cpp:3457-3565`; the buffer of the root is the result
here, its expansion to the grid is C11. -/
def getConcentrations (E : Engine χ) (p : Nat) : M (St χ) IRM := do
  clearErrs
  tell p .getConcentrations
  let s ← M.get
  let mine := ((List.range (s.sh.count p)).map (fun l =>
    (List.range s.sh.ncomp).map (fun i => E.conc p s (s.sh.start p + l) i))).flatten
  let buf ← M.gathervDbls (s.sh.cells.map (· * s.sh.ncomp)) mine
  M.onRoot p (M.modify (fun s => { s with out := buf }))
  pure .ok

/-- `GetSpeciesConcentrations`, `/repo/src/PhreeqcRM.cpp:4800-4892`: the workers send their values to
the root one after the other; the buffers are joined here. -/
def getSpecies (E : Engine χ) (p tasks : Nat) : M (St χ) IRM := do
  clearErrs
  tell p .getSpecies
  let s ← M.get
  let mine (p : Nat) : List ℚ := ((List.range s.sh.nspec).map (fun i =>
    (List.range (s.sh.count p)).map (fun l => E.species s.chem (s.sh.start p + l) i))).flatten
  if s.sh.set.flags .speciesSaveOn = true then do
    M.onRoot p (M.modify (fun s => { s with out := mine 0 }))
    M.loop ((List.range tasks).drop 1) (fun i =>
      if p = i then M.send 0 (.dbls (mine i))
      else if p = 0 then do
        let v ← M.recv i .dbl (s.sh.nspec * s.sh.count i)
        M.modify (fun s => { s with out := s.out ++ (match v with | .dbls d => d | _ => []) })
      else pure ())
    pure .ok
  else do
    M.onRoot p (M.modify (fun s => { s with out := [] }))
    pure .ok

/-- The reading that the root asks the workers for: `GetViscosity` broadcasts `METHOD_GETSOLUTIONVOLUME`,
`/repo/src/PhreeqcRM.cpp:5363`; all others broadcast their own method (`:3663, 4358, 4445, 4758, 5251`). -/
def Reading.asked : Reading → Reading
  | .viscosity => .solutionVolume
  | r => r

/-- The vector of the root that a reading is put in. -/
def readOld (r : Reading) (s : St χ) : List ℚ :=
  match r with
  | .pressure => s.rootArr .pressure
  | .temperature => s.rootArr .temperature
  | _ => []

/-- Pressure and temperature are put in the members of the process. -/
def St.store (r : Reading) (mine d : List ℚ) (s : St χ) : St χ :=
  match r with
  | .pressure => { s with
      workArr := Function.update s.workArr .pressure mine
      rootArr := Function.update s.rootArr .pressure d }
  | .temperature => { s with
      workArr := Function.update s.workArr .temperature mine
      rootArr := Function.update s.rootArr .temperature d }
  | _ => s

/-- The values of the cells of the process. -/
def Engine.mine (E : Engine χ) (p : Nat) (r : Reading) (s : St χ) : List ℚ :=
  (List.range (s.sh.count p)).map (fun l => E.reading p s r (s.sh.start p + l))

/-- `GetDensityCalculated`, `GetPressure`, `GetSaturationCalculated`, `GetSolutionVolume`,
`GetTemperature`, `GetViscosity`, `/repo/src/PhreeqcRM.cpp:3654-3711, 4350-4381, 4436-4493,
4749-4776, 5243-5275, 5354-5399`. -/
def getReading (E : Engine χ) (p : Nat) (r : Reading) : M (St χ) IRM := do
  clearErrs
  tell p (.getReading r.asked)
  let s ← M.get
  let d ← gatherNchem p (E.mine p r s) (readOld r s)
  M.onRoot p (M.modify (fun s => { s with out := d }))
  M.modify (St.store r (E.mine p r s) d)
  pure .ok

/-- `GetErrorString`, `/repo/src/PhreeqcRM.cpp:3716-3764`: length and text of every worker; the
missing end of the text on the root (`:3754-3756`) is not modelled. The result is in `errs` of the
root, where the string of the root comes first. -/
def getErrorString (p tasks : Nat) : M (St χ) IRM := do
  tell p .getErrorString
  M.loop ((List.range tasks).drop 1) (fun i =>
    if p = i then do
      let s ← M.get
      M.send 0 (.ints [(s.errs.length : Int)])
      if s.errs ≠ [] then M.send 0 (.chars s.errs) else pure ()
    else if p = 0 then do
      let v ← M.recv i .int 1
      let l : Int := match v with | .ints (a :: _) => a | _ => 0
      if l > 0 then do
        let t ← M.recv i .chr l.toNat
        errorMessage (match t with | .chars t => t | _ => [])
      else pure ()
    else pure ())
  pure .ok

/-! ## States -/

/-- `StateSave`, `/repo/src/PhreeqcRM.cpp:12753-12780`. -/
def stateSave (p : Nat) (i : Int) : M (St χ) IRM := do
  tell p .stateSave
  let i ← M.bcastInt i
  M.modify (fun s => { s with
    saved := (i, s.chem) :: s.saved.filter (fun e => e.1 ≠ i)
    sh := { s.sh with savedCells := (i, s.sh.cells) :: s.sh.savedCells.filter (fun e => e.1 ≠ i) } })
  pure .ok

/-- `StateApply`, `/repo/src/PhreeqcRM.cpp:12781-12819`: chemistry and ranges of cells become those saved; the values of the cells of the
process are not distributed again. -/
def stateApply (p : Nat) (i : Int) : M (St χ) IRM := do
  tell p .stateApply
  let i ← M.bcastInt i
  let s ← M.get
  match s.saved.lookup i, s.sh.savedCells.lookup i with
  | some c, some cs => do
    M.modify (fun s => { s with chem := c, sh := { s.sh with cells := cs } })
    pure .ok
  | _, _ => pure .invalidArg

/-- `StateDelete`, `/repo/src/PhreeqcRM.cpp:12820-12845`. -/
def stateDelete (p : Nat) (i : Int) : M (St χ) IRM := do
  tell p .stateDelete
  let i ← M.bcastInt i
  let s ← M.get
  match s.saved.lookup i, s.sh.savedCells.lookup i with
  | some _, some _ => do
    M.modify (fun s => { s with
      saved := s.saved.filter (fun e => e.1 ≠ i)
      sh := { s.sh with savedCells := s.sh.savedCells.filter (fun e => e.1 ≠ i) } })
    pure .ok
  | _, _ => pure .invalidArg

/-! ## Running the cells -/

/-- `CheckCells` of the MPI build, `/repo/src/PhreeqcRM.cpp:724-761`. -/
def checkCells (E : Engine χ) (p tasks : Nat) : M (St χ) Unit := do
  let s ← M.get
  handleErrors E p tasks
    (if E.defined s.chem (s.sh.start p) (s.sh.start p + s.sh.count p) = true then 0 else IRM.fail.toInt)

/-- The process whose range has a cell, `while (k > end_cell[old]) old++`. -/
def ownerOf : List Nat → Nat → Nat
  | [], _ => 0
  | c :: cs, k => if k < c then 0 else ownerOf cs (k - c) + 1

/-- Cells whose process changes, `/repo/src/PhreeqcRM.cpp:7907-7932`. -/
def movedCells (old new : List Nat) (count : Nat) : List Nat :=
  (List.range count).filter (fun k => ownerOf old k ≠ ownerOf new k)

/-- `transfer_pair`, `/repo/src/PhreeqcRM.cpp:7906-7933`: sending process, receiving process and
cells, in the order of the keys. -/
def transferPairs (old new : List Nat) (count : Nat) : List (Nat × Nat × List Nat) :=
  let moved := movedCells old new count
  let keys := (moved.map (fun k => (ownerOf old k, ownerOf new k))).eraseDups
  (keys.mergeSort (fun a b => decide (MpiMove.key a.1 a.2 ≤ MpiMove.key b.1 b.2))).map (fun k =>
    (k.1, k.2, moved.filter (fun c => ownerOf old c = k.1 ∧ ownerOf new c = k.2)))

/-- The cells of one entry of `transfer_pair` are sent, received and deleted,
`/repo/src/PhreeqcRM.cpp:7942-8026`: sizes and packed cells are sent with `MPI_COMM_WORLD`. The result
is `r_vector[0]`. -/
def moveData (E : Engine χ) (p : Nat) (e : Nat × Nat × List Nat) : M (St χ) Int :=
  if p = e.1 then do
    let s ← M.get
    let x := E.pack s.chem e.2.2
    let v := Val.packed x.1 x.2.1 x.2.2
    M.send (E.world e.2.1) (.ints [(v.len : Int), (x.1.length : Int), (x.2.1.length : Int),
      (x.2.2.length : Int)])
    M.send (E.world e.2.1) v
    let d := E.delete s.chem e.2.2
    M.modify (fun s => { s with chem := d.1 })
    pure (if d.2 = 0 then 0 else 1)
  else if p = e.2.1 then do
    let v ← M.recv (E.world e.1) .int 4
    let size : Int := match v with | .ints (a :: _) => a | _ => 0
    let t ← M.recv (E.world e.1) .packed size.toNat
    let s ← M.get
    match t with
    | .packed a b c =>
      match E.unpack s.chem (a, b, c) with
      | some x => do
        M.modify (fun s => { s with chem := x })
        pure 0
      | none => pure 1
    | _ => M.ub
  else pure 0

/-- `TransferCellsUZ`, `/repo/src/PhreeqcRM.cpp:8028-8050, 12949-12983`, with the communicator of
PhreeqcRM; the zero at the end of the text is left out. -/
def moveUZ (E : Engine χ) (p : Nat) (e : Nat × Nat × List Nat) : M (St χ) Unit :=
  if p = e.1 then do
    let s ← M.get
    let x := E.uzTake s.chem e.2.2
    M.modify (fun s => { s with chem := x.1 })
    M.send e.2.1 (.ints [(x.2.length : Int)])
    M.send e.2.1 (.chars x.2)
  else if p = e.2.1 then do
    let v ← M.recv e.1 .int 1
    let size : Int := match v with | .ints (a :: _) => a | _ => 0
    let t ← M.recv e.1 .chr size.toNat
    M.modify (fun s => { s with chem := E.uzPut s.chem (match t with | .chars t => t | _ => []) })
  else pure ()

/-- One entry of `transfer_pair`, `/repo/src/PhreeqcRM.cpp:7937-8056` and `:8921-9046`. A process
whose part fails throws, without a word to the others. -/
def movePair (E : Engine χ) (p : Nat) (e : Nat × Nat × List Nat) : M (St χ) Unit := do
  let r ← moveData E p e
  let s ← M.get
  if s.sh.set.partUZ = true then do
    moveUZ E p e
    if r = 0 then pure () else M.throw
  else if r = 0 then pure () else M.throw

/-- All entries of `transfer_pair`. -/
def moveAll (E : Engine χ) (p : Nat) : List (Nat × Nat × List Nat) → M (St χ) Unit
  | [] => M.pure ()
  | e :: l => M.bind (movePair E p e) (fun _ => moveAll E p l)

/-- `ScatterNchem(…_root, …_worker)` of a property. -/
def rescatter (p : Nat) (a : Arr) : M (St χ) Unit := do
  let s ← M.get
  let d ← scatterNchem p (s.rootArr a)
  M.modify (fun s => { s with workArr := Function.update s.workArr a d })

/-- Cells are moved, the ranges become the new ones, and the values of the cells are distributed
again if any cell was moved, `/repo/src/PhreeqcRM.cpp:7900-8092` and `:8880-9079`. Pressures and
temperatures are not distributed (`:8078, 8081`). -/
def redistribute (E : Engine χ) (p : Nat) (new : List Nat) : M (St χ) Unit := do
  let s ← M.get
  let old := s.sh.cells
  moveAll E p (transferPairs old new s.sh.back.length)
  M.modify (fun s => { s with sh := { s.sh with cells := new } })
  if movedCells old new s.sh.back.length ≠ [] then do
    let s ← M.get
    let m ← scatterNchemInt p s.maskRoot
    M.modify (fun s => { s with maskWork := m })
    rescatter p .density
    rescatter p .porosity
    rescatter p .rv
    rescatter p .saturation
    let s ← M.get
    if s.sh.set.partUZ = true then do
      let d ← scatterNchem p s.oldSatRoot
      M.modify (fun s => { s with oldSatWork := d })
    else pure ()
  else pure ()

/-- `start_cell_new` and `end_cell_new`, broadcast one after the other,
`/repo/src/PhreeqcRM.cpp:7897-7898, 8874-8875`: the numbers of cells. -/
def bcastRanges (p tasks : Nat) (new : List Nat) : M (St χ) (List Nat) := do
  let starts := (List.range tasks).map (fun i => (((new.take i).sum : Nat) : Int))
  let ends := (List.range tasks).map (fun i => (((new.take (i + 1)).sum : Nat) : Int) - 1)
  let zero := List.replicate tasks (0 : Int)
  let a ← M.bcastInts tasks (if p = 0 then starts else zero)
  let b ← M.bcastInts tasks (if p = 0 then ends else zero)
  pure ((a.zip b).map (fun e => (e.2 - e.1 + 1).toNat))

/-- `RebalanceLoad` and `RebalanceLoadPerCell` of the MPI build, `/repo/src/PhreeqcRM.cpp:7698-8096,
8704-9080`: times to the root, new ranges from the root, cells moved. -/
def rebalanceLoad (E : Engine χ) (p tasks : Nat) : M (St χ) Unit := do
  let s ← M.get
  if tasks ≤ 1 ∨ s.sh.back.length < tasks ∨ s.sh.set.nums .rebalanceFraction ≤ 0 then pure ()
  else if s.sh.set.flags .rebalanceByCell = true then do
    let mine (q : Nat) := (List.range (s.sh.count q)).map (fun l =>
      E.cellTime s.chem (s.sh.start q + l))
    M.modify (fun s => { s with out := mine 0 })
    M.loop ((List.range tasks).drop 1) (fun i =>
      if p = i then M.send 0 (.dbls (mine i))
      else if p = 0 then do
        let v ← M.recv i .dbl (s.sh.count i)
        M.modify (fun s => { s with out := s.out ++ (match v with | .dbls d => d | _ => []) })
      else pure ())
    let s ← M.get
    let new ← bcastRanges p tasks (E.balanceCells tasks s.sh s.out)
    redistribute E p new
  else do
    let times ← M.gatherDbl (E.threadTime s.chem)
    let found := if p = 0 then E.balanceTasks tasks s.sh times else none
    let r ← M.bcastInt (if p = 0 then (if found.isSome = true then 0 else IRM.fail.toInt) else 0)
    if r = 0 then do
      let new ← bcastRanges p tasks (found.getD [])
      redistribute E p new
    else M.throw

/-- The output texts of the processes, sent to the root if printing is on,
`/repo/src/PhreeqcRM.cpp:9745-9782`. -/
def collectOutput (p tasks : Nat) (text : List Char) : M (St χ) Unit := do
  let s ← M.get
  if s.sh.set.printOn.1 = true then
    M.loop (List.range tasks) (fun i =>
      if p = i then
        if i = 0 then pure ()
        else do
          M.send 0 (.ints [(text.length : Int)])
          M.send 0 (.chars text)
      else if p = 0 then do
        let v ← M.recv i .int 1
        let size : Int := match v with | .ints (a :: _) => a | _ => 0
        let _ ← M.recv i .chr size.toNat
        pure ()
      else pure ())
  else pure ()

/-- How `RunCells` goes on after its collective part. -/
inductive Phase where
  /-- `return this->ReturnHandler(IRM_FAIL, …)` after a failed check -/
  | early
  /-- the end of the function with a return value -/
  | late (c : IRM)
  deriving DecidableEq, Repr

/-- `RunCells` of the MPI build from the broadcast of the method to before the last
`if (mpi_myself == 0)`, `/repo/src/PhreeqcRM.cpp:9694-9807`. -/
def runCellsPart (E : Engine χ) (p tasks : Nat) : M (St χ) Phase := do
  clearErrs
  tell p .runCells
  let s ← M.get
  let ok ← (if s.sh.check = true then do
    M.modify (fun s => { s with sh := { s.sh with check := false } })
    M.tryCatch (do checkCells E p tasks; pure true) (do M.barrier; pure false)
    else pure true)
  if ok = true then do
    let s ← M.get
    let r := E.runCells p s
    M.modify (fun s => { s with chem := r.1 })
    M.modify (fun s => if s.sh.set.partUZ = true then
      { s with oldSatWork := s.workArr .saturation
               oldSatRoot := if p = 0 then s.rootArr .saturation else s.oldSatRoot } else s)
    collectOutput p tasks r.2.2
    let c ← M.tryCatch
      (do
        handleErrors E p tasks r.2.1
        rebalanceLoad E p tasks
        M.barrier
        pure IRM.ok)
      (pure .fail)
    pure (.late c)
  else pure .early

/-- `RunCells` of the MPI build, `/repo/src/PhreeqcRM.cpp:9666-9820`. The root ends with
`GetConcentrations` and `GetSpeciesConcentrations`, for which the workers are back in `MpiWorker`. -/
def runCells (E : Engine χ) (p tasks : Nat) : M (St χ) IRM := do
  let ph ← runCellsPart E p tasks
  match ph with
  | .early => returnHandler .fail
  | .late c => do
    if p = 0 then do
      let _ ← getConcentrations E p
      let s ← M.get
      if s.sh.set.flags .speciesSaveOn = true then do
        let _ ← getSpecies E p tasks
        returnHandler c
      else returnHandler c
    else returnHandler c

/-! ## Calls of the user and the loop of the workers -/

/-- A call of the user in the root process. -/
inductive Call where
  | setNum (k : Num) (t : ℚ)
  | setFlag (f : Flag) (t : Bool)
  | setUnits (k : UKind) (u : Int)
  | setMode (i : Int)
  | setFilePrefix (t : List Char)
  | setPrintOn (w i u : Bool)
  | setPartitionUZ (t : Bool)
  | setMask (m : List Int)
  | setArr (a : Arr) (v : List ℚ)
  | loadDatabase (t : List Char)
  | runFile (w i u : Bool) (t : List Char)
  | runString (w i u : Bool) (t : List Char)
  | setConcentrations (t : List ℚ)
  | getConcentrations
  | getSpecies
  | getReading (r : Reading)
  | getErrorString
  | stateSave (i : Int)
  | stateApply (i : Int)
  | stateDelete (i : Int)
  | runCells

/-- The function that the root runs. -/
def perform (E : Engine χ) (tasks : Nat) : Call → M (St χ) IRM
  | .setNum k t => setNum 0 k t
  | .setFlag f t => setFlag 0 f t
  | .setUnits k u => setUnits 0 k u
  | .setMode i => setMode 0 i
  | .setFilePrefix t => setFilePrefix 0 t
  | .setPrintOn w i u => setPrintOn 0 w i u
  | .setPartitionUZ t => setPartitionUZ 0 t
  | .setMask m => setMask 0 m
  | .setArr a v => setArr E 0 a v
  | .loadDatabase t => loadDatabase E 0 tasks t
  | .runFile w i u t => runFile E 0 tasks w i u t
  | .runString w i u t => runString E 0 tasks w i u t
  | .setConcentrations t => setConcentrations E 0 t
  | .getConcentrations => getConcentrations E 0
  | .getSpecies => getSpecies E 0 tasks
  | .getReading r => getReading E 0 r
  | .getErrorString => getErrorString 0 tasks
  | .stateSave i => stateSave 0 i
  | .stateApply i => stateApply 0 i
  | .stateDelete i => stateDelete 0 i
  | .runCells => runCells E 0 tasks

/-- The function that a worker runs for a method, with the dummy arguments of `MpiWorker`,
`/repo/src/PhreeqcRM.cpp:7033-7447`. -/
def dispatch (E : Engine χ) (tasks p : Nat) : Method → M (St χ) IRM
  | .getConcentrations => getConcentrations E p
  | .getErrorString => getErrorString p tasks
  | .getReading r => getReading E p r
  | .getSpecies => getSpecies E p tasks
  | .loadDatabase => loadDatabase E p tasks [' ']
  | .workerBreak => pure .ok
  | .runCells => runCells E p tasks
  | .runFile => runFile E p tasks false false false [' ']
  | .runString => runString E p tasks false false false [' ']
  | .setConcentrations => setConcentrations E p []
  | .setArr a => setArr E p a []
  | .setMode => setMode p 1
  | .setFilePrefix => setFilePrefix p [' ']
  | .setPartitionUZ => setPartitionUZ p false
  | .setPrintOn => setPrintOn p false false false
  | .setMask => setMask p []
  | .setFlag f => setFlag p f false
  | .setNum k => setNum p k 0
  | .setUnits k => setUnits p k 0
  | .stateSave => stateSave p 0
  | .stateApply => stateApply p 0
  | .stateDelete => stateDelete p 0

/-- Outcome of a function in a process, with its data. -/
abbrev Outcome (χ : Type) : Type := Res IRM × St χ

/-- State of a process: the root runs the program of the user, a worker runs `MpiWorker`. -/
inductive PState (χ α : Type) where
  | root (P : Prog α)
  | work (Q : Prog (Outcome χ))
  | ended (s : St χ)

/-- What a process does next. A worker whose function is finished, whether it returned an error or
threw (`/repo/src/PhreeqcRM.cpp:7471-7476`), goes back to the broadcast of the method (`:7032`);
`METHOD_MPIWORKERBREAK` ends the loop, unknown numbers do nothing. A process that called `exit` or
has undefined behaviour takes no further part. -/
def pact {α : Type} (E : Engine χ) (tasks p : Nat) : PState χ α → Act (PState χ α)
  | .root (.ret _) => .done
  | .root (.coll c k) => .coll c (fun r => .root (k r))
  | .root (.send q v k) => .send q v (.root k)
  | .root (.recv q t c k) => .recv q t c (fun v => .root (k v))
  | .work (.ret (.exited, _)) => .done
  | .work (.ret (.ub, _)) => .done
  | .work (.ret (_, s)) => .coll (.bcast .int 1 (.ints [-1])) (fun r =>
      match r with
      | .one (.ints [c]) =>
        match Method.ofCode c with
        | some .workerBreak => .ended s
        | some m => .work (dispatch E tasks p m s)
        | none => .work (.ret (.ok .ok, s))
      | _ => .ended s)
  | .work (.coll c k) => .coll c (fun r => .work (k r))
  | .work (.send q v k) => .send q v (.work k)
  | .work (.recv q t c k) => .recv q t c (fun v => .work (k v))
  | .ended _ => .done

/-- The program of the user: the calls one after the other, exceptions being caught, then
`MpiWorkerBreak`, `/repo/src/PhreeqcRM.cpp:7482-7492`. The results are kept. -/
def session (E : Engine χ) (tasks : Nat) : List Call → St χ → Prog (List (Res IRM) × St χ)
  | [], s => .coll (.bcast .int 1 (.ints [Method.workerBreak.code])) (fun _ => .ret ([], s))
  | c :: cs, s => (perform E tasks c s).bind (fun r =>
      match r.1 with
      | .exited => .ret ([.exited], r.2)
      | .ub => .ret ([.ub], r.2)
      | x => (session E tasks cs r.2).bind (fun y => .ret (x :: y.1, y.2)))

/-- The processes at the beginning: the root starts its program, the workers wait in `MpiWorker`. -/
def start (E : Engine χ) (tasks : Nat) (cs : List Call) (s : Nat → St χ) :
    Config (PState χ (List (Res IRM) × St χ)) where
  ps := fun p => if p = 0 then .root (session E tasks cs (s 0)) else .work (.ret (.ok .ok, s p))
  ch := fun _ => []

end Verif.Lockstep
