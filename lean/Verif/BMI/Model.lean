import Verif.Base
import Mathlib.Algebra.Order.Field.Rat

/-!
# The BMI layer

`BMIPhreeqcRM` (`/repo/src/BMIPhreeqcRM.cpp`), `VarManager` (`/repo/src/VarManager.cpp`) and
`BMIVariant` (`/repo/src/BMIVariant.h`), for C++ (neither SWIG nor pybind11).

The module underneath is abstract (`Mod`): what its getters return in a state and what its setters
do to the state. The layer on top is modelled with its buffers: every variable has a `BMIVariant`
with a `DoubleVector`, scalars, and the pointer handed out by `GetValuePtr`; all transfers go
through the shared `VarExchange`. Exceptions keep the state they leave behind. A buffer has a
generation that changes whenever the vector is reallocated; a pointer to an older generation
dangles. Growing a vector gives it the capacity of its new size (the standard only asks for at
least that). Sizes in bytes: `int` 4, `double` 8, `bool` 1. The 26 functions `*_Var` have the same
form; here they are one function with tables, cited by line.
-/

namespace Verif.BMI

/-- Variables, in the order of `enum class RMVARS`, `/repo/src/RMVARS.h:3-45` (those in
`VariantMap`, `/repo/src/VarManager.cpp:18-69`). -/
inductive Var
  | ComponentCount | Components | Concentrations | DensityCalculated | DensityUser | ErrorString
  | FilePrefix | Gfw | GridCellCount | NthSelectedOutput | SaturationCalculated | SaturationUser
  | SelectedOutput | SelectedOutputColumnCount | SelectedOutputCount | SelectedOutputHeadings
  | SelectedOutputRowCount | SolutionVolume | Time | TimeStep | CurrentSelectedOutputUserNumber
  | Porosity | Pressure | SelectedOutputOn | Temperature | Viscosity
  deriving DecidableEq, Repr

/-- The keys of `VariantMap` in map order. -/
def Var.all : List Var :=
  [.ComponentCount, .Components, .Concentrations, .DensityCalculated, .DensityUser, .ErrorString,
   .FilePrefix, .Gfw, .GridCellCount, .NthSelectedOutput, .SaturationCalculated, .SaturationUser,
   .SelectedOutput, .SelectedOutputColumnCount, .SelectedOutputCount, .SelectedOutputHeadings,
   .SelectedOutputRowCount, .SolutionVolume, .Time, .TimeStep, .CurrentSelectedOutputUserNumber,
   .Porosity, .Pressure, .SelectedOutputOn, .Temperature, .Viscosity]

/-- Names, `/repo/src/VarManager.cpp:18-69`. -/
def Var.name : Var → String
  | .ComponentCount => "ComponentCount"
  | .Components => "Components"
  | .Concentrations => "Concentrations"
  | .DensityCalculated => "DensityCalculated"
  | .DensityUser => "DensityUser"
  | .ErrorString => "ErrorString"
  | .FilePrefix => "FilePrefix"
  | .Gfw => "Gfw"
  | .GridCellCount => "GridCellCount"
  | .NthSelectedOutput => "NthSelectedOutput"
  | .SaturationCalculated => "SaturationCalculated"
  | .SaturationUser => "SaturationUser"
  | .SelectedOutput => "SelectedOutput"
  | .SelectedOutputColumnCount => "SelectedOutputColumnCount"
  | .SelectedOutputCount => "SelectedOutputCount"
  | .SelectedOutputHeadings => "SelectedOutputHeadings"
  | .SelectedOutputRowCount => "SelectedOutputRowCount"
  | .SolutionVolume => "SolutionVolume"
  | .Time => "Time"
  | .TimeStep => "TimeStep"
  | .CurrentSelectedOutputUserNumber => "CurrentSelectedOutputUserNumber"
  | .Porosity => "Porosity"
  | .Pressure => "Pressure"
  | .SelectedOutputOn => "SelectedOutputOn"
  | .Temperature => "Temperature"
  | .Viscosity => "Viscosity"

/-- `std::transform(..., tolower)`. -/
def lower (s : List Char) : List Char := s.map Char.toLower

/-- `GetEnum`, `/repo/src/VarManager.cpp:131-141`, with the map filled in lines 81-87 (later
entries replace earlier ones; the names differ, see `enum_of_name`). -/
def getEnum (name : List Char) : Option Var :=
  Var.all.reverse.find? (fun v => lower v.name.toList == lower name)

/-- C++ types of the values, the first argument of `SetTypes`. -/
inductive CType
  | int | double | bool | string | strings
  deriving DecidableEq, Repr

/-- Which type a variable has (the calls of `SetTypes`, same lines as `flags`). -/
def Var.ctype : Var → CType
  | .ComponentCount | .GridCellCount | .NthSelectedOutput | .SelectedOutputColumnCount
  | .SelectedOutputCount | .SelectedOutputRowCount | .CurrentSelectedOutputUserNumber => .int
  | .Components | .SelectedOutputHeadings => .strings
  | .ErrorString | .FilePrefix => .string
  | .SelectedOutputOn => .bool
  | _ => .double

/-- Has a single value (`Time`, `TimeStep`), as opposed to a `DoubleVector`. -/
def Var.scalar : Var → Bool
  | .Time | .TimeStep => true
  | _ => false

/-- Kept in a `DoubleVector`. -/
def Var.isVec (v : Var) : Bool := v.ctype == .double && !v.scalar

/-- `HasSetter, HasGetter, HasPtr`: the arguments of `SetBasic`, `/repo/src/VarManager.cpp` lines
165, 222, 297, 346, 400, 466, 514, 569, 613, 665, 711, 766, 826 and 836, 877, 926, 991, 1063, 1112,
1159, 1205, 1251, 1300, 1377, 1476, 1544, 1592 (in the order of the file). -/
def Var.flags : Var → Bool × Bool × Bool
  | .ComponentCount => (false, true, true)
  | .Components => (false, true, false)
  | .Concentrations => (true, true, true)
  | .DensityCalculated => (false, true, true)
  | .DensityUser => (true, false, false)
  | .ErrorString => (false, true, false)
  | .FilePrefix => (true, true, false)
  | .Gfw => (false, true, true)
  | .GridCellCount => (false, true, true)
  | .NthSelectedOutput => (true, false, false)
  | .SaturationCalculated => (false, true, true)
  | .SaturationUser => (true, false, false)
  | .SelectedOutput => (false, true, false)
  | .SelectedOutputColumnCount => (false, true, false)
  | .SelectedOutputCount => (false, true, false)
  | .SelectedOutputHeadings => (false, true, false)
  | .SelectedOutputRowCount => (false, true, false)
  | .SolutionVolume => (false, true, true)
  | .Time => (true, true, true)
  | .TimeStep => (true, true, true)
  | .CurrentSelectedOutputUserNumber => (false, true, false)
  | .Porosity => (true, true, true)
  | .Pressure => (true, true, true)
  | .SelectedOutputOn => (true, true, true)
  | .Temperature => (true, true, true)
  | .Viscosity => (false, true, true)

/-- `VAR_TASKS`, `/repo/src/VarManager.h:18-27`. -/
inductive Task
  | rmUpdate | update | getPtr | getVar | setVar | info
  deriving DecidableEq, Repr

/-- Tasks whose `case` does not throw. -/
def Var.allows : Var → Task → Bool
  | _, .info => true
  -- /repo/src/VarManager.cpp:170-202
  | .ComponentCount, .getPtr | .ComponentCount, .getVar => true
  | .ComponentCount, _ => false
  -- 233-268
  | .Components, .getPtr | .Components, .getVar => true
  | .Components, _ => false
  -- 305-332
  | .Concentrations, _ => true
  -- 352-386
  | .DensityCalculated, .setVar => false
  | .DensityCalculated, _ => true
  -- 406-452
  | .DensityUser, .setVar => true
  | .DensityUser, _ => false
  -- 478-500
  | .ErrorString, .getPtr | .ErrorString, .setVar => false
  | .ErrorString, _ => true
  -- 526-555
  | .FilePrefix, .getPtr => false
  | .FilePrefix, _ => true
  -- 575-599
  | .Gfw, .setVar => false
  | .Gfw, _ => true
  -- 618-651
  | .GridCellCount, .getPtr | .GridCellCount, .getVar => true
  | .GridCellCount, _ => false
  -- 670-697
  | .NthSelectedOutput, .setVar => true
  | .NthSelectedOutput, _ => false
  -- 717-752
  | .SaturationCalculated, .setVar => false
  | .SaturationCalculated, _ => true
  -- 772-809
  | .SaturationUser, .setVar | .SaturationUser, .rmUpdate => true
  | .SaturationUser, _ => false
  -- 840-863
  | .SelectedOutput, .getVar => true
  | .SelectedOutput, _ => false
  -- 883-912, 931-960, 1007-1049, 1069-1098
  | .SelectedOutputColumnCount, .getVar => true
  | .SelectedOutputColumnCount, _ => false
  | .SelectedOutputCount, .getVar => true
  | .SelectedOutputCount, _ => false
  | .SelectedOutputHeadings, .getVar => true
  | .SelectedOutputHeadings, _ => false
  | .SelectedOutputRowCount, .getVar => true
  | .SelectedOutputRowCount, _ => false
  -- 1120-1145
  | .SolutionVolume, .setVar => false
  | .SolutionVolume, _ => true
  -- 1165-1191, 1211-1237
  | .Time, _ => true
  | .TimeStep, _ => true
  -- 1257-1286
  | .CurrentSelectedOutputUserNumber, .getVar => true
  | .CurrentSelectedOutputUserNumber, _ => false
  -- 1308-1363, 1385-1411
  | .Porosity, _ => true
  | .Pressure, _ => true
  -- 1483-1529, 1552-1578
  | .SelectedOutputOn, _ => true
  | .Temperature, _ => true
  -- 1600-1625
  | .Viscosity, .setVar => false
  | .Viscosity, _ => true

/-- The module underneath: getters and setters on its states, and its sizes. -/
structure Mod (σ : Type) where
  nxyz   : Nat
  ncomp  : σ → Nat
  nsel   : σ → Nat                       -- GetSelectedOutputCount
  vec    : σ → Var → List ℚ              -- GetConcentrations, GetPorosity, ...
  num    : σ → Var → ℚ                   -- GetTime, GetTimeStep
  int    : σ → Var → Int
  on     : σ → Bool                      -- GetSelectedOutputOn
  str    : σ → Var → List Char           -- GetErrorString, GetFilePrefix
  strs   : σ → Var → List (List Char)    -- GetComponents, GetSelectedOutputHeadings
  setVec : σ → Var → List ℚ → σ
  setNum : σ → Var → ℚ → σ
  setInt : σ → Var → Int → σ
  setOn  : σ → Bool → σ
  setStr : σ → Var → List Char → σ

/-- Number of values of a vector variable. -/
def Mod.size {σ : Type} (m : Mod σ) (st : σ) : Var → Nat
  | .Concentrations => m.nxyz * m.ncomp st
  | .Gfw => m.ncomp st
  | .SelectedOutput => (m.vec st .SelectedOutput).length
  | _ => m.nxyz

/-- A `std::vector<double>`: generation of its storage, capacity, contents. -/
structure Buf where
  gen  : Nat
  cap  : Nat
  data : List ℚ
  deriving DecidableEq, Repr

/-- `resize`. -/
def Buf.resize (b : Buf) (n : Nat) : Buf :=
  let d := (b.data ++ List.replicate (n - b.data.length) 0).take n
  if n ≤ b.cap then { b with data := d } else ⟨b.gen + 1, n, d⟩

/-- Assignment of a vector. -/
def Buf.assign (b : Buf) (l : List ℚ) : Buf :=
  if l.length ≤ b.cap then { b with data := l } else ⟨b.gen + 1, l.length, l⟩

/-- `SetDoubleVector`, `/repo/src/BMIVariant.h:116-119` (assertions off): `none` when it writes past
the end. -/
def Buf.copy (b : Buf) (l : List ℚ) : Option Buf :=
  if l.length ≤ b.data.length then some { b with data := l ++ b.data.drop l.length } else none

/-- Pointers handed out: into a vector's storage of a generation, or to a scalar member. -/
inductive Ptr
  | vec (gen : Nat)
  | scalar
  deriving DecidableEq, Repr

/-- `BMIVariant`, `/repo/src/BMIVariant.h:24-50`. -/
structure Variant where
  init     : Bool
  set      : Bool
  get      : Bool
  ptr      : Bool
  nbytes   : Nat
  itemsize : Nat
  dim      : Nat
  ctype    : Option CType
  buf      : Buf
  dvar     : ℚ
  ivar     : Int
  bvar     : Bool
  str      : List Char
  strs     : List (List Char)
  void     : Option Ptr
  deriving Repr

/-- As constructed, `/repo/src/BMIVariant.cpp:2-22`. -/
def Variant.new : Variant :=
  ⟨false, false, false, false, 0, 0, 0, none, ⟨0, 0, []⟩, 0, 0, false, [], [], none⟩

/-- `VarExchange`: the members in use. -/
structure Ex where
  nbytes   : Nat
  itemsize : Nat
  dim      : Nat
  ctype    : Option CType
  dvar     : ℚ
  ivar     : Int
  bvar     : Bool
  str      : List Char
  strs     : List (List Char)
  data     : List ℚ
  deriving Repr

/-- An automatic output variable: its name as given and its column. -/
structure Auto where
  name   : List Char
  column : Nat
  deriving DecidableEq, Repr

/-- The module with its `VarManager`. -/
structure S (σ : Type) where
  st   : σ
  va   : Var → Variant
  ex   : Ex
  pset : Var → Bool        -- PointerSet
  uset : Var → Bool        -- UpdateSet
  cur  : Option Var        -- CurrentVar
  auto : List (List Char × Auto)  -- AutoOutputVars

/-- Outcome of a call: returns, throws leaving a state, or undefined. -/
inductive R (σ : Type) (α : Type)
  | ok (s : S σ) (a : α)
  | threw (s : S σ)
  | ub

/-- Sequencing. -/
def R.bind {σ α β : Type} (r : R σ α) (f : S σ → α → R σ β) : R σ β :=
  match r with
  | .ok s a => f s a
  | .threw s => .threw s
  | .ub => .ub

@[simp] theorem R.bind_ok {σ α β : Type} (s : S σ) (a : α) (f : S σ → α → R σ β) :
    (R.ok s a).bind f = f s a := rfl
@[simp] theorem R.bind_threw {σ α β : Type} (s : S σ) (f : S σ → α → R σ β) :
    (R.threw s : R σ α).bind f = .threw s := rfl
@[simp] theorem R.bind_ub {σ α β : Type} (f : S σ → α → R σ β) :
    (R.ub : R σ α).bind f = .ub := rfl

variable {σ : Type}

/-- Change one variant. -/
def S.upd (s : S σ) (v : Var) (f : Variant → Variant) : S σ :=
  { s with va := fun w => if w = v then f (s.va v) else s.va w }

/-- `SetBasic`, `/repo/src/BMIVariant.h:80-99`, and `SetTypes`, 106-109. -/
def Variant.basic (a : Variant) (v : Var) (nbytes itemsize : Nat) : Variant :=
  { a with
    set := v.flags.1
    get := v.flags.2.1
    ptr := v.flags.2.2
    nbytes := nbytes
    itemsize := itemsize
    dim := if itemsize ≠ 0 then nbytes / itemsize else a.dim
    ctype := some v.ctype }

/-- Length of the longest string. -/
def maxLen (l : List (List Char)) : Nat := l.foldl (fun m s => if m < s.length then s.length else m) 0

/-- The start of a `*_Var` function: what is done unless the variant is initialised (for
`FilePrefix` always, `/repo/src/VarManager.cpp:509-525`). -/
def setup (m : Mod σ) (v : Var) (s : S σ) : S σ :=
  if (s.va v).init ∧ v ≠ .FilePrefix then s
  else match v with
  | .SelectedOutput =>
    -- 818-839: never marked as initialised
    s.upd v (fun a => a.basic v (if 0 < m.nsel s.st then 8 * m.size s.st v else 8) 8)
  | .Gfw =>
    -- 564-574
    let s := s.upd v (fun a =>
      { a.basic v (8 * m.size s.st v) 8 with buf := a.buf.assign (m.vec s.st v), init := true })
    { s with ex := { s.ex with data := m.vec s.st v } }
  | .Time | .TimeStep =>
    let s := s.upd v (fun a => { a.basic v 8 8 with dvar := m.num s.st v, init := true })
    { s with ex := { s.ex with dvar := m.num s.st v } }
  | .SelectedOutputOn =>
    -- 1471-1482
    s.upd v (fun a =>
      { a.basic v 1 1 with bvar := m.on s.st, ivar := if m.on s.st then 1 else 0, init := true })
  | .ErrorString =>
    -- 461-477
    let e := m.str s.st v
    let s := s.upd v (fun a => { a.basic v e.length e.length with str := e, init := true })
    { s with ex := { s.ex with str := e } }
  | .FilePrefix =>
    let e := m.str s.st v
    s.upd v (fun a => { a.basic v e.length e.length with str := e })
  | .Components =>
    -- 211-232
    let l := m.strs s.st v
    s.upd v (fun a => { a.basic v (maxLen l * l.length) (maxLen l) with strs := l, init := true })
  | .SelectedOutputHeadings =>
    -- 969-1006: only with a selected output; never marked as initialised
    if 0 < m.nsel s.st then
      let l := m.strs s.st v
      let k := maxLen (l ++ s.auto.map (fun p => p.2.name))
      let s := s.upd v (fun a => { a.basic v (k * l.length) k with strs := l })
      { s with ex := { s.ex with strs := l } }
    else s
  | .ComponentCount | .GridCellCount | .SelectedOutputCount =>
    s.upd v (fun a => { a.basic v 4 4 with ivar := m.int s.st v, init := true })
  | .SelectedOutputRowCount =>
    -- 1058-1068: never marked as initialised
    s.upd v (fun a => { a.basic v 4 4 with ivar := m.nxyz })
  | .NthSelectedOutput | .SelectedOutputColumnCount | .CurrentSelectedOutputUserNumber =>
    s.upd v (fun a => { a.basic v 4 4 with ivar := -1, init := true })
  | _ =>
    -- the vectors: 277-304, 341-351, 395-405, 706-716, 761-771, 1107-1119, 1295-1307, 1372-1384,
    -- 1539-1551, 1587-1599
    let n := m.size s.st v
    let s := s.upd v (fun a => { a.basic v (8 * n) 8 with buf := a.buf.resize n, init := true })
    { s with ex := { s.ex with data := (Buf.resize ⟨0, 0, s.ex.data⟩ n).data } }

/-- `bv.SetDoubleVector(l)`. -/
def copyTo (v : Var) (l : List ℚ) (s : S σ) : R σ Unit :=
  match (s.va v).buf.copy l with
  | some b => .ok (s.upd v (fun a => { a with buf := b })) ()
  | none => .ub

/-- Reading the value from the module into the variant and `VarExchange`. -/
def fetch (m : Mod σ) (v : Var) (s : S σ) : R σ Unit :=
  match v with
  | .SelectedOutput =>
    -- 847-852
    let l := m.vec s.st v
    .ok { s.upd v (fun a => { a with buf := a.buf.assign l }) with ex := { s.ex with data := l } } ()
  | .Time | .TimeStep =>
    .ok { s.upd v (fun a => { a with dvar := m.num s.st v }) with
      ex := { s.ex with dvar := m.num s.st v } } ()
  | .SelectedOutputOn =>
    let i : Int := if m.on s.st then 1 else 0
    .ok { s.upd v (fun a => { a with bvar := m.on s.st, ivar := i }) with
      ex := { s.ex with bvar := m.on s.st, ivar := i } } ()
  | .ErrorString =>
    -- 485-493: the item size follows, the number of bytes does not
    let e := m.str s.st v
    .ok { s.upd v (fun a => { a with str := e, itemsize := e.length }) with
      ex := { s.ex with str := e } } ()
  | .FilePrefix =>
    let e := m.str s.st v
    .ok { s.upd v (fun a => { a with str := e }) with ex := { s.ex with str := e } } ()
  | .Components => .ok { s with ex := { s.ex with strs := m.strs s.st v } } ()
  | .SelectedOutputHeadings =>
    -- 1014-1032
    let l := m.strs s.st v
    let k := maxLen (l ++ s.auto.map (fun p => p.2.name))
    .ok { s.upd v (fun a => { a with strs := l, itemsize := k }) with
      ex := { s.ex with strs := l } } ()
  | .ComponentCount | .GridCellCount | .SelectedOutputCount | .SelectedOutputRowCount
  | .SelectedOutputColumnCount | .CurrentSelectedOutputUserNumber | .NthSelectedOutput =>
    .ok (s.upd v (fun a => { a with ivar := m.int s.st v })) ()
  | _ =>
    copyTo v (m.vec s.st v) { s with ex := { s.ex with data := m.vec s.st v } }

/-- `rm_ptr->GetConcentrations(c); bv_c.SetDoubleVector(c)`. -/
def refresh (m : Mod σ) (v : Var) (s : S σ) : R σ Unit := copyTo v (m.vec s.st v) s

/-- The pointer stored by task `GetPtr`: `data()` of an empty vector without storage is null. -/
def pointerTo (v : Var) (a : Variant) : Option Ptr :=
  if v.isVec then (if a.buf.cap = 0 then none else some (.vec a.buf.gen)) else some .scalar

/-- Variables whose `GetPtr` also enters `UpdateSet` (not `Gfw`, `ComponentCount`,
`GridCellCount`). -/
def Var.updates (v : Var) : Bool :=
  match v with
  | .Gfw | .ComponentCount | .GridCellCount => false
  | _ => true

/-- A `*_Var` function for every task but `SetVar`. -/
def plainBody (m : Mod σ) (t : Task) (v : Var) (s : S σ) : R σ Unit :=
  if v.allows t = false then .threw s
  else match t, v with
  | .info, _ => .ok s ()
  | .getPtr, .Components => .ok s ()   -- 235-245: only the vector of char*
  | .getPtr, v =>
    (fetch m v s).bind fun s _ =>
      .ok { s.upd v (fun a => { a with void := pointerTo v a }) with
        pset := fun w => if w = v then true else s.pset w
        uset := fun w => if w = v then v.updates || s.uset w else s.uset w } ()
  | .rmUpdate, .SaturationUser => refresh m .Concentrations s
  | .rmUpdate, .DensityCalculated =>
    (refresh m .Concentrations s).bind fun s _ => fetch m .DensityCalculated s
  | .rmUpdate, .SaturationCalculated =>
    (refresh m .Concentrations s).bind fun s _ => fetch m .SaturationCalculated s
  | .rmUpdate, .Porosity =>
    (fetch m .Porosity s).bind fun s _ =>
      (refresh m .Concentrations s).bind fun s _ => refresh m .SaturationCalculated s
  | .getVar, .GridCellCount =>
    -- 628-634: also enters PointerSet
    (fetch m .GridCellCount s).bind fun s _ =>
      .ok { s with pset := fun w => if w = .GridCellCount then true else s.pset w } ()
  | _, v => fetch m v s

/-- The end of a `*_Var` function: `VarExchange.CopyScalars(bv); SetCurrentVar(NotFound)`. -/
def finish (v : Var) (s : S σ) : S σ :=
  let a := s.va v
  { s with
    cur := none
    ex := { s.ex with
      nbytes := a.nbytes, itemsize := a.itemsize, dim := a.dim, ctype := a.ctype, dvar := a.dvar,
      ivar := a.ivar, bvar := a.bvar } }

/-- The start: `SetCurrentVar(VARS_myself)`; missing in `DensityUser_Var`,
`/repo/src/VarManager.cpp:390-394`. -/
def enter (v : Var) (s : S σ) : S σ := if v = .DensityUser then s else { s with cur := some v }

/-- A `*_Var` function for every task but `SetVar`. -/
def plain (m : Mod σ) (t : Task) (v : Var) (s : S σ) : R σ Unit :=
  (plainBody m t v (setup m v (enter v s))).bind fun s _ => .ok (finish v s) ()

/-- `RM2BMIUpdate`, `/repo/src/VarManager.cpp:118-130`, called through `UpdateBMI` at the end of the
module's setters. -/
def notify (m : Mod σ) (v : Var) (s : S σ) : R σ Unit :=
  if Var.all.any s.pset = false then .ok s ()
  else if s.cur = some v then .ok s ()
  else plain m .rmUpdate v s

/-- The variable a setter of the module announces: `/repo/src/PhreeqcRM.cpp:11140` concentrations,
11592 density, 11937, 12003, 12149, 12192, 12278, 12302, 12351. -/
def Var.announces : Var → Option Var
  | .Concentrations => some .Concentrations
  | .DensityUser => some .DensityCalculated
  | .Porosity => some .Porosity
  | .Pressure => some .Pressure
  | .SaturationUser => some .SaturationUser
  | .SelectedOutputOn => some .SelectedOutputOn
  | .Temperature => some .Temperature
  | .Time => some .Time
  | .TimeStep => some .TimeStep
  | _ => none

/-- A setter of the module that gave the state `st`. -/
def rmSet (m : Mod σ) (v : Var) (st : σ) (s : S σ) : R σ Unit :=
  match v.announces with
  | some w => notify m w { s with st := st }
  | none => .ok { s with st := st } ()

/-- Task `SetVar`. -/
def setBody (m : Mod σ) (v : Var) (s : S σ) : R σ Unit :=
  if v.allows .setVar = false then .threw s
  else match v with
  | .Concentrations =>
    -- 324-328
    (rmSet m v (m.setVec s.st v s.ex.data) s).bind fun s _ => fetch m v s
  | .DensityUser | .SaturationUser =>
    -- 436-448, 795-805
    (rmSet m v (m.setVec s.st v s.ex.data) s).bind fun s _ =>
      (copyTo v s.ex.data s).bind fun s _ => refresh m .Concentrations s
  | .Porosity =>
    -- 1343-1359
    (rmSet m v (m.setVec s.st v s.ex.data) s).bind fun s _ =>
      (copyTo v s.ex.data s).bind fun s _ =>
        (refresh m .Concentrations s).bind fun s _ => refresh m .SaturationCalculated s
  | .Time | .TimeStep =>
    (rmSet m v (m.setNum s.st v s.ex.dvar) s).bind fun s _ =>
      .ok (s.upd v (fun a => { a with dvar := s.ex.dvar })) ()
  | .SelectedOutputOn =>
    -- 1516-1525
    let b := s.ex.bvar
    let i : Int := if b then 1 else 0
    rmSet m v (m.setOn s.st b)
      { s.upd v (fun a => { a with bvar := b, ivar := i }) with ex := { s.ex with ivar := i } }
  | .NthSelectedOutput =>
    rmSet m v (m.setInt s.st v s.ex.ivar) s
  | .FilePrefix =>
    -- 541-551
    (rmSet m v (m.setStr s.st v s.ex.str)
      (s.upd v (fun a => a.basic v s.ex.str.length s.ex.str.length))).bind fun s _ =>
      .ok (s.upd v (fun a => { a with str := s.ex.str })) ()
  | _ =>
    -- Pressure, Temperature: 1404-1407, 1571-1574
    (rmSet m v (m.setVec s.st v s.ex.data) s).bind fun s _ => copyTo v s.ex.data s

/-- A `*_Var` function. -/
def varFn (m : Mod σ) (t : Task) (v : Var) (s : S σ) : R σ Unit :=
  if t = .setVar then
    (setBody m v (setup m v (enter v s))).bind fun s _ => .ok (finish v s) ()
  else plain m t v s

/-- `if (!bv.GetInitialized()) { task = Info; fn(); }`. -/
def ensure (m : Mod σ) (v : Var) (s : S σ) : R σ Unit :=
  if (s.va v).init then .ok s () else varFn m .info v s

/-- Values of the C++ calls. -/
inductive Value
  | int (i : Int)
  | num (x : ℚ)
  | vec (l : List ℚ)
  | bool (b : Bool)
  | chars (l : List Char)
  | strs (l : List (List Char))
  deriving DecidableEq, Repr

/-- `std::setw(itemsize)` with blanks on the right. -/
def padTo (k : Nat) (s : List Char) : List Char := s ++ List.replicate (k - s.length) ' '

/-- What `GetValue(name, void*)` copies, `/repo/src/BMIPhreeqcRM.cpp:632-684`: the outer `none` is
undefined behaviour (reading past the end), the inner one no matching case. -/
def copyOut (e : Ex) (itemsize : Nat) : Option (Option Value) :=
  match e.ctype with
  | some .bool => if e.dim = 1 then some (some (.bool e.bvar)) else some none
  | some .int => if e.dim = 1 then some (some (.int e.ivar)) else some none
  | some .double =>
    if e.dim = 1 then some (some (.vec [e.dvar]))
    else if 1 < e.dim then
      if e.dim ≤ e.data.length then some (some (.vec (e.data.take e.dim))) else none
    else some none
  | some .strings => some (some (.chars ((e.strs.map (padTo itemsize)).flatten)))
  | some .string =>
    if e.dim ≤ 1 then
      if e.nbytes ≤ e.str.length + 1 then
        some (some (.chars ((e.str ++ [Char.ofNat 0]).take e.nbytes)))
      else none
    else some none
  | none => some none

/-- `GetValue(name, void*)` for a variable of `VariantMap`, `/repo/src/BMIPhreeqcRM.cpp:618-712`.
Without a matching case the name is looked up among the automatic variables and not found there
(unless a name coincides, not modelled), so it throws. -/
def getValueRaw (m : Mod σ) (v : Var) (s : S σ) : R σ Value :=
  (ensure m v s).bind fun s _ => (varFn m .getVar v s).bind fun s _ =>
    match s.ex.ctype with
    | some .strings =>
      -- 653-664: GetVarItemsize runs Info once more when not initialised
      (ensure m v s).bind fun s' _ =>
        match copyOut s.ex (s'.va v).itemsize with
        | some (some x) => .ok s' x
        | some none => .threw s'
        | none => .ub
    | _ =>
      match copyOut s.ex s.ex.itemsize with
      | some (some x) => .ok s x
      | some none => .threw s
      | none => .ub

/-- `GetValue(name, std::vector<double>&)`, `/repo/src/BMIPhreeqcRM.cpp:923-940` (assertion off). -/
def getValueVec (m : Mod σ) (v : Var) (s : S σ) : R σ (List ℚ) :=
  (ensure m v s).bind fun s _ => (varFn m .getVar v s).bind fun s _ => .ok s s.ex.data

/-- `GetValue(name, double&)`, 763-783. -/
def getValueNum (m : Mod σ) (v : Var) (s : S σ) : R σ ℚ :=
  (ensure m v s).bind fun s _ => (varFn m .getVar v s).bind fun s _ => .ok s s.ex.dvar

/-- `GetValue(name, int&)`, 840-859. -/
def getValueInt (m : Mod σ) (v : Var) (s : S σ) : R σ Int :=
  (ensure m v s).bind fun s _ => (varFn m .getVar v s).bind fun s _ => .ok s s.ex.ivar

/-- `GetValue(name, bool&)`, 713-733. -/
def getValueBool (m : Mod σ) (v : Var) (s : S σ) : R σ Bool :=
  (ensure m v s).bind fun s _ => (varFn m .getVar v s).bind fun s _ => .ok s s.ex.bvar

/-- `GetValue(name, std::string&)`, 902-922. -/
def getValueStr (m : Mod σ) (v : Var) (s : S σ) : R σ (List Char) :=
  (ensure m v s).bind fun s _ => (varFn m .getVar v s).bind fun s _ => .ok s s.ex.str

/-- `GetValue(name, std::vector<std::string>&)`, 986-1005. -/
def getValueStrs (m : Mod σ) (v : Var) (s : S σ) : R σ (List (List Char)) :=
  (ensure m v s).bind fun s _ => (varFn m .getVar v s).bind fun s _ => .ok s s.ex.strs

/-- `GetValuePtr`, 1006-1023. -/
def getValuePtr (m : Mod σ) (v : Var) (s : S σ) : R σ (Option Ptr) :=
  if (s.va v).void = none then
    (varFn m .getPtr v s).bind fun s _ => .ok s (s.va v).void
  else .ok s (s.va v).void

/-- What `SetValue(name, void*)` stores in `VarExchange`, 1036-1087. `src` gives the bytes at `src`
read with the type of the variable. Outer `none`: undefined (division by zero), inner `none`: no
matching case. -/
def copyIn (a : Variant) (e : Ex) (src : Value) : Option (Option Ex) :=
  if a.itemsize = 0 then none
  else
    let dim := a.nbytes / a.itemsize
    match a.ctype, src with
    | some .bool, .bool b => some (if dim = 1 then some { e with bvar := b } else none)
    | some .int, .int i => some (if dim = 1 then some { e with ivar := i } else none)
    | some .double, .vec l =>
      if dim = 1 then l.head?.map (fun x => some { e with dvar := x })
      else if 1 < dim then
        if dim ≤ l.length then some (some { e with data := l.take dim }) else none
      else some none
    | some .string, .chars l => some (some { e with str := l })
    | _, _ => some none

/-- `SetValue(name, void*)`, `/repo/src/BMIPhreeqcRM.cpp:1024-1095`. -/
def setValueRaw (m : Mod σ) (v : Var) (src : Value) (s : S σ) : R σ Unit :=
  (ensure m v s).bind fun s _ =>
    match copyIn (s.va v) s.ex src with
    | some (some e) => varFn m .setVar v { s with ex := e }
    | some none => .threw s
    | none => .ub

/-- `SetValue(name, std::vector<double>)`, 1207-1238: a wrong size prints a message and returns. -/
def setValueVec (m : Mod σ) (v : Var) (src : List ℚ) (s : S σ) : R σ Unit :=
  (ensure m v s).bind fun s _ =>
    if (s.va v).dim ≠ src.length then .ok s ()
    else varFn m .setVar v { s with ex := { s.ex with data := src } }

/-- `SetValue(name, double)`, 1141-1162. -/
def setValueNum (m : Mod σ) (v : Var) (x : ℚ) (s : S σ) : R σ Unit :=
  (ensure m v s).bind fun s _ => varFn m .setVar v { s with ex := { s.ex with dvar := x } }

/-- `SetValue(name, int)`, 1163-1184. -/
def setValueInt (m : Mod σ) (v : Var) (i : Int) (s : S σ) : R σ Unit :=
  (ensure m v s).bind fun s _ => varFn m .setVar v { s with ex := { s.ex with ivar := i } }

/-- `SetValue(name, bool)`, 1096-1118. -/
def setValueBool (m : Mod σ) (v : Var) (b : Bool) (s : S σ) : R σ Unit :=
  (ensure m v s).bind fun s _ =>
    varFn m .setVar v { s with ex := { s.ex with bvar := b, ctype := some .bool } }

/-- `SetValue(name, std::string)`, 1119-1140 and 1185-1206. -/
def setValueStr (m : Mod σ) (v : Var) (x : List Char) (s : S σ) : R σ Unit :=
  (ensure m v s).bind fun s _ => varFn m .setVar v { s with ex := { s.ex with str := x } }

/-- A loop over variables. -/
def loop (f : Var → S σ → R σ Unit) : List Var → S σ → R σ Unit
  | [], s => .ok s ()
  | v :: vs, s => (f v s).bind fun s _ => loop f vs s

/-- `UpdateVariables`, 218-229. -/
def updateVariables (m : Mod σ) (s : S σ) : R σ Unit :=
  loop (varFn m .update) (Var.all.filter s.uset) s

/-- `RunCells` as seen from here: the state of the module afterwards, whether its code is not
`IRM_OK`, and whether an exception came out of it (error handler mode 1). -/
structure Run (σ : Type) where
  f      : σ → σ
  failed : Bool
  threw  : Bool

/-- `Update`, 207-212: the code of `RunCells` is not looked at. -/
def update (m : Mod σ) (run : Run σ) (s : S σ) : R σ Unit :=
  let s := { s with st := run.f s.st }
  if run.threw then .threw s
  else
    (rmSet m .Time (m.setNum s.st .Time (m.num s.st .Time + m.num s.st .TimeStep)) s).bind
      fun s _ => updateVariables m s

/-- `UpdateUntil`, 230-240. -/
def updateUntil (m : Mod σ) (run : Run σ) (t : ℚ) (s : S σ) : R σ Unit :=
  let step := t - m.num s.st .Time
  if 0 ≤ step then
    (rmSet m .TimeStep (m.setNum s.st .TimeStep step) s).bind fun s _ =>
      let s := { s with st := run.f s.st }
      if run.threw then .threw s
      else (rmSet m .Time (m.setNum s.st .Time t) s).bind fun s _ => updateVariables m s
  else .ok s ()

/-- `GetEndTime`, 610-613. -/
def getEndTime (m : Mod σ) (s : S σ) : ℚ := m.num s.st .Time + m.num s.st .TimeStep

/-- The end of `FindComponents`: `GenerateAutoOutputVars`, `/repo/src/BMIPhreeqcRM.cpp:281-301`.
`f` is what happened to the module (`FindComponents` and the run that defines the automatic output),
`auto` the new map. -/
def findComponents (m : Mod σ) (f : σ → σ) (auto : List (List Char × Auto)) (s : S σ) : R σ Unit :=
  loop (fun v s => varFn m .info v (s.upd v (fun a => { a with init := false }))) Var.all
    { s with st := f s.st, auto := auto }

/-- The loop of `GetInputItemCount`, `GetOutputItemCount`, `GetPointableItemCount`,
`/repo/src/BMIPhreeqcRM.cpp:304-362`. -/
def countLoop (m : Mod σ) (flag : Variant → Bool) : List Var → Nat → S σ → R σ Nat
  | [], n, s => .ok s n
  | v :: vs, n, s => (ensure m v s).bind fun s _ =>
    countLoop m flag vs (if flag (s.va v) then n + 1 else n) s

/-- The loop of `GetInputVarNames`, `GetOutputVarNames`, `GetPointableVarNames`, 363-432. The keys
skipped in lines 418-425 do not occur. -/
def namesLoop (m : Mod σ) (flag : Variant → Bool) : List Var → List (List Char) → S σ →
    R σ (List (List Char))
  | [], l, s => .ok s l
  | v :: vs, l, s => (ensure m v s).bind fun s _ =>
    namesLoop m flag vs (if flag (s.va v) then l ++ [v.name.toList] else l) s

/-- `/repo/src/BMIPhreeqcRM.cpp:304-323`. -/
def getInputItemCount (m : Mod σ) (s : S σ) : R σ Nat := countLoop m (·.set) Var.all 0 s

/-- `/repo/src/BMIPhreeqcRM.cpp:324-343`. -/
def getOutputItemCount (m : Mod σ) (s : S σ) : R σ Nat :=
  (countLoop m (·.get) Var.all 0 s).bind fun s n => .ok s (n + s.auto.length)

/-- `/repo/src/BMIPhreeqcRM.cpp:344-362`. -/
def getPointableItemCount (m : Mod σ) (s : S σ) : R σ Nat := countLoop m (·.ptr) Var.all 0 s

/-- `/repo/src/BMIPhreeqcRM.cpp:363-381`. -/
def getInputVarNames (m : Mod σ) (s : S σ) : R σ (List (List Char)) :=
  namesLoop m (·.set) Var.all [] s

/-- `/repo/src/BMIPhreeqcRM.cpp:382-405`. -/
def getOutputVarNames (m : Mod σ) (s : S σ) : R σ (List (List Char)) :=
  (namesLoop m (·.get) Var.all [] s).bind fun s l => .ok s (l ++ s.auto.map (fun p => p.2.name))

/-- `/repo/src/BMIPhreeqcRM.cpp:406-432`. -/
def getPointableVarNames (m : Mod σ) (s : S σ) : R σ (List (List Char)) :=
  namesLoop m (·.ptr) Var.all [] s

/-- `/repo/src/BMIPhreeqcRM.cpp:434-460`: everything without a setter. -/
def getReadOnlyVarNames (m : Mod σ) (s : S σ) : R σ (List (List Char)) :=
  namesLoop m (fun a => !a.set) Var.all [] s

/-- As constructed, `/repo/src/VarManager.cpp:16-117`. -/
def start (st : σ) : S σ :=
  { st := st
    va := fun _ => Variant.new
    ex := ⟨0, 0, 0, none, 0, 0, false, [], [], []⟩
    pset := fun _ => false
    uset := fun _ => false
    cur := none
    auto := [] }

/-- Reading through a pointer handed out for `v`. `none` is a dangling pointer. -/
def deref (s : S σ) (v : Var) : Ptr → Option Value
  | .vec g => if g = (s.va v).buf.gen then some (.vec (s.va v).buf.data) else none
  | .scalar =>
    match v.ctype with
    | .int => some (.int (s.va v).ivar)
    | .bool => some (.bool (s.va v).bvar)
    | _ => some (.num (s.va v).dvar)

end Verif.BMI
