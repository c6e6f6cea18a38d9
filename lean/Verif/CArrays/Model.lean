import Verif.Setters.Model

/-!
# Arrays of C callers

The functions of the C interface that take or fill arrays with one value per grid cell,
`/repo/src/RM_interface_C.cpp`; some of them call the Fortran interface, `/repo/src/RM_interface_F.cpp`. A C caller has
arrays with names `0, 1, ...`; a pointer is the name of an array or `NULL`. The functions copy as many entries as the
grid has cells, whatever the length of the array.

The functions of the class `PhreeqcRM` called by them are those of `Verif.Setters` and `Verif.Getters`.

Simplifications. Build without MPI. Pointers point to the beginning of an array, and arrays do not overlap. The messages
about reaction cells without a solution (`GetPressure`, `GetTemperature`) are left out of the error string. An exception
or the end of the process ends the program. `RM_GetSaturationCalculated` (values that may be infinite) and the arrays
with several values per cell are left out.
-/

namespace Verif.CArrays

open Verif.Grid Verif.Getters Verif.Setters Verif.Mapping

/-- A module: its settings and the vectors `solution_volume_root` and `viscosity_root`. -/
structure Mod where
  rm   : RM
  vol  : List ℚ
  visc : List ℚ

/-- The members read by the getters. -/
def Mod.view (m : Mod) : GState := ⟨m.rm.map, m.rm.arr .porosity, m.rm.arr .volume, m.rm.sol⟩

/-- Store a vector of the settings. -/
def Mod.put (m : Mod) (a : Arr) (v : List ℚ) : Mod :=
  { m with rm := { m.rm.clear with arr := fun b => if b = a then v else m.rm.arr b } }

/-- The getters with one value per grid cell. -/
inductive Grid
  | porosity | pressure | temperature | density | volume | viscosity
  deriving DecidableEq, Repr

/-- `GetDensityCalculated` with a vector that is empty at first, `/repo/src/PhreeqcRM.cpp:3653-3712`: when a solution is
missing, `ReturnHandler` of the catch clause decides whether the call returns; its result is not used, `IRM_OK` is returned.
The numbers in the message are left out. -/
def Mod.density (m : Mod) : Out (Mod × List ℚ × Ret) := do
  let r ← scan .stop m.rm.map.backward m.rm.sol (fun x _ => .ok x.density) (ownedCells m.rm.map.ranges)
    (resize [] m.rm.map.nxyz inactive)
  if r.2 then .ok ({ m with rm := m.rm.clear }, r.1, .value .ok)
  else
    let f := ({ m.rm with err := say (decodeError [] .fail) "Solution not found for density." } : RM).finish .fail
      "PhreeqcRM::GetDensityCalculated"
    .ok ({ m with rm := f.1 }, r.1, match f.2 with | .value _ => .value .ok | e => e)

/-- The getters of the class: `GetPorosity` (`/repo/src/PhreeqcRM.cpp:4341-4346`), `GetPressure` (4383-4422),
`GetTemperature` (5277-5316), `GetDensityCalculated`, `GetSolutionVolume` (4748-4796), `GetViscosity` (5353-5401); module
and vector afterwards and how the call ended. -/
def Mod.get (m : Mod) : Grid → Out (Mod × List ℚ × Ret)
  | .porosity => .ok (m, m.rm.arr .porosity, .value .ok)
  | .pressure => do
    let v ← getPressure m.view (m.rm.arr .pressure)
    .ok (m.put .pressure v, v, .value .ok)
  | .temperature => do
    let v ← getTemperature m.view (m.rm.arr .temperature)
    .ok (m.put .temperature v, v, .value .ok)
  | .density => m.density
  | .volume => do
    let v ← getSolutionVolume m.view m.vol
    .ok ({ m with rm := m.rm.clear, vol := v }, v, .value .ok)
  | .viscosity => do
    let v ← getViscosity m.view m.visc
    .ok ({ m with rm := m.rm.clear, visc := v }, v, .value .ok)

/-- `SetPorosity` and the other setters. -/
def Mod.set (m : Mod) (a : Arr) (v : List ℚ) : Out (Mod × Ret) := do
  let r ← setGrid m.rm a v
  .ok ({ m with rm := r.1 }, r.2)

/-- `SetPrintChemistryMask`. -/
def Mod.setMask (m : Mod) (v : List Int) : Mod × Ret :=
  ({ m with rm := (Setters.setMask m.rm v).1 }, (Setters.setMask m.rm v).2)

/-! ## Copying -/

/-- `v.resize(n); memcpy(&v.front(), p, n * size)`, e.g. RM_interface_C.cpp:2638-2640: the array must have `n` entries,
and `front` of an empty vector is undefined. -/
def copyIn {α : Type} (l : List α) (n : Nat) : Out (List α) :=
  if n = 0 then .ub else if l.length < n then .ub else .ok (l.take n)

/-- `memcpy(p, &v.front(), v.size() * size)`, e.g. RM_interface_F.cpp:1034. -/
def copyOut {α : Type} (l v : List α) : Out (List α) :=
  if v = [] then .ub else if l.length < v.length then .ub else .ok (v ++ l.drop v.length)

/-- `for (i < n) p[i] = INACTIVE_CELL_VALUE;`, RM_interface_C.cpp:1376-1379. -/
def fill (l : List ℚ) (n : Nat) : Out (List ℚ) :=
  if l.length < n then .ub else .ok (List.replicate n inactive ++ l.drop n)

/-! ## The calls -/

/-- The modules (`PhreeqcRM::GetInstance`) and the arrays of the caller. -/
structure Proc where
  mods  : Int → Option Mod
  heap  : Nat → List ℚ
  iheap : Nat → List Int

/-- Change one value of a function. -/
def upd {ι β : Type} [DecidableEq ι] (f : ι → β) (i : ι) (b : β) : ι → β := fun j => if j = i then b else f j

/-- `RM_SetPorosity` and the other setters: RM_interface_C.cpp:2464-2481 (density), 2629-2646 (porosity), 2648-2665
(pressure), 2723-2740 (representative volume), 2749-2766 (saturation), 2807-2824 (temperature). -/
def setArr (p : Proc) (id : Int) (a : Arr) (q : Option Nat) : Out (Proc × Ret) :=
  match p.mods id with
  | none => .ok (p, .value .badInstance)
  | some m =>
    match q with
    | none => .ok (p, .value .invalidArg)
    | some k => do
      let v ← copyIn (p.heap k) m.rm.map.nxyz
      let r ← m.set a v
      .ok ({ p with mods := upd p.mods id (some r.1) }, r.2)

/-- `RM_SetPrintChemistryMask`, RM_interface_C.cpp:2680-2697. -/
def maskArr (p : Proc) (id : Int) (q : Option Nat) : Out (Proc × Ret) :=
  match p.mods id with
  | none => .ok (p, .value .badInstance)
  | some m =>
    match q with
    | none => .ok (p, .value .invalidArg)
    | some k => do
      let v ← copyIn (p.iheap k) m.rm.map.nxyz
      .ok ({ p with mods := upd p.mods id (some (m.setMask v).1) }, (m.setMask v).2)

/-- Whether the pointer is tested and, when the vector does not have one value for each grid cell, the array filled:
`RM_GetDensityCalculated` (RM_interface_C.cpp:1358-1387) and `RM_GetSolutionVolume` (1769-1797), but not `RM_GetPorosity`,
`RM_GetPressure`, `RM_GetTemperature` and `RM_GetViscosity`, which call the functions of the Fortran interface
(RM_interface_F.cpp:1020-1044, 1046-1070, 1357-1381, 1462-1486). -/
def careful : Grid → Bool
  | .density => true
  | .volume => true
  | _ => false

/-- What is written to the array of the pointer: the vector when it has one value for each grid cell, otherwise
`INACTIVE_CELL_VALUE` or nothing. -/
def deliver (g : Grid) (n : Nat) (l v : List ℚ) : Out (List ℚ × Ret) :=
  if v.length = n then do
    let l' ← copyOut l v
    .ok (l', .value .ok)
  else if careful g then do
    let l' ← fill l n
    .ok (l', .value .fail)
  else .ok (l, .value .fail)

/-- The getters of the C interface. -/
def getArr (p : Proc) (id : Int) (g : Grid) (q : Option Nat) : Out (Proc × Ret) :=
  match p.mods id with
  | none => .ok (p, .value .badInstance)
  | some m =>
    match q with
    | none =>
      if careful g then .ok (p, .value .invalidArg)
      else do
        let r ← m.get g
        if r.2.1.length = m.rm.map.nxyz then .ub
        else .ok ({ p with mods := upd p.mods id (some r.1) }, .value .fail)
    | some k => do
      let r ← m.get g
      match r.2.2 with
      | .value _ => do
        let d ← deliver g m.rm.map.nxyz (p.heap k) r.2.1
        .ok ({ p with mods := upd p.mods id (some r.1), heap := upd p.heap k d.1 }, d.2)
      | e => .ok ({ p with mods := upd p.mods id (some r.1) }, e)

/-- What a program does: calls with a module number and a pointer, and changes of its own arrays (`own k i x` is
`a[i] = x`). -/
inductive Call
  | set (id : Int) (a : Arr) (q : Option Nat)
  | mask (id : Int) (q : Option Nat)
  | get (id : Int) (g : Grid) (q : Option Nat)
  | own (k i : Nat) (x : ℚ)

/-- One step. -/
def step (p : Proc) : Call → Out (Proc × Ret)
  | .set id a q => setArr p id a q
  | .mask id q => maskArr p id q
  | .get id g q => getArr p id g q
  | .own k i x =>
    if i < (p.heap k).length then .ok ({ p with heap := upd p.heap k ((p.heap k).set i x) }, .value .ok) else .ub

/-- A program: it ends with an exception or the end of the process. -/
def run (p : Proc) : List Call → Out (Proc × List Ret)
  | [] => .ok (p, [])
  | c :: cs => do
    let r ← step p c
    match r.2 with
    | .value _ => do
      let s ← run r.1 cs
      .ok (s.1, r.2 :: s.2)
    | _ => .ok (r.1, [r.2])

end Verif.CArrays
