import Verif.Grid.Model

/-!
# Getters that return one value per grid cell, and species getters

* `GetDensityCalculated` `/repo/src/PhreeqcRM.cpp:3654-3710`, `GetSaturationCalculated`
  `:4436-4493`: fill a vector owned by the caller.
* `GetPressure` `:4385-4421`, `GetTemperature` `:5279-5315`, `GetSolutionVolume` `:4749-4796`,
  `GetViscosity` `:5354-5401`: fill a vector owned by the module.
* `GetSpeciesConcentrations` `:4896-4931`, `GetSpeciesLog10Gammas` `:5037-5072`,
  `GetSpeciesLog10Molalities` `:5179-5214`.

Error-handler mode 0 (return codes): `ReturnHandler` then returns its argument, which these
functions drop.
-/

namespace Verif.Getters

open Verif.Mapping Verif.Grid

/-- `v.resize(n, fill)`: old entries are kept. -/
def resize {α : Type} (v : List α) (n : Nat) (fill : α) : List α :=
  if n ≤ v.length then v.take n else v ++ List.replicate (n - v.length) fill

/-- What a getter does about a reaction cell without a solution. -/
inductive Missing
  | stop    -- `ErrorHandler` throws, the catch clause ends the loop
  | skip    -- a message
  | crash   -- the null pointer is used
  deriving DecidableEq

/-- `for (j ...) { n = backward_mapping[i][j]; v[n] = ...; }`,
`/repo/src/PhreeqcRM.cpp:3695-3699`; the value may depend on the grid cell. -/
def putCells {α : Type} (f : Nat → Out α) (cells : List Nat) (c : List α) : Out (List α) :=
  cells.foldlM (fun c i => do
    let v ← f i
    if i < c.length then Out.ok (c.set i v) else .ub) c

/-- The loop over workers and cells, `/repo/src/PhreeqcRM.cpp:3682-3702`. The flag tells
whether the loop ran to its end. -/
def scan {σ α : Type} (miss : Missing) (back : List (List Nat)) (sol : Nat → Int → Option σ)
    (f : σ → Nat → Out α) : List (Nat × Int) → List α → Out (List α × Bool)
  | [], c => .ok (c, true)
  | (n, j) :: ps, c =>
    match sol n j with
    | none =>
      match miss with
      | .stop => .ok (c, false)
      | .skip => scan miss back sol f ps c
      | .crash => .ub
    | some x => do
      let cells ← idx back j
      let c' ← putCells (f x) cells c
      scan miss back sol f ps c'

/-- The members of `cxxSolution` read here. -/
structure Soln where
  density   : ℚ
  solnVol   : ℚ
  patm      : ℚ
  tc        : ℚ
  viscosity : ℚ
  /-- `species_map`: species number, concentration -/
  species   : List (Int × ℚ)
  deriving DecidableEq

/-- The members of `PhreeqcRM` read here. -/
structure GState where
  map : MapState
  por : List ℚ
  rv  : List ℚ
  sol : Nat → Int → Option Soln

/-- `GetDensityCalculated`, `/repo/src/PhreeqcRM.cpp:3654-3710`: return code and the caller's
vector afterwards. The catch clause drops the failure code. -/
def getDensityCalculated (s : GState) (v : List ℚ) : Out (IRM × List ℚ) := do
  let r ← scan .stop s.map.backward s.sol (fun x _ => .ok x.density) (ownedCells s.map.ranges)
    (resize v s.map.nxyz inactive)
  .ok (.ok, r.1)

/-- The value written to grid cell `i` by `GetSaturationCalculated`,
`/repo/src/PhreeqcRM.cpp:4476-4478`. `none` is an infinity or a NaN. -/
def satValue (s : GState) (x : Soln) (i : Nat) : Out (Option ℚ) := do
  let r ← idx s.rv (i : Int)
  let p ← idx s.por (i : Int)
  .ok (if r * p = 0 then none else some (x.solnVol / (r * p)))

/-- `GetSaturationCalculated`, `/repo/src/PhreeqcRM.cpp:4436-4493`; on an exception the vector
is emptied and the failure code dropped. -/
def getSaturationCalculated (s : GState) (v : List (Option ℚ)) : Out (IRM × List (Option ℚ)) := do
  let r ← scan .stop s.map.backward s.sol (satValue s) (ownedCells s.map.ranges)
    (resize v s.map.nxyz (some inactive))
  .ok (.ok, if r.2 then r.1 else [])

/-- `GetPressure`, `/repo/src/PhreeqcRM.cpp:4385-4421`; `root` is `pressure_root` before. -/
def getPressure (s : GState) (root : List ℚ) : Out (List ℚ) := do
  let r ← scan .skip s.map.backward s.sol (fun x _ => .ok x.patm) (ownedCells s.map.ranges)
    (resize root s.map.nxyz inactive)
  .ok r.1

/-- `GetTemperature`, `/repo/src/PhreeqcRM.cpp:5279-5315`. -/
def getTemperature (s : GState) (root : List ℚ) : Out (List ℚ) := do
  let r ← scan .skip s.map.backward s.sol (fun x _ => .ok x.tc) (ownedCells s.map.ranges)
    (resize root s.map.nxyz inactive)
  .ok r.1

/-- `GetSolutionVolume`, `/repo/src/PhreeqcRM.cpp:4749-4796`. -/
def getSolutionVolume (s : GState) (root : List ℚ) : Out (List ℚ) := do
  let r ← scan .crash s.map.backward s.sol (fun x _ => .ok x.solnVol) (ownedCells s.map.ranges)
    (resize root s.map.nxyz inactive)
  .ok r.1

/-- `GetViscosity`, `/repo/src/PhreeqcRM.cpp:5354-5401`. -/
def getViscosity (s : GState) (root : List ℚ) : Out (List ℚ) := do
  let r ← scan .crash s.map.backward s.sol (fun x _ => .ok x.viscosity) (ownedCells s.map.ranges)
    (resize root s.map.nxyz inactive)
  .ok r.1

/-- `s_num2rm_species_num[k]`: `std::map::operator[]` inserts 0 for a missing key,
`/repo/src/PhreeqcRM.cpp:4916`. The map is a member, so the insertion stays; it does not change
any later lookup through `operator[]`. -/
def rmSpecies (m : List (Int × Nat)) (k : Int) : Nat :=
  match m.lookup k with
  | some r => r
  | none => 0

/-- `d.resize(n, 0)` and the loop over the species of a solution,
`/repo/src/PhreeqcRM.cpp:4908-4919`. -/
def speciesRow (n : Nat) (m : List (Int × Nat)) (sp : List (Int × ℚ)) : Out (List ℚ) :=
  sp.foldlM (fun d p =>
    if rmSpecies m p.1 < d.length then Out.ok (d.set (rmSpecies m p.1) p.2) else .ub)
    (List.replicate n 0)

/-- `GetSpeciesConcentrations`, `/repo/src/PhreeqcRM.cpp:4896-4931`; the two other species
getters read another map of the solution. `nsp` is the number of species names, `m` is
`s_num2rm_species_num`. -/
def getSpecies (s : GState) (on : Bool) (nsp : Nat) (m : List (Int × Nat)) (v : List ℚ) :
    Out (List ℚ) :=
  if on then
    getGrid s.map nsp (resize v (nsp * s.map.nxyz) 0) (fun n j =>
      match s.sol n j with
      | none => .ub
      | some x => speciesRow nsp m x.species)
  else .ok []

end Verif.Getters
