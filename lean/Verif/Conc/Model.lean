import Verif.Grid.Model
import Verif.NameDouble.Model

/-!
# Setting and reading concentrations

Model of `PhreeqcRM::SetConcentrations` and `PhreeqcRM::GetConcentrations` and the unit
conversions they call, `/repo/src/PhreeqcRM.cpp:1067-1280, 1804-1938, 3569-3628, 11072-11138`,
in the build without MPI.

Doubles are rationals. A division by a zero volume or gram formula weight gives an infinity in
the code; it is not modelled, and every theorem that speaks of a quotient assumes a positive
divisor. Fields of a solution not listed in `Soln` are not touched by the functions modelled,
except the log activities (`master_activity`), which are left out.
-/

namespace Verif.Conc

open Verif.OMap Verif.NameDouble Verif.Mapping Verif.Grid

/-- Values 1, 2 and 3 of `units_Solution`; `SetUnitsSolution` accepts no other
(`/repo/src/PhreeqcRM.cpp:12480-12508`) and the default is 1 (line 338). -/
inductive Units
  | mgL | molL | massFraction
  deriving DecidableEq, Repr

/-- The members of `cxxSolution` used here (`phreeqcpp/Solution.h`). -/
structure Soln where
  totalH    : ℚ
  totalO    : ℚ
  cb        : ℚ
  massWater : ℚ
  solnVol   : ℚ
  density   : ℚ
  totals    : ND
  deriving DecidableEq

/-- The members of `PhreeqcRM` used here. `sol n j` is `GetWorkers()[n]->Get_solution(j)`. -/
structure CState where
  map   : MapState
  h2o   : Bool                           -- component_h2o
  units : Units                          -- units_Solution
  comps : List Name                      -- components
  gfw   : List ℚ
  por   : List ℚ                         -- porosity_root
  sat   : List ℚ                         -- saturation_root
  rv    : List ℚ                         -- rv_root
  dens  : List ℚ                         -- density_root
  sdv   : Bool                           -- use_solution_density_volume
  sol   : Nat → Int → Option Soln

/-- Conversion of one concentration to mol/L, `/repo/src/PhreeqcRM.cpp:1116-1146`. -/
def molar (u : Units) (dens g c : ℚ) : ℚ :=
  match u with
  | .mgL => c * (1 / 1000) / g
  | .molL => c
  | .massFraction => c * 1000 / g * dens

/-- `if (d[k] < 0.0) d[k] = 0.0`, `/repo/src/PhreeqcRM.cpp:1164`. -/
def clamp (x : ℚ) : ℚ := if x < 0 then 0 else x

/-- Amounts of the elements, `/repo/src/PhreeqcRM.cpp:1118-1121, 1149-1166` and the
corresponding loops without H2O. -/
def elementMoles (u : Units) (dens vol : ℚ) :
    List Name → List ℚ → List ℚ → Out (List (Name × ℚ))
  | [], _, _ => .ok []
  | n :: ns, c :: cs, g :: gs => do
    let rest ← elementMoles u dens vol ns cs gs
    .ok ((n, clamp (molar u dens g c * vol)) :: rest)
  | _, _, _ => .ub

/-- `cxxSolution::Update(h, o, charge, nd)`, `phreeqcpp/Solution.cxx:1202-1222`, with
`Update(nd)`, 1299-1384, of which only `totals = Simplify_redox(nd)` is kept. -/
def update (x : Soln) (h o q : ℚ) (nd : ND) : Soln :=
  { x with
    totalH := h, totalO := o, cb := q, massWater := o / (111 / 2),
    totals := (simplifyRedox nd).map
      (fun p => (p.1, if p.2 < 1 / 10000000000000000000000000 then 0 else p.2)) }

/-- Concentrations of one cell to its solution: the body of the loop in
`Concentrations2SolutionsH2O`, `/repo/src/PhreeqcRM.cpp:1113-1174`, and
`Concentrations2SolutionsNoH2O`, 1224-1274. `row` holds the cell's concentrations. Fewer than
four (three) components make the code index an empty vector. -/
def setCell (h2o : Bool) (u : Units) (comps : List Name) (gfw row : List ℚ)
    (por sat rv dens : ℚ) (x : Soln) : Out Soln :=
  if sat ≤ 0 then .ok x
  else
    let vol := por * sat * rv
    match h2o, comps, row, gfw with
    | true, _ :: _ :: _ :: _ :: es, cw :: ch :: co :: cq :: cs, gw :: gh :: go :: gq :: gs => do
      let w := molar u dens gw cw
      let l ← elementMoles u dens vol es cs gs
      .ok (update x ((molar u dens gh ch + w * 2) * vol) ((molar u dens go co + w) * vol)
        (molar u dens gq cq * vol) (l.foldl (fun m p => add m p.1 p.2) []))
    | false, _ :: _ :: _ :: es, ch :: co :: cq :: cs, gh :: go :: gq :: gs => do
      let l ← elementMoles u dens vol es cs gs
      .ok (update x (molar u dens gh ch * vol) (molar u dens go co * vol)
        (molar u dens gq cq * vol) (l.foldl (fun m p => add m p.1 p.2) []))
    | _, _, _, _ => .ub

/-- Gathering a cell's concentrations from its primary grid cell,
`/repo/src/PhreeqcRM.cpp:11082-11092`. -/
def gatherRow (s : CState) (t : List ℚ) (i : Nat) : Out (List ℚ) := do
  let cells ← idx s.map.backward (i : Int)
  let j ← idx cells 0
  (List.range s.comps.length).mapM (fun k => idx t ((k * s.map.nxyz + j : Nat) : Int))

/-- The loop body with the cell's parameters, `/repo/src/PhreeqcRM.cpp:1105-1113`. -/
def setCellAt (s : CState) (rows : List (List ℚ)) (_n : Nat) (j : Int) (x : Soln) : Out Soln := do
  let cells ← idx s.map.backward j
  let i ← idx cells 0
  let dens ← idx s.dens (i : Int)
  let por ← idx s.por (i : Int)
  let rv ← idx s.rv (i : Int)
  let sat ← idx s.sat (i : Int)
  let row ← idx rows j
  setCell s.h2o s.units s.comps s.gfw row por sat rv dens x

/-- `SetConcentrations`, `/repo/src/PhreeqcRM.cpp:11072-11138`. The workers run one after
another; they touch different solutions. -/
def setConcentrations (s : CState) (t : List ℚ) : Out CState := do
  let rows ← (List.range s.map.count).mapM (gatherRow s t)
  if s.gfw = [] then .throw
  else
    let sol ← updateCells s.map.ranges (setCellAt s rows) s.sol
    .ok { s with sol := sol }

/-- `totals = Simplify_redox(totals)`, `/repo/src/PhreeqcRM.cpp:1826-1829`. -/
def simplify (x : Soln) : Soln := { x with totals := simplifyRedox x.totals }

/-- Conversion of moles to the selected unit, `/repo/src/PhreeqcRM.cpp:1835-1881`. -/
def conc (u : Units) (v dens g m : ℚ) : ℚ :=
  match u with
  | .mgL => m * g * 1000 / v
  | .molL => m / v
  | .massFraction => m * g / 1000 / (dens * v)

/-- The entry for water, `/repo/src/PhreeqcRM.cpp:1837, 1852-1853, 1867`. -/
def waterConc (u : Units) (v dens gw massWater : ℚ) : ℚ :=
  match u with
  | .mgL => massWater * 1000000 / v
  | .molL => massWater * 1000 / gw / v
  | .massFraction => massWater / (dens * v)

/-- Entries for the elements, `/repo/src/PhreeqcRM.cpp:1844-1847`. `Get_total` returns 0 for a
missing name (`phreeqcpp/Solution.cxx:1504-1516`). -/
def elementConcs (u : Units) (v dens : ℚ) (totals : ND) : List Name → List ℚ → Out (List ℚ)
  | [], _ => .ok []
  | n :: ns, g :: gs => do
    let rest ← elementConcs u v dens totals ns gs
    let m := match find totals n with
      | some m => m
      | none => 0
    .ok (conc u v dens g m :: rest)
  | _ :: _, [] => .ub

/-- `cxxSolution2concentrationH2O` and `cxxSolution2concentrationNoH2O`,
`/repo/src/PhreeqcRM.cpp:1815-1938`, after the totals were simplified. -/
def solution2conc (h2o : Bool) (u : Units) (comps : List Name) (gfw : List ℚ) (v dens : ℚ)
    (x : Soln) : Out (List ℚ) :=
  if gfw = [] then .throw
  else
    match h2o, comps, gfw with
    | true, _ :: _ :: _ :: _ :: es, gw :: gh :: go :: gq :: gs => do
      let water := x.massWater * 1000 / gw
      let rest ← elementConcs u v dens x.totals es gs
      .ok (waterConc u v dens gw x.massWater :: conc u v dens gh (x.totalH - 2 * water) ::
        conc u v dens go (x.totalO - water) :: conc u v dens gq x.cb :: rest)
    | false, _ :: _ :: _ :: es, gh :: go :: gq :: gs => do
      let rest ← elementConcs u v dens x.totals es gs
      .ok (conc u v dens gh x.totalH :: conc u v dens go x.totalO ::
        conc u v dens gq x.cb :: rest)
    | _, _, _ => .ub

/-- Volume and density used for a cell, `/repo/src/PhreeqcRM.cpp:3590-3606`. -/
def volDens (s : CState) (j : Int) (x : Soln) : Out (ℚ × ℚ) :=
  if s.sdv then .ok (x.solnVol, x.density)
  else do
    let cells ← idx s.map.backward j
    let k ← idx cells 0
    let sat ← idx s.sat (k : Int)
    let por ← idx s.por (k : Int)
    let rv ← idx s.rv (k : Int)
    let dens ← idx s.dens (k : Int)
    let v := sat * por * rv
    .ok (if v ≤ 0 then x.solnVol else v, dens)

/-- The values of one cell, `/repo/src/PhreeqcRM.cpp:3587-3607`; a missing solution is a null
pointer. -/
def cellConc (s : CState) (n : Nat) (j : Int) : Out (List ℚ) :=
  match s.sol n j with
  | none => .ub
  | some x => do
    let vd ← volDens s j x
    solution2conc s.h2o s.units s.comps s.gfw vd.1 vd.2 (simplify x)

/-- `GetConcentrations`, `/repo/src/PhreeqcRM.cpp:3569-3628`: the array returned and the module
afterwards (the totals of the solutions read are simplified). -/
def getConcentrations (s : CState) : Out (List ℚ × CState) := do
  let c ← getGrid s.map s.comps.length
    (List.replicate (s.map.nxyz * s.comps.length) inactive) (cellConc s)
  let sol ← updateCells s.map.ranges (fun _ _ x => .ok (simplify x)) s.sol
  .ok (c, { s with sol := sol })

end Verif.Conc
