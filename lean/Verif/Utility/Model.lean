import Verif.Conc.Model

/-!
# Concentrations as solutions of the Utility instance

Model of `PhreeqcRM::Concentrations2Utility`, `/repo/src/PhreeqcRM.cpp:1283-1446`. The build
without MPI. Doubles are rationals, as in `Verif.Conc.Model`; the log activities and the members of
`cxxSolution` not listed are left out. The returned pointer is always the Utility instance.
-/

namespace Verif.Utility

open Verif.OMap Verif.NameDouble Verif.Grid Verif.Conc

/-- A solution of the Utility instance. -/
structure USoln where
  sol  : Soln
  tc   : ℚ
  patm : ℚ
  deriving DecidableEq

/-- The members of `PhreeqcRM` used here; `util` is `Rxn_solution_map` of the Utility instance. -/
structure UState where
  h2o   : Bool                           -- component_h2o
  units : Units                          -- units_Solution
  comps : List Name                      -- components
  gfw   : List ℚ
  dens  : List ℚ                         -- density_root, one value per grid cell
  util  : Int → Option USoln

/-- The default constructor of `cxxSolution`, `phreeqcpp/Solution.cxx:32-58`. -/
def fresh : Soln :=
  { totalH := 1111 / 10, totalO := 5555 / 100, cb := 0, massWater := 1, solnVol := 1, density := 1,
    totals := [] }

/-- `if (d[0] > 0.0 && d[1] > 0.0) soln.Update(d[0], d[1], d[2], nd)`,
`/repo/src/PhreeqcRM.cpp:1364-1368` and 1436-1440. -/
def made (h o q : ℚ) (l : List (Name × ℚ)) : Soln :=
  if 0 < h ∧ 0 < o then update fresh h o q (l.foldl (fun m p => add m p.1 p.2) []) else fresh

/-- One solution: the body of the loops, `/repo/src/PhreeqcRM.cpp:1313-1368` with water and
1394-1440 without. Elements are converted without a density; the water of a mass fraction is
multiplied by `dn` (1350). Fewer than four (three) components make the code index past the end of
`d`. -/
def utilRow (h2o : Bool) (u : Units) (comps : List Name) (gfw row : List ℚ) (dn : ℚ) : Out Soln :=
  match h2o, comps, row, gfw with
  | true, _ :: _ :: _ :: _ :: es, cw :: ch :: co :: cq :: cs, gw :: gh :: go :: gq :: gs => do
    let w := molar u dn gw cw
    let l ← elementMoles u 1 1 es cs gs
    .ok (made (molar u 1 gh ch + w * 2) (molar u 1 go co + w) (molar u 1 gq cq) l)
  | false, _ :: _ :: _ :: es, ch :: co :: cq :: cs, gh :: go :: gq :: gs => do
    let l ← elementMoles u 1 1 es cs gs
    .ok (made (molar u 1 gh ch) (molar u 1 go co) (molar u 1 gq cq) l)
  | _, _, _, _ => .ub

/-- `density_root[i]` is read for mass fractions with water only, `/repo/src/PhreeqcRM.cpp:1350`;
the index is the number of the solution, not of a grid cell. -/
def rowDens (s : UState) (i : Nat) : Out ℚ :=
  if s.h2o = true ∧ s.units = .massFraction then idx s.dens (i : Int) else .ok 1

/-- The concentrations of solution `i`, `ptr[nsolns * k]` with `ptr = &c[i]`,
`/repo/src/PhreeqcRM.cpp:1318-1323`. -/
def utilGather (s : UState) (c : List ℚ) (ns i : Nat) : Out (List ℚ) :=
  (List.range s.comps.length).mapM (fun (k : Nat) => idx c ((ns * k + i : Nat) : Int))

/-- One pass of the loop, `/repo/src/PhreeqcRM.cpp:1311-1372` and 1392-1444. -/
def utilStep (s : UState) (c tc p : List ℚ) (ns : Nat) (m : Int → Option USoln) (i : Nat) :
    Out (Int → Option USoln) := do
  let row ← utilGather s c ns i
  let dn ← rowDens s i
  let x ← utilRow s.h2o s.units s.comps s.gfw row dn
  let t ← idx tc (i : Int)
  let q ← idx p (i : Int)
  .ok (fun j => if j = (i : Int) + 1 then some ⟨x, t, q⟩ else m j)

/-- `Concentrations2Utility`, `/repo/src/PhreeqcRM.cpp:1283-1446`. Without components the number
of solutions is a division by zero (1303), before the test of `gfw` (1305). -/
def toUtility (s : UState) (c tc p : List ℚ) : Out UState :=
  if s.comps.length = 0 then .ub
  else if s.gfw = [] then .throw
  else do
    let ns := c.length / s.comps.length
    let m ← (List.range ns).foldlM (utilStep s c tc p ns) s.util
    .ok { s with util := m }

end Verif.Utility
