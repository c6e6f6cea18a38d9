import Verif.Conc.Model
import Verif.Setters.Model

/-!
# Solutions from species concentrations

Model of `PhreeqcRM::SpeciesConcentrations2Module`, `/repo/src/PhreeqcRM.cpp:12572-12659`, in the
build without MPI. Doubles are rationals and solutions have the members of `Verif.Conc.Model`.
-/

namespace Verif.Species

open Verif.OMap Verif.NameDouble Verif.Mapping Verif.Grid Verif.Conc

/-- The members of `PhreeqcRM` used here. `stoich` is `species_stoichiometry`, one entry for every
species name; `sol n j` is `GetWorkers()[n]->Get_solution(j)`. -/
structure SState where
  map    : MapState
  on     : Bool                          -- species_save_on
  comps  : List Name                     -- components
  stoich : List ND
  por    : List ℚ                        -- porosity_root
  sat    : List ℚ                        -- saturation_root
  rv     : List ℚ                        -- rv_root
  sol    : Nat → Int → Option Soln

/-- `solution_totals`, every component with 0, `/repo/src/PhreeqcRM.cpp:12601-12605`. -/
def zeros (comps : List Name) : ND := comps.foldl (fun m n => add m n 0) []

/-- The loop over the species and their elements, `/repo/src/PhreeqcRM.cpp:12606-12615`. -/
def sumUp (m : ND) (l : List (ND × ℚ)) : ND :=
  l.foldl (fun m p => p.1.foldl (fun m q => add m q.1 (q.2 * p.2)) m) m

/-- `d[0]`, `d[1]`, `d[2]`: the entry of a name, 0 if there is none,
`/repo/src/PhreeqcRM.cpp:12617-12639`. -/
def pick (m : ND) (n : String) : ℚ :=
  match find m n.toList with
  | some v => v
  | none => 0

/-- The other entries, `/repo/src/PhreeqcRM.cpp:12640-12643`. -/
def others (m : ND) : ND :=
  m.foldl (fun nd p =>
    if p.1 = "H".toList then nd
    else if p.1 = "O".toList then nd
    else if p.1 = "Charge".toList then nd
    else add nd p.1 p.2) []

/-- New contents of the solution of a cell with concentrations `cs`,
`/repo/src/PhreeqcRM.cpp:12601-12653`. -/
def fromSpecies (comps : List Name) (stoich : List ND) (cs : List ℚ) (vol : ℚ) (x : Soln) : Soln :=
  let m := multiply (sumUp (zeros comps) (stoich.zip cs)) vol
  update x (pick m "H") (pick m "O") (pick m "Charge") (others m)

/-- The pass of the loop for cell `i`, `/repo/src/PhreeqcRM.cpp:12598-12654`. The code reads the
concentrations also when the cell has no solution; here only when it has one. -/
def setAt (s : SState) (c : List ℚ) (_n : Nat) (i : Int) (x : Soln) : Out Soln := do
  let cells ← idx s.map.backward i
  let j ← idx cells 0
  let cs ← (List.range s.stoich.length).mapM (fun (k : Nat) =>
    idx c ((k * s.map.nxyz + j : Nat) : Int))
  let por ← idx s.por (j : Int)
  let sat ← idx s.sat (j : Int)
  let rv ← idx s.rv (j : Int)
  .ok (fromSpecies s.comps s.stoich cs (por * sat * rv) x)

/-- `SpeciesConcentrations2Module`, `/repo/src/PhreeqcRM.cpp:12572-12659`. -/
def speciesToModule (s : SState) (c : List ℚ) : Out (SState × IRM) :=
  if s.on then do
    let sol ← updateCells s.map.ranges (setAt s c) s.sol
    .ok ({ s with sol := sol }, .ok)
  else .ok (s, .invalidArg)

end Verif.Species
