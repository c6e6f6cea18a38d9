import Verif.Conc.Model
import Verif.Mixing.Solution
import Verif.Setters.Model

/-!
# Concentrations of boundary solutions

Model of `PhreeqcRM::InitialPhreeqc2Concentrations`, `/repo/src/PhreeqcRM.cpp:5945-6055`, with
the constructor of mixed solutions (`Mixing.Solution.mix`) and the conversion to
concentrations (`Conc.solution2conc`). Other files are in
`/repo/src/IPhreeqcPhast/IPhreeqc/phreeqcpp/`.

Doubles are rationals. A quotient with a zero divisor gives NaN or an infinity in the code; it
is the outcome `.ub`. The messages of a failing call are not modelled, only its return.
-/

namespace Verif.Boundary

open Verif.OMap Verif.NameDouble Verif.Mixing Verif.Conc Verif.Grid Verif.Setters

/-- The InitialPhreeqc instance and the members of `PhreeqcRM` used here. -/
structure Init where
  sols  : SMap Int Solution              -- Rxn_solution_map
  mixes : List Int                       -- keys of Rxn_mix_map, ascending
  h2o   : Bool                           -- component_h2o
  units : Units                          -- units_Solution
  comps : List Name                      -- components
  gfw   : List ℚ
  mode  : Int                            -- error_handler_mode

/-- `Rxn_next_user_number` (Phreeqc.h:1941-1950) on the keys of a map. -/
def next (ks : List Int) : Int :=
  match ks.getLast? with
  | some k => k + 1
  | none => 0

/-- The number used for a first solution, `/repo/src/PhreeqcRM.cpp:5980-5991`: for a negative
number the last solution, or a MIX with a larger number. -/
def resolve (st : Init) (n : Int) : Int :=
  if n < 0 then
    let a := if next (keys st.sols) ≠ 0 then next (keys st.sols) - 1 else n
    if next st.mixes - 1 > a then next st.mixes - 1 else a
  else n

/-- The solutions of `phreeqc_bin`, a `std::map<int, cxxSolution>`. -/
abbrev Bin := Int → Option Solution

/-- `Set_Solution(n, s)` (StorageBin.h). -/
def Bin.set (b : Bin) (n : Int) (s : Solution) : Bin := fun k => if k = n then some s else b k

/-- The default constructor of `cxxSolution` (Solution.cxx:32-58). -/
def fresh : Solution :=
  { tc := 25, ph := 7, pe := 4, mu := 1 / 10000000, ah2o := 1, density := 1, viscosity := 1,
    viscos0 := 1, patm := 1, totalH := 1111 / 10, totalO := 5555 / 100, cb := 0, massWater := 1,
    solnVol := 1, totalAlkalinity := 0, totals := [], gamma := [], isotopes := [], species := [] }

/-- `phreeqc2cxxStorageBin(sb, n)` (structures.cpp:3118-3130): copies the solution if there is
one. The reactants of other kinds are copied as well and not used. -/
def copy (st : Init) (b : Bin) (n : Int) : Bin :=
  match find st.sols n with
  | some s => b.set n s
  | none => b

/-- First solution into the bin, `/repo/src/PhreeqcRM.cpp:5994-6006`. -/
def fetch1 (st : Init) (b : Bin) (n : Int) : Bin :=
  match b n with
  | some _ => b
  | none => if 0 ≤ n then copy st b n else b.set n fresh

/-- Second solution into the bin, `/repo/src/PhreeqcRM.cpp:6025-6028`. -/
def fetch2 (st : Init) (b : Bin) (n : Int) : Bin :=
  match b n with
  | some _ => b
  | none => copy st b n

/-- `f1`, `/repo/src/PhreeqcRM.cpp:6008-6010`. -/
def fractionAt (fr : List ℚ) (i : Nat) : ℚ :=
  match fr[i]? with
  | some f => f
  | none => 1

/-- `n_old2`, `/repo/src/PhreeqcRM.cpp:6015-6019`. -/
def secondAt (b2 : List Int) (i : Nat) : Int :=
  match b2[i]? with
  | some k => k
  | none => -1

/-- The mixture of entry `i` and the bin afterwards, `/repo/src/PhreeqcRM.cpp:5980-6030`. -/
def mixture (st : Init) (b2 : List Int) (fr : List ℚ) (i : Nat) (n : Int) (b : Bin) : Bin × Mix :=
  let n1 := resolve st n
  let b := fetch1 st b n1
  let f1 := fractionAt fr i
  let m := Mix.add [] n1 f1
  let n2 := secondAt b2 i
  if 0 ≤ n2 ∧ 0 < 1 - f1 then (fetch2 st b n2, Mix.add m n2 (1 - f1)) else (b, m)

/-- The members of a solution used by the conversion. -/
def soln (s : Solution) : Soln :=
  { totalH := s.totalH, totalO := s.totalO, cb := s.cb, massWater := s.massWater,
    solnVol := s.solnVol, density := s.density, totals := s.totals }

/-- Concentrations of a mixture, `/repo/src/PhreeqcRM.cpp:6034-6038`. -/
def concs (st : Init) (b : Bin) (m : Mix) : Out (List ℚ) := do
  let s ← Solution.mix b m
  if st.gfw = [] then .throw
  else if s.solnVol = 0 then .ub
  else if st.units = .massFraction ∧ s.density = 0 then .ub
  else solution2conc st.h2o st.units st.comps st.gfw s.solnVol s.density (simplify (soln s))

/-- One pass of the loop, `/repo/src/PhreeqcRM.cpp:5977-6046`. -/
def entry (st : Init) (b1 b2 : List Int) (fr : List ℚ) (acc : Bin × List ℚ) (i : Nat) :
    Out (Bin × List ℚ) := do
  let n ← idx b1 (i : Int)
  let p := mixture st b2 fr i n acc.1
  let d ← concs st p.1 p.2
  let c ← writeComps b1.length st.comps.length i d acc.2
  .ok (p.1, c)

/-- `v.resize(n)`. -/
def resize (v : List ℚ) (n : Nat) : List ℚ := v.take n ++ List.replicate (n - v.length) 0

/-- `InitialPhreeqc2Concentrations`, `/repo/src/PhreeqcRM.cpp:5945-6055`: the array afterwards
and what the caller sees. An exception (no gram formula weights: before `FindComponents`) comes
from the first entry, when the array has been resized and nothing written. -/
def boundary (st : Init) (b1 b2 : List Int) (fr dest : List ℚ) : Out (List ℚ × Ret) :=
  if b1 = [] then
    .ok (dest, (returnHandler st.mode [] .fail "PhreeqcRM::InitialPhreeqc2Concentrations").2)
  else
    let c := resize dest (st.comps.length * b1.length)
    match (List.range b1.length).foldlM (entry st b1 b2 fr) ((fun _ => none), c) with
    | .ok p => .ok (p.2, .value .ok)
    | .throw => .ok (c, (returnHandler st.mode [] .fail
        "PhreeqcRM::InitialPhreeqc2Concentrations").2)
    | .ub => .ub

/-- The overload without mixing, `/repo/src/PhreeqcRM.cpp:5935-5943`. -/
def boundarySimple (st : Init) (b1 : List Int) (dest : List ℚ) : Out (List ℚ × Ret) :=
  boundary st b1 [] [] dest

end Verif.Boundary
